#!/bin/sh
# Regenerate lean/Verif.lean (imports of every module) and MANIFEST.json.
cd "$(dirname "$0")/../lean" && find Verif -name '*.lean' | sort | sed 's/\.lean$//; s,/,.,g; s/^/import /' > Verif.lean
cd .. && python3 tools/manifest.py
