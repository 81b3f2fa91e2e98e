#!/bin/sh
# Writes AXIOMS.md: the axioms every theorem of MANIFEST.json depends on, as printed by Lean.
cd /verif/lean && python3 - <<'P' && lake env lean /tmp/axioms.lean > /tmp/axioms.txt 2>&1; python3 - <<'Q'
import json
m=json.load(open('/verif/MANIFEST.json'))
t=[x for c in m['claims'] for x in c['theorems']]
open('/tmp/axioms.lean','w').write("import Verif\n"+"\n".join(f"#print axioms {x}" for x in t)+"\n")
P
import re,collections
s=open('/tmp/axioms.txt').read()
d={}
for m in re.finditer(r"'([\w.']+)' depends on axioms: \[([^\]]*)\]",s): d[m[1]]=re.sub(r'\s+',' ',m[2])
for m in re.finditer(r"'([\w.']+)' does not depend on any axioms",s): d[m[1]]='none'
g=collections.defaultdict(list)
for k,v in d.items(): g[v].append(k.replace('Props.',''))
o=["# Axioms each theorem depends on","","Generated by tools/axioms.sh (`#print axioms`). All are Lean's own; names are in namespace `Props`.",""]
for k,v in sorted(g.items()): o+= [f"## {k} ({len(v)} theorems)","",", ".join(sorted(v)),""]
open('/verif/AXIOMS.md','w').write("\n".join(o))
print({k:len(v) for k,v in g.items()})
Q
