#!/usr/bin/env python3
"""Regenerate MANIFEST.json: theorem names are collected from lean/Verif/Props, statuses and notes are here."""
import json, re, glob, os
root = os.path.dirname(os.path.dirname(os.path.abspath(__file__)))
NOTES = json.load(open(os.path.join(root, 'tools', 'notes.json')))
thms = {}
for f in sorted(glob.glob(os.path.join(root, 'lean/Verif/Props/*.lean'))):
    for m in re.finditer(r'^theorem (C\d\d)_(\w+)', open(f).read(), re.M):
        thms.setdefault(m.group(1), []).append(f'Props.{m.group(1)}_{m.group(2)}')
claims = []
for l in open(os.path.join(root, 'properties.jsonl')):
    p = json.loads(l)['id']
    st, note = NOTES.get(p, ['todo', ''])
    if p not in thms:
        print('no theorem for', p); continue
    if st == 'todo':
        st, note = 'partial', 'work in progress'
        print('no note for', p)
    claims.append({'property': p, 'status': st, 'theorems': thms[p], 'note': note})
json.dump({'claims': claims}, open(os.path.join(root, 'MANIFEST.json'), 'w'), indent=1)
print(len(claims), 'claims', sum(len(c['theorems']) for c in claims), 'theorems')
