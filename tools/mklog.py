#!/usr/bin/env python3
"""Append the results of a mutation batch to seeded/LOG.jsonl: mklog.py spec.json outdir [tightened.json] [round]"""
import json,sys,os
spec=json.load(open(sys.argv[1])); out=sys.argv[2]
tight=json.load(open(sys.argv[3])) if len(sys.argv)>3 else {}
rnd=sys.argv[4] if len(sys.argv)>4 else "1"
n=0
with open('/verif/seeded/LOG.jsonl','a') as f:
    for s in spec:
        p=os.path.join(out,s['id']+'.json')
        if not os.path.exists(p): continue
        r=json.load(open(p))
        f.write(json.dumps({"id":s['id'],"round":rnd,"definition":f"lean/Verif/{s['file']} {s.get('def','')}".strip(),
          "edit":{"old":s['old'],"new":s['new'],**({"also":s['also']} if s.get('also') else {})},"breaks":{"claims":s.get('claims',[]),"why":s.get('why','')},
          "failed":(lambda x: __import__("ast").literal_eval(x) if isinstance(x,str) else x)(r.get("failed",[])),"caught":bool(r.get('failed')),
          "expected_but_not_failing":r.get('missed',[]),
          "tightened":tight.get(s['id'],{}).get('tightened',[]),"note":tight.get(s['id'],{}).get('note','')})+"\n"); n+=1
print(n)
