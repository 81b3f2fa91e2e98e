import sys,json
# usage: addprop.py file.json   [{"p":[...6]},...], {"notes":{}}
d=json.load(open(sys.argv[1]))
s=open('/verif/tools/props.py').read()
for a in d.get('props',[]):
    assert '"%s"'%a[0] not in s, a[0]
    s=s.replace('import sys\n','p(%s)\n\nimport sys\n'%',\n '.join(json.dumps(x,ensure_ascii=False) for x in a),1) if 0 else s[:s.rindex('import sys\n')]+'p(%s)\n\n'%',\n '.join(json.dumps(x,ensure_ascii=False) for x in a)+s[s.rindex('import sys\n'):]
open('/verif/tools/props.py','w').write(s)
n=json.load(open('/verif/tools/notes.json'))
n.update(d.get('notes',{}))
json.dump(n,open('/verif/tools/notes.json','w'),indent=1,ensure_ascii=False)
