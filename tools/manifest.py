#!/usr/bin/env python3
"""Regenerate MANIFEST.json: collect theorems named Cnn_* from the Props modules; status from notes.json."""
import json,re,glob,os
root=os.path.dirname(os.path.dirname(os.path.abspath(__file__)))
notes=json.load(open(root+'/tools/notes.json'))
th={}
for f in sorted(glob.glob(root+'/lean/Verif/Props/*.lean')):
    for m in re.finditer(r'^theorem (C(\d\d)_\w+)',open(f).read(),re.M):
        th.setdefault('C'+m.group(2),[]).append('Idc.'+m.group(1))
claims=[]
for l in open(root+'/properties.jsonl'):
    p=json.loads(l)['id']
    t=th.get(p,[]); n=notes.get(p,{})
    if n.get('status')=='not_applicable': claims.append(dict(property=p,status='not_applicable',theorems=[],note=n['note'])); continue
    if not t: print('no theorem',p); continue
    st=n.get('status') or ('partial' if any(x.endswith('_partial') for x in t) else 'proved')
    claims.append(dict(property=p,status=st,theorems=t,note=n.get('note','')))
json.dump({'claims':claims},open(root+'/MANIFEST.json','w'),indent=1)
print(len(claims),'claims',sum(len(c['theorems']) for c in claims),'theorems')
