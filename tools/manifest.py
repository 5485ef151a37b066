#!/usr/bin/env python3
"""Regenerates MANIFEST.json: groups theorems named Cnn_* in lean/Verif/Props by property."""
import re,glob,json,os
root=os.path.dirname(os.path.dirname(os.path.abspath(__file__)))
props=[json.loads(l) for l in open(root+'/properties.jsonl') if l.strip()]
notes=json.load(open(root+'/tools/notes.json')) if os.path.exists(root+'/tools/notes.json') else {}
th={}
for f in sorted(glob.glob(root+'/lean/Verif/Props/*.lean')):
    for m in re.finditer(r'^theorem (C\d\d\w*)',open(f).read(),re.M):
        th.setdefault(re.match(r'C\d+',m.group(1)).group(0),[]).append('Verif.Props.'+m.group(1))
claims=[]
for p in props:
    i=p['id']; ts=th.get(i,[])
    if not ts: continue
    st='partial' if any(t.endswith('_partial') for t in ts) else 'proved'
    claims.append({'property':i,'status':st,'theorems':ts,'note':notes.get(i,p['title'])})
json.dump({'claims':claims},open(root+'/MANIFEST.json','w'),indent=1)
print(len(claims),'claims;', [p['id'] for p in props if p['id'] not in th])
