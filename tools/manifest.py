#!/usr/bin/env python3
"""Regenerates MANIFEST.json from the theorem names in lean/Verif/Props (Cnn_...) and tools/status.json."""
import glob,json,re,os
root=os.path.dirname(os.path.dirname(os.path.abspath(__file__)))
thms={}
for f in sorted(glob.glob(root+'/lean/Verif/Props/*.lean')):
    ns=None
    for l in open(f):
        m=re.match(r'namespace (\S+)',l)
        if m: ns=m.group(1)
        m=re.match(r'theorem (C\d\d+)(_\w+)',l)
        if m: thms.setdefault(m.group(1),[]).append(ns+'.'+m.group(1)+m.group(2))
status=json.load(open(root+'/tools/status.json'))
claims=[]
for l in open(root+'/properties.jsonl'):
    c=json.loads(l)['id']
    st,note=status.get(c,["partial","not yet proved"])
    t=thms.pop(c,[])
    if not t: print('no theorems for',c); continue
    claims.append({"property":c,"status":st,"theorems":t,"note":note})
if thms: print('unassigned',thms)
json.dump({"claims":claims},open(root+'/MANIFEST.json','w'),indent=1)
