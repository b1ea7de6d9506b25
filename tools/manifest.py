#!/usr/bin/env python3
"""Regenerates MANIFEST.json: theorems are collected by their Cnn_ prefix from lean/Verif/Props."""
import json,re,glob,os
os.chdir('/verif')
notes=json.load(open('tools/notes.json'))
th={}
for f in sorted(glob.glob('lean/Verif/Props/*.lean')):
    s=open(f).read()
    ns=re.search(r'^namespace (\S+)',s,re.M).group(1)
    for m in re.finditer(r'^theorem (C\d\d+)_(\w+)',s,re.M):
        th.setdefault(m.group(1),[]).append('%s.%s_%s'%(ns,m.group(1),m.group(2)))
out=[]
for l in open('properties.jsonl'):
    p=json.loads(l); i=p['id']
    t=th.get(i,[]); n=notes.get(i,{})
    if not t: continue
    out.append(dict(property=i,status=n.get('status','proved'),theorems=t,note=n.get('note','')))
json.dump({"claims":out},open('MANIFEST.json','w'),indent=1)
print(len(out),'claims',sum(len(c['theorems']) for c in out),'theorems')
