#!/usr/bin/env python3
"""seeded/LOG.jsonl from the mutation results (/tmp/mut/results.jsonl) and tools/tightened.json."""
import json, os
here=os.path.dirname(os.path.abspath(__file__))
T=json.load(open(here+'/tightened.json')) if os.path.exists(here+'/tightened.json') else {}
out=here+'/../seeded/LOG.jsonl'
old=[json.loads(l) for l in open(out)] if os.path.exists(out) else []
res=[json.loads(l) for l in open('/tmp/mut/results.jsonl')] if os.path.exists('/tmp/mut/results.jsonl') else []
have={(o['id'],o.get('attempt',1)) for o in old}
cnt={}
for r in res:
    cnt[r['name']]=cnt.get(r['name'],0)+1
    k=(r['name'],cnt[r['name']])
    if k in have: continue
    old.append(dict(id=r['name'],attempt=k[1],definition=r['definition'],file=r['file'],edit=r['edit'],claim_broken=r['claim'],
        survived=r['survived'],first_failures=r['direct'],theorems_failed=r['failed'],theorems_tightened=[]))
for o in old:
    if o['id'] in T: o['theorems_tightened']=T[o['id']]['theorems']; o['note']=T[o['id']].get('note','')
with open(out,'w') as f:
    for o in old: f.write(json.dumps(o)+'\n')
print(len(old),'attempts',sum(o['survived'] for o in old),'survived')
