"""convert mutation results (/tmp/mut/res*.jsonl) into /verif/seeded/LOG.jsonl"""
import json,glob,os
tight={}
p='/verif/tools/tightened.json'
if os.path.exists(p): tight=json.load(open(p))
out=[]
for f in sorted(glob.glob('/tmp/mut/res*.jsonl')):
    for l in open(f):
        r=json.loads(l)
        if r.get('skip'): continue
        key=r['definition']+'|'+r['edit']
        out.append(dict(file='lean/Verif/Model/'+r['file'],definition=r['definition'],edit=r['edit'],old=r['old'],new=r['new'],claim=r['claim'],
          killed=r['rc']!=0,failed=r['errors'],blocked=r['blocked_theorems'][:12]+(['... %d more'%(len(r['blocked_theorems'])-12)] if len(r['blocked_theorems'])>12 else []),
          tightened=tight.get(key,r.get('tightened',[])),note=r.get('note','')))
# keep older lines not regenerated
path='/verif/seeded/LOG.jsonl'; os.makedirs('/verif/seeded',exist_ok=True)
old=[json.loads(l) for l in open(path)] if os.path.exists(path) else []
keys={(o['definition'],o['edit'],o['killed']) for o in out}
keep=[o for o in old if (o['definition'],o['edit'],o['killed']) not in keys]
with open(path,'w') as g:
    for o in keep+out: g.write(json.dumps(o)+'\n')
print(len(keep),len(out),sum(not o['killed'] for o in out))
