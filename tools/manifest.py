import json,re,glob
# collects theorem names C\d\d_* from Props files; statuses below override
props=[json.loads(l) for l in open('/verif/properties.jsonl')]
thm={}
for f in sorted(glob.glob('/verif/lean/Verif/Props/*.lean')):
    for m in re.finditer(r'^theorem (C\d+_\S+)',open(f).read(),re.M):
        thm.setdefault(m.group(1).split('_')[0],[]).append('Arboris.'+m.group(1))
notes=json.load(open('/verif/tools/notes.json'))
out=[]
for p in props:
    t=thm.get(p['id'],[])
    n=notes.get(p['id'],{})
    if not t: continue
    st=n.get('status') or ('partial' if any(x.endswith('_partial') or '_false' in x for x in t) else 'proved')
    out.append(dict(property=p['id'],status=st,theorems=t,note=n.get('note','')))
json.dump({"claims":out},open('/verif/MANIFEST.json','w'),indent=1,ensure_ascii=False)
print(len(out),'claims', [p['id'] for p in props if p['id'] not in thm])
