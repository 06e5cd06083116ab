"""write /verif/AXIOMS.txt: the axioms each theorem of MANIFEST.json depends on (needs a finished lake build)"""
import json,subprocess,re,os
m=json.load(open('/verif/MANIFEST.json'))
th=[t for c in m['claims'] for t in c['theorems']]
open('/tmp/axgen.lean','w').write('import Verif\n'+'\n'.join('#print axioms '+t for t in th)+'\n')
out=subprocess.run(['lake','env','lean','/tmp/axgen.lean'],cwd='/verif/lean',capture_output=True,text=True).stdout
out=re.sub(r'\n\s+',' ',out)
lines=[]
for l in out.splitlines():
    r=re.match(r"'([^']+)' (depends on axioms: \[(.*)\]|does not depend on any axioms)",l)
    if r: lines.append((r.group(1),r.group(3) or 'none'))
    elif l.strip(): print('??',l[:200])
assert len(lines)==len(th),(len(lines),len(th))
with open('/verif/AXIOMS.txt','w') as f:
    f.write('# theorem: axioms (output of #print axioms, Lean 4.33.0); regenerate with tools/axioms.py\n')
    for a,b in lines: f.write(f'{a}: {b}\n')
from collections import Counter
print(Counter(b for _,b in lines))
