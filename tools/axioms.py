#!/usr/bin/env python3
"""Write AXIOMS.md: the axioms every manifest theorem depends on (run after lake build)."""
import json,re,subprocess,os
root=os.path.join(os.path.dirname(os.path.abspath(__file__)),'..')
m=json.load(open(root+'/MANIFEST.json'))
th=[]
for c in m['claims']:
    for t in c['theorems']:
        if t not in th: th.append(t)
src='import Verif\n'+''.join(f'#print axioms {t}\n' for t in th)
p='/tmp/axioms_check.lean'; open(p,'w').write(src)
out=subprocess.run(['lake','env','lean',p],cwd=root+'/lean',capture_output=True,text=True).stdout
out=re.sub(r'\n\s+',' ',out)
sets={}
for l in out.splitlines():
    q=re.match(r".*?'(\S+)' depends on axioms: \[(.*)\]",l)
    if q: sets.setdefault(', '.join(sorted(x.strip() for x in q.group(2).split(','))),[]).append(q.group(1)); continue
    q=re.match(r".*?'(\S+)' does not depend on any axioms",l)
    if q: sets.setdefault('none',[]).append(q.group(1))
n=sum(len(v) for v in sets.values())
assert n==len(th),(n,len(th),out[:2000])
with open(root+'/AXIOMS.md','w') as f:
    f.write('# Axioms of the manifest theorems\n\nGenerated by tools/axioms.py from `#print axioms`.\n')
    for k in sorted(sets): f.write(f'\n## {k} ({len(sets[k])} theorems)\n\n'+'\n'.join('* `%s`'%t for t in sets[k])+'\n')
print({k:len(v) for k,v in sets.items()})
