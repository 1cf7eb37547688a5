#!/usr/bin/env python3
"""Register a property: register.py spec.json with keys modules, claims, props, design (list of rows), after."""
import json,sys
d=json.load(open(sys.argv[1]))
s=open('/verif/lean/Verif.lean').read().rstrip('\n')
for m in d['modules']:
    m=m if m.startswith('Verif.') else 'Verif.'+m
    if 'import '+m+'\n' not in s+'\n': s+='\nimport '+m
open('/verif/lean/Verif.lean','w').write(s+'\n')
open('/verif/tools/claims.txt','a').write(''.join(c+'\n' for c in d['claims']))
p='/verif/tools/gen_properties.py'
s=open(p).read()
s=s.replace("out = os.path","\n".join(d['props'])+"\n\nout = os.path",1)
open(p,'w').write(s)
p='/verif/DESIGN.md'
s=open(p).read().split('\n')
i=max(k for k,l in enumerate(s) if l.startswith('| C'))
s[i+1:i+1]=d['design']
open(p,'w').write('\n'.join(s))
