#!/usr/bin/env python3
"""Generate MANIFEST.json + Axioms.lean from theorem names and notes."""
import re,glob,json,os
root='/verif/lean/Verif'
thms={}
mods=[]
for f in sorted(glob.glob(root+'/Props/*.lean')):
    s=open(f).read()
    mods.append('Verif.Props.'+os.path.basename(f)[:-5])
    ns=[]
    # crude namespace tracking
    for line in s.split('\n'):
        m=re.match(r'namespace (\S+)',line)
        if m: ns.append(m.group(1)); continue
        m=re.match(r'end (\S+)',line)
        if m and ns and ns[-1]==m.group(1): ns.pop(); continue
        m=re.match(r'(?:protected )?theorem (C\d+_\S+)',line)
        if m:
            name='.'.join(ns+[m.group(1)])
            thms.setdefault(m.group(1).split('_')[0],[]).append(name)
notes=json.load(open('/verif/tools/notes.json')) if os.path.exists('/verif/tools/notes.json') else {}
claims=[]
for l in open('/verif/properties.jsonl'):
    d=json.loads(l); i=d['id']
    t=thms.get(i,[])
    n=notes.get(i,{})
    if not t and not n: continue
    st=n.get('status') or ('partial' if any('_partial' in x or '_violated' in x for x in t) else 'proved')
    claims.append({"property":i,"status":st,"theorems":t,"note":n.get('note','')})
json.dump({"claims":claims},open('/verif/MANIFEST.json','w'),indent=1,ensure_ascii=False)
with open(root+'/Axioms.lean','w') as f:
    for m in mods: f.write(f'import {m}\n')
    f.write('\n/-! Axioms of every claimed theorem (expected: at most `propext`,\n`Classical.choice`, `Quot.sound`). -/\n\n')
    for i in sorted(thms,key=lambda c:int(c[1:])):
        for t in thms[i]: f.write(f'#print axioms {t}\n')
open('/verif/lean/Verif.lean','w').write(''.join(f'import {m}\n' for m in mods)+'import Verif.Axioms\n')
print(len(claims),'claims',sum(len(v) for v in thms.values()),'theorems')
missing=[json.loads(l)['id'] for l in open('/verif/properties.jsonl') if json.loads(l)['id'] not in thms]
print('missing',missing)
