#!/usr/bin/env python3
"""Assemble DESIGN.md from design_head.md, the plan table and /tmp/ax.out (output of `#print axioms` for every manifest theorem)."""
import json,re,os
d=os.path.dirname(os.path.abspath(__file__))
s=open(d+'/design_head.md').read()
plan=json.load(open(d+'/plan.json'))
rows=['| id | modelled | proof |','|----|----------|-------|']+['| %s | %s | %s |'%tuple(r) for r in plan['rows']]
s=s.replace('@@PLAN@@','\n'.join(rows)).replace('@@MORE@@','\n'.join(plan['more'])).replace('@@DEV@@','\n'.join(plan['dev']))
ax={}
for l in re.sub(r',\n ',', ',open('/tmp/ax.out').read()).split('\n'):
    m=re.match(r"'(.*)' depends on axioms: \[(.*)\]",l)
    if m: ax.setdefault(m[2],[]).append(m[1]); continue
    m=re.match(r"'(.*)' does not depend on any axioms",l)
    if m: ax.setdefault('none',[]).append(m[1])
out=[]
for k in sorted(ax,key=len): out.append('* %s: %s.'%(k if k=='none' else '`'+k+'`',', '.join('`'+x.replace('Grf.','')+'`' for x in ax[k])))
s=s.replace('@@AX@@','(Names without the prefix `Grf.`.)\n\n'+'\n'.join(out))
s=s.replace('\n\n\n','\n\n')
open('/verif/DESIGN.md','w').write(s)
