#!/usr/bin/env python3
"""Regenerate lean/Verif.lean (imports) and MANIFEST.json from the theorem names in lean/Verif/Props."""
import json,re,os,glob
root=os.path.dirname(os.path.dirname(os.path.abspath(__file__)))
mods=sorted(os.path.relpath(p,root+'/lean')[:-5].replace('/','.') for p in glob.glob(root+'/lean/Verif/**/*.lean',recursive=True))
open(root+'/lean/Verif.lean','w').write(''.join(f'import {m}\n' for m in mods))
notes=json.load(open(root+'/tools/notes.json'))
thms={}
for p in sorted(glob.glob(root+'/lean/Verif/Props/*.lean')):
    ns=[]
    for l in open(p):
        m=re.match(r'namespace (\S+)',l)
        if m: ns.append(m.group(1))
        m=re.match(r'end (\S+)',l)
        if m and ns and ns[-1]==m.group(1): ns.pop()
        m=re.match(r'(?:protected )?theorem (C\d\d+)_(\S+)',l)
        if m: thms.setdefault(m.group(1),[]).append('.'.join(ns+[m.group(1)+'_'+m.group(2)]))
ids=[json.loads(l)['id'] for l in open(root+'/properties.jsonl')]
claims=[]
for i in ids:
    n=notes.get(i,{})
    t=thms.get(i,[])
    st=n.get('status') or ('partial' if (not t or any(x.endswith('_partial') for x in t)) else 'proved')
    if not t: st='partial' if st!='not_applicable' else st
    if t or st=='not_applicable':
        claims.append(dict(property=i,status=st,theorems=t,note=n.get('note','')))
    else: print('no theorem yet:',i)
json.dump({'claims':claims},open(root+'/MANIFEST.json','w'),indent=1,ensure_ascii=False)
print(len(claims),'claims',sum(map(len,thms.values())),'theorems')
for i in thms:
    if i not in ids: print('UNKNOWN ID',i)
