#!/usr/bin/env python3
"""Generate lean/Verif/Model/GaussTables.lean from the tables in /repo (nodes.cpp, segment.cpp):
each case becomes the list of its assignments (index, value * 10^scale) in program order."""
import re,os
root=os.path.dirname(os.path.dirname(os.path.abspath(__file__)))
def parse(fn,name,a,b):
    tab=[];cur=None
    for n,l in list(enumerate(open(fn).read().split('\n'),1))[a-1:b]:
        m=re.match(r'\s*case (\d+)',l)
        if m:
            if cur is None or cur[3]: cur=[[],[],n,False]; tab.append(cur)
            cur[0].append(int(m.group(1))); continue
        m=re.match(r'\s*'+name+r'\((\d+)\)\s*=\s*\(?(-?[\d.]+)\)?;',l)
        if m: cur[1].append((int(m.group(1)),m.group(2)))
        elif re.match(r'\s*break',l): cur[3]=True
        elif l.strip() and cur is not None and not cur[3]: raise SystemExit('unparsed '+l)
    return tab
def digits(v): return len(v.split('.')[1]) if '.' in v else 0
def num(v,S):
    neg=v.startswith('-'); v=v.lstrip('-')
    i,_,f=v.partition('.')
    k=int(i+f.ljust(S,'0'))
    return -k if neg else k
P=parse('/repo/src/numerics/nodes.cpp','pts',97,502)
W=parse('/repo/src/numerics/quadrature/segment.cpp','wts',7,412)
S=max(digits(v) for t in (P,W) for c in t for _,v in c[1])
print('scale',S,'max orders',P[-1][0],W[-1][0])
out=[f'''/-!
GENERATED by tools/gen_gauss.py from the tables of /repo; do not edit.

Gauss-Legendre tables: `Nodes::get_gauss_legendre_segment_nodes` (src/numerics/nodes.cpp:97-502) and
`SegmentQuadrature::get_segment_weights_gl` (src/numerics/quadrature/segment.cpp:7-412).  A case of
the `switch` is the list of its assignments `view(index) = value` in program order; `value` is the
decimal constant of the source times `10^{S}`, exactly (the compiler rounds it to double).  `none` =
no case (the switch has no default).
-/
namespace DG

/-- decimal places of the constants -/
def gaussScale : Nat := {S}

''']
for nm,T,doc in (('glNodeWrites',P,'nodes.cpp:97-502'),('glWeightWrites',W,'segment.cpp:7-412')):
    out.append(f'/-- assignments of each case, {doc} -/\ndef {nm} (order : Nat) : Option (List (Nat × Int)) :=\n  match order with\n')
    for orders,ws,n,_ in T:
        out.append('  '+' '.join(f'| {o}' for o in orders)+' => some [')
        out.append(',\n'.join(f'      ({i}, {num(v,S)})' for i,v in ws).lstrip()+']\n')
    out.append('  | _ => none\n\n')
out.append('end DG\n')
open(root+'/lean/Verif/Model/GaussTables.lean','w').write(''.join(out))
