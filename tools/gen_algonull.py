#!/usr/bin/env python3
"""Generate Verif/Props/CAlgoNull.lean (C78) from the signatures of the algorithms in Verif/IAlgo."""
import re
R='/verif/lean/Verif/'
files=['NonMod','BSearch','MinMax','Partition','Modify','SetOp','Heap','Sort']
csrc={'NonMod':'c_non_modifying.c','BSearch':'c_bsearch.c','MinMax':'c_min_max.c','Partition':'c_partitioning.c','Modify':'c_modifying.c','SetOp':'c_set_op.c','Heap':'c_heap.c','Sort':'c_sorting.c'}
exec(open('/verif/tools/gen_forms.py').read().split('def binders')[0].split('# macro')[0].split("src=")[0].split('hdr=')[0]) if False else None
def binders(s):
    out=[];i=0
    while i<len(s):
        c=s[i]
        if c in '({':
            d=0;j=i
            while True:
                if s[j] in '({[': d+=1
                if s[j] in ')}]':
                    d-=1
                    if d==0: break
                j+=1
            n,t=s[i+1:j].split(':',1); out.append((c,n.split(),t.strip())); i=j+1
        elif c.isspace(): i+=1
        else: break
    return out
def neutral(t):
    t=t.strip()
    if t.startswith('('): t=t[1:-1]
    ps=[x.strip() for x in t.split('×')]
    v={'Bool':'false','Nat':'0','Addr':'0','Unit':'()'}
    return v[ps[0]] if len(ps)==1 else '('+', '.join(v[p] for p in ps)+')'
# arguments for results that the functions insist on
need={'lowerBound':['bound'],'upperBound':['bound'],'equalRange':['lower','upper'],'maxElement':['max'],'minElement':['min'],'minmaxElement':['min','max'],'partitionPoint':['point'],
 'uniqueCopy':['dLast'],'isHeapUntil':['until_'],'isSortedUntil':['until_']}
out=open('/verif/tools/algonull_head.txt').read()
for f in files:
    s=open(R+f'IAlgo/{f}.lean').read()
    th=[];vars_={};names=[]
    for m in re.finditer(r'/-- `(algo_\w+)`, [^\n]*? -/\ndef (\w+) (.*?) : M V (.*?) :=\s*\n?\s+if ',s,re.S):
        cname,n,sig,ret=m.groups()
        bs=[(x,t) for c,ns,t in binders(sig) for x in ns]
        hyp=[f'{x} = 0' for x,t in bs if t=='Addr']+[f'{x}.1 = 0' for x,t in bs if t=='Loc']+[f'{x}.isNull = true' for x in need.get(n,[])]
        snake=cname.replace('algo_','').replace('_by','') if cname not in ('algo_random_shuffle_by',) else 'random_shuffle'
        sg=' '.join(f'({x} : {t})' for x,t in bs)
        out+=f'''/-- `{cname}` -/
theorem C78_{snake} {sg} (h : {' ∨ '.join(hyp)}) : Harmless (V := V) (IAlgo.{n} {' '.join(x for x,t in bs)}) {neutral(ret)} := by
  unfold IAlgo.{n}
  nul h

'''
        names.append(n)
    print(f,names)
out+=open('/verif/tools/algonull_tail.txt').read()
open(R+'Props/CAlgoNull.lean','w').write(out)
