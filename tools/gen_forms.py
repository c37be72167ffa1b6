#!/usr/bin/env python3
"""Generate Verif/IAlgo/Forms.lean (the comparison-free macros of include/c_algorithm.h) and Verif/Props/CForms.lean (C79) from the theorems of C62-C64."""
import re,os
R='/verif/lean/Verif/'
hdr=open('/repo/include/c_algorithm.h').read().split('\n')
src=''.join(open(R+'Props/'+f).read() for f in ('CIterAlgo.lean','CIterModify.lean','CIterSort.lean'))
models=''.join(open(R+'IAlgo/'+f).read() for f in ('NonMod.lean','BSearch.lean','MinMax.lean','Modify.lean','SetOp.lean','Heap.lean','Sort.lean'))
# macro, lean definition, source theorem
F=[('mismatch','mismatch','C62_mismatch'),('equal','equal','C62_equal'),('find','findBy','C62_find'),('find_first_of','findFirstOf','C62_find_first_of'),
('find_last_of','findLastOf','C62_find_last_of'),('adjacent_find','adjacentFind','C62_adjacent_find'),('search','search','C62_search'),('search_last','searchLast','C62_search_last'),
('search_n','searchN','C62_search_n'),('search_last_n','searchLastN','C62_search_last_n'),('unique','unique','C63_unique'),('unique_copy','uniqueCopy','C63_unique_copy'),
('is_sorted','isSorted','C64_is_sorted'),('is_sorted_until','isSortedUntil','C64_is_sorted_until_partial'),('sort','sort','C64_sort_short_partial'),
('partial_sort','partialSort','C64_partial_sort_partial'),('partial_sort_copy','partialSortCopy','C64_partial_sort_copy_partial'),
('lower_bound','lowerBound','C62_lower_bound'),('upper_bound','upperBound','C62_upper_bound'),('binary_search','binarySearch','C62_binary_search'),('equal_range','equalRange','C62_equal_range'),
('merge','merge','C63_merge'),('includes','includes','C63_includes'),('set_difference','setDifference','C63_difference'),('set_intersection','setIntersection','C63_intersection'),
('set_symmetric_difference','setSymDifference','C63_symmetric_difference'),('set_union','setUnion','C63_union'),
('is_heap','isHeap','C64_is_heap'),('is_heap_until','isHeapUntil','C64_is_heap_until_partial'),('make_heap','makeHeap','C64_make_heap_partial'),('push_heap','pushHeap','C64_push_heap'),
('pop_heap','popHeap','C64_pop_heap'),('sort_heap','sortHeap','C64_sort_heap'),
('max_element','maxElement','C62_max_element'),('min_element','minElement','C62_min_element'),('minmax_element','minmaxElement','C62_minmax_element'),
('lexicographical_compare','lexCompare','C62_lexicographical_compare')]
def binders(s):
    """split 'a binder list' into [(open, names, type)] top-level groups"""
    out=[];i=0
    while i<len(s):
        c=s[i]
        if c in '({':
            d=0;j=i
            while True:
                if s[j] in '({[': d+=1
                if s[j] in ')}]':
                    d-=1
                    if d==0: break
                j+=1
            body=s[i+1:j]; n,t=body.split(':',1)
            out.append((c,n.split(),t.strip())); i=j+1
        elif c.isspace(): i+=1
        else: break
    return out,s[i:]
fm=open(R+'IAlgo/Forms.lean','w'); pr=open(R+'Props/CForms.lean','w')
fm.write('''import Verif.IAlgo.NonMod
import Verif.IAlgo.BSearch
import Verif.IAlgo.MinMax
import Verif.IAlgo.Modify
import Verif.IAlgo.SetOp
import Verif.IAlgo.Heap
import Verif.IAlgo.Sort
import Verif.Core.Ty
/-!
# The comparison-free forms of the algorithms

The macros `c_algo_x(…)` of include/c_algorithm.h that call `algo_x_by(…)` with the comparison of the element type, which they read through the first iterator.
Generated by tools/gen_forms.py.
-/
namespace CC.IAlgo.Form
open CC CC.Iter CC.IAlgo
variable {V : Type}

/-- `__c_get_less(iter)`, include/c_def.h:328.  The table of the type is a parameter, see Verif/Core/Ty.lean -/
def getLess (E : Types V) (x : Addr) : M V (V → V → Bool) := do
  let t ← typeOf x
  pure (E t).less

/-- `__c_get_equal(iter)`, include/c_def.h:329 -/
def getEqual (E : Types V) (x : Addr) : M V (V → V → Bool) := do
  let t ← typeOf x
  pure (E t).equal

''')
pr.write(open('/verif/tools/forms_head.txt').read())
for mac,lean,th in F:
    ln=[k for k,l in enumerate(hdr) if re.match(r'#define c_algo_%s\('%mac,l)][0]
    e=ln
    while hdr[e].endswith('\\'): e+=1
    text=' '.join(hdr[ln:e+1])
    kind='less' if '__c_get_less' in text else 'equal'
    get='getLess' if kind=='less' else 'getEqual'
    who=re.search(r'__c_get_\w+\((\w+)\)',text).group(1)
    assert who==re.match(r'#define c_algo_\w+\((\w+)',text).group(1)
    m=re.search(r'^def %s (.*?) :\s*M V (.*?) :=\s'%lean,models,re.M|re.S)
    bs,_=binders(m.group(1)); ret=m.group(2).strip()
    names=[(n,t) for c,ns,t in bs for n in ns]
    assert names[-1][1]=='V → V → Bool',(lean,names)
    args=names[:-1]
    sig=' '.join('(%s : %s)'%x for x in args)
    firstn=[n for n,t in args if t=='Addr'][0]
    cite='%d'%(ln+1) if e==ln else '%d-%d'%(ln+1,e+1)
    fm.write(f'''/-- `c_algo_{mac}`, include/c_algorithm.h:{cite} -/
def {lean} (E : Types V) {sig} : M V {ret if ' ' not in ret or ret.startswith('(') else '('+ret+')'} := do
  let p ← {get} E {firstn}
  IAlgo.{lean} {' '.join(n for n,t in args)} p

''')
    # theorem
    m=re.search(r'^theorem %s (.*?):=( by)?\n'%th,src,re.M|re.S)
    st=m.group(1)
    bs,rest=binders(st)
    assert rest.startswith(':'),(th,rest[:50])
    cv='pred' if re.search(r'\bpred\b',rest) else 'comp'
    rep=f'(E r.ty).{kind}'
    expl=[];outb=[]
    for c,ns,t in bs:
        if ns==[cv]:
            if c=='(': expl.append(rep)
            continue
        t2=re.sub(r'\b%s\b'%cv,rep,t)
        outb.append(f'{c}{" ".join(ns)} : {t2}'+(')' if c=='(' else '}'))
        if c=='(': expl+=ns
    concl=re.sub(r'\bIAlgo\.%s\b'%lean,'Form.%s E'%lean,rest)
    concl=re.sub(r' %s\)'%cv,')',concl,count=1)  # the comparison argument of the call
    concl=re.sub(r'\b%s\b'%cv,rep,concl)
    partial='_partial' if th.endswith('_partial') else ''
    two='G1 ∗ G2' in st
    hv='hs.fst'
    if two: at='(ho.mono2 ho2 hs.fst)'
    elif 'OutVar r' in st: at='(ho.arg.mono hs.fst)'
    elif 'OutArg r' in st: at='(ho.mono hs.fst)'
    else: at='hs.fst'
    if two and 'OutVar' in st: at='(ho.arg.mono2 ho2.arg hs.fst)'
    pr.write(f'''/-- `c_algo_{mac}` -/
theorem C79_{mac}{partial} (E : Types V) {' '.join(outb)} {concl.strip()} := by
  have hat := {at}
  simp only [Form.{lean}, Form.{get}, bind_assoc, pure_bind]
  exact type_at (At.mono hat (by cancel)) ({th} {' '.join(expl)})

''')
fm.write('end CC.IAlgo.Form\n'); pr.write('@@TAIL@@'); fm.close(); pr.close()
p=R+'Props/CForms.lean'; s=open(p).read()
# NULL
tail=open('/verif/tools/forms_tail.txt').read()
s=s.replace('@@TAIL@@',tail); open(p,'w').write(s)
