#!/usr/bin/env python3
"""Generates lean/Verif/Props/COwnAll.lean: the theorems about the algorithms (C41-C51) for elements that own memory."""
import re
B='/verif/lean/Verif/'
usesO={}
for f in ['Own/Model.lean','Own/Special.lean']:
    for m in re.finditer(r'^def (\w+) (\(o : AOps V\))?',open(B+f).read(),re.M): usesO[m.group(1)]=bool(m.group(2))
TH=[]
SKIP={'C45_sorted','C50_empty','C50_max','C50_min','C50_clamp','C51_uniform','C47_search_zero','C47_for_each','C47_for_each_n','C47_list_range','C47_slist_range','C47_vector_range','C47_deque_range',
'C41_introsort_permutes','C41_sort_long_violated','C42_partial_sort','C42_partial_sort_copy','C43_push_heap','C43_top','C44_is_sorted_until_partial','C44_is_heap_until_partial','C44_is_sorted_until_violated','C44_is_heap_until_violated',
'C46_difference_partial','C46_difference_violated','C48_swap','C49_partition_copy'}
for f in ['CSearch','CModify','CSort']:
    t=open(B+f'Props/{f}.lean').read()
    for m in re.finditer(r'/--((?:(?!-/)[\s\S])*)-/\ntheorem (C\d\d_\w+)([\s\S]*?) :=[ \n]',t):
        doc,name,st=m.groups()
        if name in SKIP or name.startswith('C52'): continue
        TH.append((doc,name,st))
HEAD='''import Verif.Own.Transfer
import Verif.Props.CSearch
import Verif.Props.CModify
import Verif.Props.CSort
/-!
# Property C67: algorithms on elements that own memory (generated by tools/gen_ownprops.py)

The same theorems as C41, C43 and C45-C51, for elements that are objects with arbitrary callbacks and may own memory: `oseg e c i vs` are the objects in a range with all they own, `Own e P` objects whose
values are described by `P`.  Since the fragments before and after are exactly the objects of the ranges, no object is lost, none is shared or destroyed twice, and no temporary object or what it owned is left.
Memories and callbacks that meet the hypotheses are constructed in Verif/Props/COwn.lean (`exists_boxes`, `boxCmp_ok`, `boxTest_ok` and the example there).
-/
namespace CC.Own
open CC CC.Tac
open CC.Algo (Slots seg Rng uniq uniqTail IsFirst IsLast FoundFirst FoundLast At AdjAt MatchAt RunAt Parted SplitAt FirstBest over overBack)
variable {V W : Type} {o : AOps V} (e : AElem o W) {P : HProp W} {c c' d : Slots} {i i' j k n : Nat} {vs us ws xs ys : List W} {value new : Loc} {w x : W} {comp : W → W → Bool} {comp2 eq2 : Loc → Loc → M V Bool}

'''
out=HEAD
for doc,name,st in TH:
    k=st.index('Triple nf')
    hyp,tri=st[:k],st[k:]
    hyp=hyp.rstrip(); assert hyp.endswith(':'),(name,hyp); hyp=hyp[:-1].rstrip()
    m=re.search(r'\((%s) '%'|'.join(sorted(usesO,key=len,reverse=True)),tri)
    fn=m.group(1); a=m.start()
    dep=0
    for z in range(a,len(tri)):
        if tri[z]=='(':dep+=1
        if tri[z]==')':
            dep-=1
            if dep==0: break
    prog=tri[a:z+1]; pre=tri[:a]; post=tri[z+1:]
    newname='C67_'+name[4:]
    cb=re.search(r'\b(comp|pred|eq|op)\b',prog)
    extra='';arg=''
    if cb:
        n=cb.group(1)
        un = n=='op' or (n=='pred' and 'pred : V → Bool' in hyp)
        if n=='op': extra=f' {{op2 : Loc → M V Unit}} (ho : Acts e op2 op)'; arg=' ho'
        elif un: extra=f' {{{n}2 : Loc → M V Bool}} (hg : Tests e {n}2 {n})'; arg=' hg'
        else: extra=f' {{{n}2 : Loc → Loc → M V Bool}} (hf : Compares e {n}2 {n})'; arg=' hf'
        prog=re.sub(r'\b(comp|pred|eq|op)\b',r'\g<1>2',prog)
    prog=prog.replace('('+fn+' ','(Own.'+fn+(' o' if usesO[fn] else '')+' ',1)
    def tr(x):
        x=re.sub(r'\bseg\b','oseg e',x)
        x=re.sub(r"(?<![\w'.])P(?![\w'.])",'Own e P',x)
        x=re.sub(r'Triple nf Own e P','Triple True (Own e P)',x); return x.replace('Triple nf','Triple True')
    names=[]
    for b in re.finditer(r'\(([\w\' ]+) : ',hyp): names+=b.group(1).split()
    hyp=hyp.replace('V →','W →').replace('→ V','→ W').replace('List V','List W').replace(': V)',': W)')
    prog=prog
    post=tr(post).replace('At vs','Algo.At vs') if False else tr(post)
    out+='/--'+doc+'-/\ntheorem '+newname+hyp+extra+' :\n    '+tr(pre)+prog+post+' := by\n'
    out+=f"  refine transfer1 (e := e) (S_{fn}{arg}) (Algo.{name} (nf := True) {' '.join(names)}) ?_ ?_ <;> intros <;> simp only [own_sep, own_hpure, own_ex, own_seg]\n\n"
out+='end CC.Own\n'
open(B+'Props/COwnAll.lean','w').write(out)
print(len(TH))
