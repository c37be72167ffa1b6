#!/usr/bin/env python3
"""Generates lean/Verif/Own/{Model,SimAll}.lean: the programs of Verif/Algo/*.lean with elements handled through callbacks, and their simulation theorems."""
import re
B='/verif/lean/Verif/'
FILES=['NonMod','BSearch','MinMax','Modify','Partition','SetOp','Heap','Sort']
SPECIAL={'transformLoop','transform','generateLoop','generate','generateNLoop','generateN','swp','uniform','maxBy','minBy','clamp','BestInv','Out','diffL',
 'pushLoop','pushHeap','partialSortLoop','partialSort','pscLoop','partialSortCopy','lg','median','upScan','downScan','hoare','threshold','introsort','ulLoop','unguardedLinear','linearSort',
 'insertionLoop','insertionSort','unguardedInsertion','finalSort','sort','tab'}
HAND_O={'swp'}
defs=[]
for f in FILES:
    t=open(B+f'Algo/{f}.lean').read()
    for m in re.finditer(r'/--((?:(?!-/)[\s\S])*)-/\ndef (\w+) ([\s\S]*?)(?=\n\n)',t):
        doc,name,rest=m.groups()
        if name in SPECIAL: continue
        if 'M V' not in rest: continue
        defs.append((f,name,doc,rest))
    pass
names={d[1] for d in defs}
usesO={}
def needO(d):
    f,name,doc,rest=d
    if re.search(r'\b(asg|swp)\b',rest): return True
    return any(usesO.get(n) for n in re.findall(r'\b\w+\b',rest) if n!=name and n in usesO)
for d in defs: usesO[d[1]]=needO(d)
def params(rest):
    # leading binders
    i=0; ps=[]
    while rest[i]=='(':
        j=rest.index(')',i)
        # nested parens
        dep=0
        for k in range(i,len(rest)):
            if rest[k]=='(':dep+=1
            if rest[k]==')':
                dep-=1
                if dep==0: j=k;break
        b=rest[i+1:j]
        ns,ty=b.split(':',1)
        for n in ns.split(): ps.append((n,ty.strip()))
        i=j+1
        while rest[i]==' ': i+=1
    return ps,rest[i:]
def tr(rest,name):
    ps,tail=params(rest)
    out=''
    if usesO[name]: out+='(o : AOps V) '
    from itertools import groupby
    ps2=[(n,{'V → V → Bool':'Loc → Loc → M V Bool','V → Bool':'Loc → M V Bool'}.get(ty,ty)) for n,ty in ps]
    for ty2,ns in groupby(ps2,key=lambda q:q[1]):
        out+='('+' '.join(n for n,_ in ns)+f' : {ty2}) '
    b=tail
    b=re.sub(r'\bcmp (comp|pred|eq|equal)\b',r'\1',b)
    b=re.sub(r'\btest pred\b','pred',b)
    b=re.sub(r'\basg\b','o.assign',b)
    b=re.sub(r'\bswp\b','swap o',b)
    for n in usesO:
        if usesO[n]: b=re.sub(r'(?<![\w.])'+n+r'\b(?! :)',n+' o',b) if n!='merge' or True else b
    return out+b
M='''import Verif.Own.Prim
import Verif.Algo.Sort
import Verif.Algo.SetOp
import Verif.Algo.BSearch
import Verif.Algo.MinMax
/-!
# The algorithms on elements that own memory

Generated by tools/gen_own.py from the programs in `Verif/Algo`: the same control flow, but elements are assigned and copied by the callbacks of their type and compared by callbacks of the caller,
which get references to them.
-/
namespace CC.Own
open CC CC.Tac
open CC.Algo (Slots dec)
variable {V : Type}

'''
for f,name,doc,rest in defs:
    M+='/--'+doc+'-/\ndef '+name+' '+tr(rest,name)+'\n\n'
M+='end CC.Own\n'
open(B+'Own/Model.lean','w').write(M)

# simulation theorems
def toks(s):
    r=[];i=0
    while i<len(s):
        if s[i] in ' ': i+=1; continue
        if s[i]=='(':
            dep=0
            for k in range(i,len(s)):
                if s[k]=='(':dep+=1
                if s[k]==')':
                    dep-=1
                    if dep==0: break
            r.append(s[i:k+1]); i=k+1; continue
        m=re.match(r"[\w.']+",s[i:])
        if not m: break
        if m.group(0) in('else','then','do','where','in'): break
        r.append(m.group(0)); i+=m.end()
    return r
S='''import Verif.Own.Model
import Verif.Own.Tac
/-!
# Simulation theorems for the generated programs (generated by tools/gen_own.py)
-/
namespace CC.Own
open CC CC.Tac
open CC.Algo (Slots)
variable {V W : Type} {o : AOps V} {e : AElem o W} {F : HProp V}

'''
for f,name,doc,rest in defs:
    ps,tail=params(rest)
    hyps='';al=[];cl=[];imp=[]
    for n,ty in ps:
        if n=='e': al.append('e2');cl.append('e2');imp.append('{e2 : Slots}')
        elif ty=='V → V → Bool': hyps+=f' (hf : Compares e {n}2 {n})'; imp.append(f'{{{n} : W → W → Bool}} {{{n}2 : Loc → Loc → M V Bool}}'); al.append(n);cl.append(n+'2')
        elif ty=='V → Bool': hyps+=f' (hg : Tests e {n}2 {n})'; imp.append(f'{{{n} : W → Bool}} {{{n}2 : Loc → M V Bool}}'); al.append(n);cl.append(n+'2')
        elif 'M V' in ty:
            k=ty.count('→'); xs=' '.join('xyz'[i] for i in range(k))
            hyps+=f' (hc : ∀ {xs}, SimE e F ({n} {xs}) ({n}2 {xs}))'
            imp.append(f'{{{n} : {ty.replace("M V","M W")}}} {{{n}2 : {ty}}}'); al.append(n);cl.append(n+'2')
        else: imp.append(f'{{{n} : {ty}}}'); al.append(n);cl.append(n)
    rt=re.match(r": ([^\n]*?)M V",tail)
    struct = tail.startswith(': Nat → ')
    osrc=' o' if usesO[name] else ''
    if name in('fillN','forEachN','heapifyLoop','shuffleLoop'):
        if name=='fillN': imp+=['{n : Nat}','{value : Loc}'];al+=['n','value'];cl+=['n','value']
        if name=='forEachN': imp+=['{n : Nat}','{op : Loc → M W Unit}','{op2 : Loc → M V Unit}'];al+=['n','op'];cl+=['n','op2']; hyps+=' (hc : ∀ x, SimE e F (op x) (op2 x))'
        if name in('heapifyLoop','shuffleLoop'): imp+=['{n : Nat}'];al+=['n'];cl+=['n']
        gen='' if name in('heapifyLoop','shuffleLoop') else ' generalizing first'
        S+=f"theorem S_{name} {' '.join(imp)}{hyps} : SimE e F (Algo.{name} {' '.join(al)}) (Own.{name}{osrc} {' '.join(cl)}) := by\n  induction n{gen} with\n  | zero => exact SimE.pure\n  | succ n ih =>\n    rw [Algo.{name}, Own.{name}]\n    sim\n"
    elif 'partial_fixpoint' in tail:
        body=tail
        calls=[toks(body[m.end():]) for m in re.finditer(r'(?<![\w.])'+name+r'\b',body)]
        fixed=[all(len(c)>i and c[i]==ps[i][0] for c in calls) and not re.search(r'let '+ps[i][0]+r' (←|:=)',body) for i in range(len(ps))]
        var=[i for i in range(len(ps)) if not fixed[i]]
        fa=' '.join(al[i] for i in range(len(ps)) if fixed[i])
        va=' '.join(al[i] for i in var)
        S+=f"theorem S_{name} {' '.join(imp)}{hyps} : SimE e F (Algo.{name} {' '.join(al)}) (Own.{name}{osrc} {' '.join(cl)}) := by\n"
        S+=f"  refine Algo.{name}.fixpoint_induct {fa} (fun f' => ∀ {va}, SimE e F (f' {va}) (Own.{name}{osrc} {' '.join(cl)})) Sim.adm{len(var)} ?_ {va}\n  intro f' ih {va}\n  rw [Own.{name}]\n  sim\n"
    else:
        S+=f"theorem S_{name} {' '.join(imp)}{hyps} : SimE e F (Algo.{name} {' '.join(al)}) (Own.{name}{osrc} {' '.join(cl)}) := by\n  unfold Algo.{name} Own.{name}\n  sim\n"
    h='‹_›' 
    arg=' hf' if 'hf :' in hyps else ' hg' if 'hg :' in hyps else ''
    if 'hc :' in hyps:
        S+=f"macro_rules | `(tactic| sim1) => `(tactic| (with_reducible refine S_{name} ?_; intros))\n\n" if 'hf :' not in hyps else 'XX'
    else:
        S+=f"set_option hygiene false in\nmacro_rules | `(tactic| sim1) => `(tactic| with_reducible exact S_{name}{arg})\n\n"
S+='end CC.Own\n'
open(B+'Own/SimAll.lean','w').write(S)
print(len(defs))
