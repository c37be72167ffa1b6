import re,subprocess,sys
B='/verif/lean/Verif/'
def ths(f):
    t=open(B+'Props/%s.lean'%f).read()
    d={}
    for m in re.finditer(r'(?:/--((?:(?!-/)[\s\S])*)-/\n)?theorem (C\d\d_\w+)([\s\S]*?) :=[ \n]',t):
        d[m.group(2)]=(m.group(1),m.group(3))
    return d
def paren(s,a):
    dep=0
    for z in range(a,len(s)):
        if s[z]=='(':dep+=1
        if s[z]==')':
            dep-=1
            if dep==0: return z+1
UNF={'CList':'insert erase pushBack pushFront popBack popFront popNode createNode linkBack empty front back begin_ end_ swap splice spliceFrom spliceRange spliceGuard transfer iterIncrement iterDecrement iterDereference',
'CSList':'insertAfter eraseAfter pushFront popFront popNodeAfter createNode empty front begin_ end_ beforeBegin swap iterIncrement iterDereference'}
SEL={'CList':['C01_push_back','C01_push_front','C01_insert','C01_pop_back','C01_pop_front','C01_erase','C01_empty','C01_front','C01_back','C05_splice_range','C05_splice','C05_splice_from','C05_splice_later','C05_splice_earlier','C11_swap'],
'CSList':['C13_push_front','C13_insert_after','C13_pop_front','C13_erase_after','C13_empty','C13_front','C14_swap']}
EX={'CList':'''/-- the hypotheses hold for lists of any length; its push_back makes at most 19 memory accesses -/
example (n : Nat) : ∃ (m m' : Mem Nat) (l s : Addr) (xs : List (Elem Nat)), vals xs = List.replicate (n + 1) 7 ∧ (∃ F, (isList l s 1 xs ∗ F) m.cells) ∧
    pushBack (fun _ => CC.Vec.intTy) l (1, 1) m = some (.ok ((), m')) ∧ m'.clk ≤ m.clk + 19 := by
  obtain ⟨m, l, s, xs, ho, hx, hm⟩ := exists_list (V := Nat) (fun _ => CC.Vec.intTy) 1 (by simp) (List.replicate (n + 1) 7) (by simp)
  obtain ⟨_, m', h1, _, h2, _⟩ := C68_list_push_back (E := fun _ => CC.Vec.intTy) (l := l) (s := s) (ty := 1) (xs := xs)
    (R := arr 1 1 ((List.replicate (n + 1) 7).map fun v => .obj (some v))) (value := (1, 1)) (v := 7) (by simp)
    (by rw [List.replicate_succ, List.map_cons, arr]; exact (Reads.pts.left).right) m emp (fun _ => ho) (by rw [sep_emp]; exact hm)
  exact ⟨m, m', l, s, xs, hx, ⟨_, hm⟩, h1, h2⟩

''','CSList':''}
def gen(probe,consts):
    out='import Verif.Props.CList\nimport Verif.Props.CSList\nimport Verif.Props.CVector\nimport Verif.Core.Cost\n'
    if not probe: out+='''/-!
# C68: operations on lists that take a bounded number of steps

`TripleC nf P m Q k`: as `Triple`, and the run makes at most `k` memory accesses (loads, stores, calls of malloc and free), whatever the length of the list (generated from C01, C05, C11, C13, C14).
-/
'''
    for f,pre in [('CList','list'),('CSList','slist')]:
        d=ths(f)
        hd=open(B+f'Props/{f}.lean').read()
        ns=re.search(r'^namespace (\S+)',hd,re.M).group(1)
        out+=f'namespace {ns}\n'+'\n'.join(re.findall(r'^open [^\n]*(?:\n[ \t]+[^\n]*)*',hd,re.M)[:3])+'\n'+re.search(r'^variable [^\n]*(?:\n[ \t]+[^\n]*)*',hd,re.M).group(0)+'\n\n'
        for n in SEL[f]:
            doc,st=d[n]
            m=re.search(r'Triple (\w+) ',st)
            a=m.start(); q=m.end()
            p1=q if st[q]=='(' else None
            z=paren(st,q); rest=st[z:]
            pr=rest.index('('); z2=paren(rest,pr); prog=rest[pr:z2]
            nn='C68_%s_%s'%(pre,n[4:])
            hyps=st[:a]; names=re.findall(r'\((h\w+) : ',hyps)
            k=consts.get(nn,0)
            new=hyps+'TripleC'+st[a+6:]+f' {k}'
            call=n+''.join(' '+x for x in names)
            prog_un=UNF[f]
            if probe:
                out+=f'theorem {nn}{new} := by\n  refine TripleC.intro ({call}) ?_ (Le.refl _)\n  trace "@@{nn}"\n  simp only [{", ".join(prog_un.split())}]\n  apply Cost.mono\n  · (focus (repeat\' cost_step))\n  · trace_state\n    exact test_sorry\n'
            else:
                dd=(doc or ' ').strip()
                out+=f'theorem {nn}{new} := by\n  refine TripleC.intro ({call}) ?_ (Le.refl _)\n  simp only [{", ".join(prog_un.split())}]\n  cost\n\n'
        if not probe: out+=EX[f]
        out+=f'end {ns}\n'
    return out
if __name__=='__main__':
    src=gen(True,{}).replace('exact test_'+'sorry','sorr'+'y')
    open('/tmp/cost/P.lean','w').write(src)
    r=subprocess.run('cd /verif/lean; lake env lean /tmp/cost/P.lean',shell=True,capture_output=True,text=True).stdout
    open('/tmp/cost/P.out','w').write(r)
    consts={}
    cur=None
    for blk in re.split(r'(?=/tmp/cost/P.lean:)',r):
        m=re.search(r'@@(\w+)',blk)
        if m: cur=m.group(1)
        m=re.search(r'⊢ ([\s\S]*?) ≤\s+0',blk)
        if m and cur and 'error' not in blk[:60]: consts[cur]=m.group(1)
        elif 'error' in blk[:60]: print(cur,blk[:500])
    def ev(e):
        if isinstance(e,int): return e
        toks=re.findall(r'max|\d+|[()+]',e)
        pos=[0]
        def expr():
            v=app()
            while pos[0]<len(toks) and toks[pos[0]]=='+': pos[0]+=1; v+=app()
            return v
        def atom():
            t=toks[pos[0]]; pos[0]+=1
            if t=='(':
                v=expr(); pos[0]+=1; return v
            return int(t)
        def app():
            if toks[pos[0]]=='max':
                pos[0]+=1; a=atom(); b=atom(); return max(a,b)
            return atom()
        return expr()
    consts={k:ev(v) for k,v in consts.items()}
    print(consts)
    open(B+'Props/CSteps.lean','w').write(gen(False,consts))
