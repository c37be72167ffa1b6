# generates lean/Verif/Tree/Fuel.lean from lean/Verif/Tree/Model.lean
import re,os
R=os.path.dirname(os.path.dirname(os.path.abspath(__file__)))
src=open(R+'/lean/Verif/Tree/Model.lean').read()
loops=['minLoop','maxLoop','insertLoop','eraseLoop','climbRight','climbLeft','descend','descendEq','lowerLoop','upperLoop','findLoop']
funs=['minimum','maximum','rebalanceInsert','chooseErase','fixLeftmost','fixRightmost','unlinkSelf','rebalanceErase','insert','iterIncrement','iterDecrement','insertIter',
 'insertUniqueValue','insertUnique','insertEqualValue','insertEqual','erase','lowerBound','upperBound','find','equalRange']
allf=loops+funs
out=[]
# defs order as in source
pos=sorted(allf,key=lambda f: re.search(r'^def %s\b'%f,src,re.M).start())
usesE={}
for f in pos:
    m=re.search(r'^/--(?:(?!-/).)*-/\ndef %s\b.*?(?=\n\n|\n/--|\npartial_fixpoint)'%f,src,re.M|re.S)
    if not m: raise Exception(f)
    blk=m.group(0)
    # doc up to -/ nearest preceding
    i=blk.rindex('/--',0,blk.index('\ndef %s'%f)+1)
    blk=blk[i:]
    doc,body=blk.split('-/\n',1)
    cite=re.search(r'c_tree\.c:[\d, -]+\d',doc).group(0) if re.search(r'c_tree\.c:[\d, -]+\d',doc) else None
    # split header and body
    hm=re.match(r'def %s (.*?) :=\s'%f,body,re.S)
    args=hm.group(1); b=body[hm.end():]
    usesE[f]=bool(re.search(r'\bE\b',b))
    for g in allf:
        b=re.sub(r'(?<![\w.])%s E (?=[\w(])'%g,'%sF E N '%g,b)
        b=re.sub(r'(?<![\w.])%s (?=[\w(])(?!E )'%g,'%sF N '%g,b)
    d='/-- `%s` with the number of iterations of its loops limited by `N`%s -/\n'%(f,' (%s)'%cite if cite else '')
    if f in loops:
        d+='def %sF (N : Nat) %s :=\n  match N with\n  | 0 => ub\n  | N + 1 =>\n    %s\n'%(f,args,b.rstrip('\n').replace('\n','\n    '))
    else:
        nl = '' if b.startswith('do\n') or not '\n' in b else ''
        d+='def %sF (N : Nat) %s := %s\n'%(f,args,b)
    out.append((f,d,args))
def names(args):
    a=re.split(r' : M ',args)[0]
    r=[]
    for g in re.findall(r'\(([^)]*?) : ',a):
        r+=g.split()
    return r
def typ(args): return re.split(r' : (?=M )',args)[1]
C={"minLoop": [1, 0], "minimum": [1, 0], "maxLoop": [1, 0], "maximum": [1, 0], "insertLoop": [59, 0], "rebalanceInsert": [59, 3], "eraseLoop": [86, 0], "chooseErase": [1, 4], "fixLeftmost": [1, 5], "fixRightmost": [1, 5], "unlinkSelf": [2, 19], "rebalanceErase": [89, 32], "insert": [59, 30], "climbRight": [2, 0], "iterIncrement": [2, 3], "climbLeft": [2, 0], "iterDecrement": [2, 5], "descend": [7, 0], "insertIter": [59, 31], "insertUniqueValue": [68, 48], "insertUnique": [70, 68], "descendEq": [7, 0], "insertEqualValue": [66, 34], "insertEqual": [68, 54], "erase": [91, 46], "lowerLoop": [6, 0], "lowerBound": [6, 4], "upperLoop": [6, 0], "upperBound": [6, 4], "findLoop": [11, 0], "find": [11, 5], "equalRange": [12, 20]}
hdr='''import Verif.Core.Cost
import Verif.Tree.Model
/-!
# The operations of the tree with a limit on the number of iterations of each loop

These copies serve to count steps: `xF N` is `x`, except that a loop that wants to start iteration `N + 1` is undefined behaviour.  The theorems `xF_le` say that whatever `xF N` does without an error
`x` does, too (so the copies cannot drift apart from the model), and `xF_cost` bounds the number of memory accesses of `xF N`.  (Generated from Tree/Model.lean by tools/fuel.py.)
-/
namespace CC.Tree
variable {V : Type}

'''
o=hdr; sectE=False
for f,d,args in out:
    if usesE[f] and not sectE:
        o+='variable (E : Env V)\n\n'; sectE=True
    d=re.sub(r':=\s+if',':=\n  if',d)
    o+=d
    ns=names(args); e='E ' if usesE[f] else ''
    bind=re.split(r' : M ',args)[0]
    t=typ(args)
    app=' '.join(ns)
    al,be=C[f]
    cst = f'{al} * N + {be}' if al and be else (f'{al} * N' if al else f'{be}')
    c2 = f'{al} * (N + 1)'
    if f in loops:
        o+=f'''theorem {f}F_le (N : Nat) {bind} : Le ({f}F {e}N {app} : {t}) ({f} {e}{app}) := by
  induction N generalizing {app} with
  | zero => exact Le.ub _
  | succ N ih =>
    rw [{f}F, {f}]
    repeat' first | le_step | apply ih | intro _
theorem {f}F_cost (N : Nat) {bind} : Cost ({f}F {e}N {app} : {t}) ({cst}) := by
  induction N generalizing {app} with
  | zero => exact Cost.ub
  | succ N ih =>
    rw [{f}F]
    apply Cost.mono
    focus (repeat' first | apply ih | cost_step)
    omega
'''
    else:
        o+=f'''theorem {f}F_le (N : Nat) {bind} : Le ({f}F {e}N {app} : {t}) ({f} {e}{app}) := by
  unfold {f}F {f}
  repeat' le_step
theorem {f}F_cost (N : Nat) {bind} : Cost ({f}F {e}N {app} : {t}) ({cst}) := by
  unfold {f}F
  cost
'''
    und=' _'*len(ns)
    o+=f'''macro_rules | `(tactic| le_fn) => `(tactic| exact {f}F_le{' _' if e else ''} _{und})
macro_rules | `(tactic| cost_fn) => `(tactic| exact {f}F_cost{' _' if e else ''} _{und})

'''
o+='end CC.Tree\n'
open(R+'/lean/Verif/Tree/Fuel.lean','w').write(o)
