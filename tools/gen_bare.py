"""Generates lean/Verif/Tree/Bare.lean: the navigation lemmas of trees (Rep, Peek, Erase, Nav) for the memory of a tree without the values of its elements.
The declarations are copied with `elm` redefined without the value cell."""
import re
B='/verif/lean/Verif/Tree/'
def decls(f):
    src=open(B+f+'.lean').read().split('\n')
    out={};cur=None;pend=[]
    for l in src:
        if re.match(r'^(/--|@\[)',l) and not re.match(r'^@\[.*(theorem|def)',l):
            cur=None; pend=[l]; continue
        m=re.match(r'^(?:@\[[^\]]*\] )?(theorem|def|structure) ([^\s{(:\[]+)',l)
        if m:
            cur=m.group(2); out[cur]=pend+[l]; pend=[]; continue
        if re.match(r'^(section|end|variable|namespace|open|/-!|import|private)',l): cur=None; pend=[]; continue
        if cur: out[cur].append(l)
        elif pend: pend.append(l)
    return {k:'\n'.join(v).rstrip() for k,v in out.items()}
rep,peek,er,nav=decls('Rep'),decls('Peek'),decls('Erase'),decls('Nav')
o=[]
w=o.append
w('''import Verif.Tree.Nav
/-!
# The memory of a tree without the values of its elements

GENERATED by tools/gen_bare.py from Rep, Peek, Erase and Nav: `elm` does not contain the cell of the value, the rest is the same.
-/
namespace CC.Tree.Bare
open CC CC.Tac CC.Tree T
open CC.CList (Elem nodes vals firstN lastN)
variable {V β : Type} {nf : Prop}

/-- what an element owns besides its color, its links and its value -/
def elm (e : Elem V) : HProp V := blk e.node 5 ∗ fld e.node 5 e.box ∗ blk e.box 1
''')
for n in ['nd','tr','tr_leaf','tr_node','cx','cx_nil','cx_L','cx_R','cx_up','cx_plug']: w(rep[n]+'\n')
w(rep['isShape']+'\n')
w(peek['peek']+'\n')
w('section\nvariable {a h : Nat} {g : Cfg} {t : T (Elem V)} {F : HProp V}\n')
for n in ['shape_peek','rd_color','rd_parent','rd_left','rd_right','rd_vtype','rd_header','rd_hcolor','rd_hroot','rd_hleft','rd_hright']: w(peek[n]+'\n')
w('end\n')
for n in ['elms','elms_nil','elms_cons','elms_append','tr_elms','elms_ne','elms_nodup','shape_facts','with_facts','shape_elm','rd_box']:
    w(peek[n].replace(" ∗ pts (e'.box, 1) (.obj (some e'.val))","").replace(" ∗ pts (e.box, 1) (.obj (some e.val))","")+'\n')
for n in ['minLoopF_spec','minimumF_spec','maxLoopF_spec','maximumF_spec']: w(er[n]+'\n')
w('section\nvariable {a h N : Nat} {g : Cfg} {t : T (Elem V)} {F : HProp V} {X Y : List (Elem V)} {e : Elem V} {Q : β → HProp V}\n')
for n in ['shape_sub','minimumF_cps','maximumF_cps','incUp_cps','incrementF_cps','increment_cps','isHeader_node_cps','isHeader_end_cps','climbLeftF_cps','decrementF_cps','decrementF_end_cps']: w(nav[n]+'\n')
w('end\n')
for n in ['decrementF_pos','decrement_pos']: w(nav[n]+'\n')
w('section\nvariable {a h : Nat} {g : Cfg} {t : T (Elem V)} {F : HProp V} {Q : β → HProp V}\n')
for n in ['mkIter_cps','leftmost_cps','begin_cps','end_cps']: w(nav[n]+'\n')
w('end\n\nend CC.Tree.Bare')
open(B+'Bare.lean','w').write('\n'.join(o)+'\n')
