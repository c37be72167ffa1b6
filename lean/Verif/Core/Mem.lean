/-!
# The execution model

C code is modelled as programs in the monad `C σ α`: a state `σ` (usually the heap `Mem V`), faults and divergence.
Nothing here models a particular file of `/repo`; it is the semantics of the C constructs the library uses
(`malloc`, `free`, loads and stores through pointers, `assert`).
-/

namespace CC

/-- An address. `0` is the NULL pointer. -/
scoped macro "Addr" : term => `(Nat)

/-- A memory location: block address and slot inside the block.  Slot `0` is the allocator's own
book-keeping slot (block size); the slots of the program's data start at `1`. -/
abbrev Loc := Addr × Nat

/-- Ways a C execution can go wrong. -/
inductive Fault where
  | ub      -- undefined behaviour (use of memory that is not allocated, double free, use of a raw object, ...)
  | abort   -- a failed `assert`
deriving DecidableEq, Repr

/-- Programs: state passing, faults, divergence (`none`). -/
abbrev C (σ α : Type) := StateT σ (ExceptT Fault Option) α

/-- Contents of one memory slot.  `V` is the type of element values. -/
inductive Val (V : Type) where
  | sz (n : Nat)                 -- allocator book-keeping: size of the block
  | num (n : Nat)                -- an integer or a pointer to the beginning of a block
  | ptr (b : Addr) (i : Nat)     -- a pointer into a block
  | obj (o : Option V)           -- element storage: raw (`none`) or holding a constructed value
deriving DecidableEq, Repr

/-- The heap, together with an arbitrary allocator.  The `n`-th call of malloc fails (returns NULL) iff `orc n = 0`;
otherwise it returns the address `orc n` if the memory there is unused, and an unused address (`top`) if it is not.
`junk` is the arbitrary content of fresh memory.  Theorems quantify over `orc` and `junk`, hence over all allocator
behaviours: any pattern of failures, any choice of addresses, including the immediate reuse of freed ones.
`clk` counts the memory accesses (loads, stores, calls of malloc and free) made so far: the cost of a run. -/
structure Mem (V : Type) where
  cells : Loc → Option (Val V)
  top : Addr
  hpos : 0 < top
  htop : ∀ l : Loc, top ≤ l.1 → cells l = none
  hnul : ∀ i, cells (0, i) = none
  orc : Nat → Addr
  junk : Nat → Nat → Nat
  tick : Nat
  clk : Nat := 0

/-- one memory access -/
abbrev Mem.bump {V : Type} (s : Mem V) : Mem V := { s with clk := s.clk + 1 }

abbrev M (V : Type) := C (Mem V)

variable {σ α V : Type}

def fault (f : Fault) : C σ α := fun _ => (some (.error f) : Option (Except Fault (α × σ)))

/-- Undefined behaviour. -/
def ub : C σ α := fault .ub

/-- C `assert`. -/
def cassert (b : Bool) : C σ Unit := if b then pure () else fault .abort

/-- Read a slot; undefined behaviour if it is not allocated. -/
def load (l : Loc) : M V (Val V) := do
  let s ← get
  match s.cells l with
  | some v => do
    set s.bump
    pure v
  | none => ub

/-- Overwrite an allocated slot. -/
def store (l : Loc) (v : Val V) : M V Unit := do
  let s ← get
  if h : s.cells l = none then ub
  else set { s with
    clk := s.clk + 1
    cells := fun l' => if l' = l then some v else s.cells l'
    htop := by
      intro l' hl'
      have h2 := s.htop l' hl'
      by_cases e : l' = l
      · exact absurd (e ▸ h2) h
      · simp only [if_neg e, h2]
    hnul := by
      intro i
      have h2 := s.hnul i
      by_cases e : (0, i) = l
      · exact absurd (e ▸ h2) h
      · simp only [if_neg e, h2] }

/-- Load an integer / pointer field. -/
def ldN (l : Loc) : M V Nat := do
  match ← load l with
  | .num n => pure n
  | _ => ub

/-- Store an integer / pointer field. -/
def stN (l : Loc) (n : Nat) : M V Unit := store l (.num n)

/-- Load a pointer-into-block field. -/
def ldP (l : Loc) : M V (Addr × Nat) := do
  match ← load l with
  | .ptr b i => pure (b, i)
  | _ => ub

/-- Store a pointer-into-block field. -/
def stP (l : Loc) (p : Addr × Nat) : M V Unit := store l (.ptr p.1 p.2)

/-- Read the value of a constructed element; reading raw storage is undefined behaviour. -/
def ldV (l : Loc) : M V V := do
  match ← load l with
  | .obj (some v) => pure v
  | _ => ub

/-- `value_type->create / copy`: construct a value in raw element storage. -/
def construct (l : Loc) (v : V) : M V Unit := do
  match ← load l with
  | .obj none => store l (.obj (some v))
  | _ => ub

/-- `value_type->destroy`: end the life of a constructed value (destroying twice is undefined behaviour). -/
def destroyV (l : Loc) : M V Unit := do
  match ← load l with
  | .obj (some _) => store l (.obj none)
  | _ => ub

/-- Are slots `0..n` of block `a` all unallocated? -/
def freeRange (cells : Loc → Option (Val V)) (a : Addr) (n : Nat) : Bool :=
  (List.range (n+1)).all fun i => (cells (a, i)).isNone

/-- the address the `tick`-th malloc (of `n` slots) returns, if it does not fail -/
def pick (s : Mem V) (n : Nat) : Addr :=
  if freeRange s.cells (s.orc s.tick) n then s.orc s.tick else s.top

theorem pick_ne0 {s : Mem V} {n : Nat} (h : s.orc s.tick ≠ 0) : 0 ≠ pick s n := by
  unfold pick
  split
  · exact fun e => h e.symm
  · exact Nat.ne_of_lt s.hpos

/-- `malloc` of a block with `n` slots with initial content `init junk i` (`1 ≤ i ≤ n`). Returns `0` on failure. -/
def mallocG (n : Nat) (init : (Nat → Nat) → Nat → Val V) : M V Addr := do
  let s ← get
  if h : s.orc s.tick = 0 then do
    set { s with tick := s.tick + 1, clk := s.clk + 1 }
    pure 0
  else do
    set { s with
      tick := s.tick + 1
      clk := s.clk + 1
      cells := fun l => if l.1 = pick s n ∧ l.2 ≤ n then
                  (if l.2 = 0 then some (.sz n) else some (init (s.junk s.tick) l.2)) else s.cells l
      top := max s.top (pick s n + 1)
      hpos := Nat.lt_of_lt_of_le s.hpos (Nat.le_max_left _ _)
      htop := by
        intro l hl
        have : l.1 ≠ pick s n := Nat.ne_of_gt (Nat.le_trans (Nat.le_max_right _ _) hl)
        have h2 := s.htop l (Nat.le_trans (Nat.le_max_left _ _) hl)
        simp [this, h2]
      hnul := by
        intro i
        simp [pick_ne0 h, s.hnul i] }
    pure (pick s n)

/-- `malloc` of a struct with `n` integer/pointer fields (arbitrary initial content). -/
def mallocS (n : Nat) : M V Addr := mallocG n fun junk i => .num (junk i)

/-- `malloc` of raw storage for `n` elements. -/
def mallocO (n : Nat) : M V Addr := mallocG n fun _ _ => .obj none

/-- `free`: releases the whole block.  Freeing NULL is a no-op, freeing unallocated memory undefined behaviour. -/
def free (a : Addr) : M V Unit := do
  if a = 0 then pure () else
  match ← load (a, 0) with
  | .sz n => do
    let s ← get
    set { s with
      clk := s.clk + 1
      cells := fun l => if l.1 = a ∧ l.2 ≤ n then none else s.cells l
      htop := by
        intro l hl
        have h2 := s.htop l hl
        simp [h2]
      hnul := by
        intro i
        simp [s.hnul i] }
  | _ => ub

/-- `free` of the storage of one element.  The model demands that the element's life has ended: releasing the storage of an element whose `destroy` has not been called counts as an error,
so that "no error" includes that every element is destroyed exactly once. -/
def freeV (a : Addr) : M V Unit := do
  match ← load (a, 1) with
  | .obj none => free a
  | _ => ub

end CC
