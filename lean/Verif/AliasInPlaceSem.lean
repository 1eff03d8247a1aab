import Verif.AliasInPlace

/-!
# C56: what statements do to memory

A specification of the contents of buffers. A buffer is a view of a part of the memory of an allocation: the elements with an index in a region. Two
buffers that are views of one allocation share the elements with the same index. (Strides and addresses are not modelled: two elements of an
allocation have different addresses.)

The elements of a new allocation have no value. A call reads all elements of its inputs and then writes all elements of its outputs; it has no meaning
if an element of an input has no value, if two outputs share memory, or if an output shares memory with an input and the attributes of the call do
not allow that. What is written depends only on the call, on the regions and values of the inputs, and on the regions of the outputs.
-/

namespace Slinky.AIP

/-- The bounds of each dimension. -/
abbrev Region := List (Int × Int)

/-- Is an index in a region? -/
def has : Region → List Int → Bool
  | [], [] => true
  | (a, b) :: r, i :: is => decide (a ≤ i) && decide (i ≤ b) && has r is
  | _, _ => false

/-- A buffer: the symbol of the allocation that has the memory, and the bounds. -/
structure View where
  root : Nat
  region : Region

/-- The values of the elements of allocations. `none`: never written. -/
abbrev MemV (V : Type) := Nat → List Int → Option V

/-- What is not in the statement: the values of the expressions in bounds and of the scalar arguments, and what calls compute: the target, the inputs with their values, the
regions of the outputs, the scalars, the index of the output, the index of the element. -/
structure Host (V : Type) where
  num : Expr → Int
  val : Nat → List (Region × (List Int → Option V)) → List Region → List Int → Nat → List Int → V

/-- evaluate.cc `visit(const crop_buffer*)`: the region of a crop. An undefined bound does not crop. -/
def cropR (num : Expr → Int) : Region → List Interval → Region
  | [], _ => []
  | r, [] => r
  | (a, b) :: r, i :: is =>
    (if i.min.defined then max a (num i.min) else a, if i.max.defined then min b (num i.max) else b) :: cropR num r is

/-- evaluate.cc `visit(const crop_dim*)`: the region of a crop of a dimension. -/
def cropDimR (num : Expr → Int) : Nat → Interval → Region → Region
  | _, _, [] => []
  | 0, i, (a, b) :: r => (if i.min.defined then max a (num i.min) else a, if i.max.defined then min b (num i.max) else b) :: r
  | d + 1, i, p :: r => p :: cropDimR num d i r

/-- evaluate.cc `visit(const allocate*)`: the region of an allocation. -/
def regionOf (num : Expr → Int) (ds : List DimE) : Region := ds.map fun d => (num d.bounds.min, num d.bounds.max)

/-- What a call sees of an input. -/
def seen {V : Type} (m : MemV V) (u : View) : Region × (List Int → Option V) := (u.region, fun idx => if has u.region idx then m u.root idx else none)

/-- The memory after the outputs are written. -/
def write {V : Type} (f : Nat → List Int → V) : Nat → List View → MemV V → MemV V
  | _, [], m => m
  | o, u :: us, m => write f (o + 1) us fun r idx => if r = u.root ∧ has u.region idx then some (f o idx) else m r idx

/-- The attributes of a call with `n` inputs allow that output `o` is computed in place of input `i` (stmt.h:134-137, and 32 bits). -/
def allowed (a : Attrs) (n o i : Nat) : Prop := a.memcpy = false ∧ o * n + i ≤ 31 ∧ a.inPlace (o * n + i) = true

/-- The call has a meaning. -/
def CallOK {V : Type} (a : Attrs) (ins outs : List View) (m : MemV V) : Prop :=
  (∀ u ∈ ins, ∀ idx, has u.region idx = true → ∃ v, m u.root idx = some v) ∧
  (outs.map View.root).Nodup ∧
  ∀ o i uo ui, outs[o]? = some uo → ins[i]? = some ui → uo.root = ui.root → allowed a ins.length o i

mutual
/-- The statement, with these buffers, changes the memory `m` to `m1`. -/
def Run {V : Type} (h : Host V) (attrs : Nat → Attrs) : Stmt → (Nat → Option View) → MemV V → MemV V → Prop
  | .call t ins outs sc, v, m, m1 => ∃ iv ov, ins.mapM v = some iv ∧ outs.mapM v = some ov ∧ CallOK (attrs t) iv ov m ∧
    m1 = write (h.val t (iv.map (seen m)) (ov.map View.region) (sc.map h.num)) 0 ov m
  | .block ss, v, m, m1 => RunAll h attrs ss v m m1
  | .allocate x _ _ dims body, v, m, m1 =>
    Run h attrs body (upd v x (some ⟨x, regionOf h.num dims⟩)) (fun r => if r = x then fun _ => none else m r) m1
  | .cropBuffer x src bs body, v, m, m1 => ∃ u, v src = some u ∧ Run h attrs body (upd v x (some ⟨u.root, cropR h.num u.region bs⟩)) m m1
  | .cropDim x src d b body, v, m, m1 => ∃ u, v src = some u ∧ Run h attrs body (upd v x (some ⟨u.root, cropDimR h.num d b u.region⟩)) m m1
  | .cloneBuffer x src body, v, m, m1 => ∃ u, v src = some u ∧ Run h attrs body (upd v x (some u)) m m1
  | _, _, _, _ => False
/-- The statements, one after another. -/
def RunAll {V : Type} (h : Host V) (attrs : Nat → Attrs) : Stmts → (Nat → Option View) → MemV V → MemV V → Prop
  | .nil, _, m, m1 => m1 = m
  | .cons s ss, v, m, m1 => ∃ m2, Run h attrs s v m m2 ∧ RunAll h attrs ss v m2 m1
end

/-! ## The calls of a statement -/

/-- A call, with the allocations (or inputs and outputs of the pipeline) that its buffers are views of. -/
structure Call where
  target : Nat
  ins : List Nat
  outs : List Nat

/-- The map with another value for a key. -/
def updN (r : Nat → Nat) (x y : Nat) : Nat → Nat := fun z => if z = x then y else r z

mutual
/-- The calls of a statement in the order of the program. `rt` gives the allocation that a buffer is a view of. -/
def trace : (Nat → Nat) → Stmt → List Call
  | rt, .call t ins outs _ => [⟨t, ins.map rt, outs.map rt⟩]
  | rt, .block ss => traces rt ss
  | rt, .allocate x _ _ _ body => trace (updN rt x x) body
  | rt, .cropBuffer x src _ body => trace (updN rt x (rt src)) body
  | rt, .cropDim x src _ _ body => trace (updN rt x (rt src)) body
  | rt, .cloneBuffer x src body => trace (updN rt x (rt src)) body
  | _, _ => []
/-- See `trace`. -/
def traces : (Nat → Nat) → Stmts → List Call
  | _, .nil => []
  | rt, .cons s ss => trace rt s ++ traces rt ss
end

mutual
/-- The symbols of the allocations of a statement. -/
def allocs : Stmt → List Nat
  | .block ss => allocss ss
  | .allocate x _ _ _ body => x :: allocs body
  | .cropBuffer _ _ _ body => allocs body
  | .cropDim _ _ _ _ body => allocs body
  | .cloneBuffer _ _ body => allocs body
  | _ => []
/-- See `allocs`. -/
def allocss : Stmts → List Nat
  | .nil => []
  | .cons s ss => allocs s ++ allocss ss
end

mutual
/-- The symbols that a statement declares. -/
def decls : Stmt → List Nat
  | .block ss => declss ss
  | .allocate x _ _ _ body => x :: decls body
  | .cropBuffer x _ _ body => x :: decls body
  | .cropDim x _ _ _ body => x :: decls body
  | .cloneBuffer x _ body => x :: decls body
  | _ => []
/-- See `decls`. -/
def declss : Stmts → List Nat
  | .nil => []
  | .cons s ss => decls s ++ declss ss
end

mutual
/-- The statement consists of calls, blocks, allocations, crops and clones; only symbols in scope are used; the allocations have the bounds
`regs`. -/
def Scoped (num : Expr → Int) (regs : Nat → Region) : List Nat → Stmt → Prop
  | G, .call _ ins outs _ => (∀ x ∈ ins, x ∈ G) ∧ ∀ x ∈ outs, x ∈ G
  | G, .block ss => Scopeds num regs G ss
  | G, .allocate x _ _ dims body =>
    regionOf num dims = regs x ∧ (∀ d ∈ dims, d.bounds.min.defined = true ∧ d.bounds.max.defined = true) ∧ Scoped num regs (x :: G) body
  | G, .cropBuffer x src _ body => src ∈ G ∧ Scoped num regs (x :: G) body
  | G, .cropDim x src _ _ body => src ∈ G ∧ Scoped num regs (x :: G) body
  | G, .cloneBuffer x src body => src ∈ G ∧ Scoped num regs (x :: G) body
  | _, _ => False
/-- See `Scoped`. -/
def Scopeds (num : Expr → Int) (regs : Nat → Region) : List Nat → Stmts → Prop
  | _, .nil => True
  | G, .cons s ss => Scoped num regs G s ∧ Scopeds num regs G ss
end

/-- One region is in another. -/
def Region.Sub (a b : Region) : Prop := List.Forall₂ (fun p q : Int × Int => q.1 ≤ p.1 ∧ p.2 ≤ q.2) a b

/-- What the pipeline must be like: `ins` and `outs` are its inputs and outputs, and `regs` are the bounds of the outputs and of the allocations. -/
structure Program (num : Expr → Int) (attrs : Nat → Attrs) (regs : Nat → Region) (ins outs : List Nat) (s : Stmt) : Prop where
  /-- only symbols in scope are used -/
  scope : Scoped num regs (ins ++ outs) s
  /-- no symbol is declared twice -/
  names : (ins ++ outs ++ decls s).Nodup
  /-- no buffer is written by two calls, or twice by one call -/
  once : ∀ (k1 k2 : Nat) (c1 c2 : Call) (o1 o2 b : Nat), (trace id s)[k1]? = some c1 → (trace id s)[k2]? = some c2 →
    c1.outs[o1]? = some b → c2.outs[o2]? = some b → k1 = k2 ∧ o1 = o2
  /-- inputs are not written -/
  readOnly : ∀ c ∈ trace id s, ∀ b ∈ c.outs, b ∉ ins
  /-- what a call reads is an input, or was written by a call before -/
  written : ∀ (k : Nat) (c : Call) (a : Nat), (trace id s)[k]? = some c → a ∈ c.ins →
    a ∈ ins ∨ ∃ (k' : Nat) (c' : Call), k' < k ∧ (trace id s)[k']? = some c' ∧ a ∈ c'.outs
  /-- an input may not be used in place of two outputs of a call -/
  oneOut : ∀ c ∈ trace id s, ∀ o1 o2 i, o1 < c.outs.length → o2 < c.outs.length → i < c.ins.length →
    allowed (attrs c.target) c.ins.length o1 i → allowed (attrs c.target) c.ins.length o2 i → o1 = o2
  /-- if a call may be computed in place, the one of the two buffers that is declared later is not larger -/
  size : ∀ c ∈ trace id s, ∀ (o i a b : Nat), c.outs[o]? = some b → c.ins[i]? = some a → allowed (attrs c.target) c.ins.length o i →
    ([a, b].Sublist (outs ++ allocs s) → Region.Sub (regs b) (regs a)) ∧ ([b, a].Sublist (outs ++ allocs s) → Region.Sub (regs a) (regs b))

end Slinky.AIP
