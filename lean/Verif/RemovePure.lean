import Verif.Sem
import Verif.Compare
import Verif.ParTasks

/-!
# Model of `remove_pure_dims` (builder/optimizations.cc:1498-1665)

A call can say (`min_rank`) that it does not care about dimensions in which the output has only one index. `remove_pure_dims` finds dimensions of
the outputs of such a call with extent one, and slices them off, from the outputs and the inputs. The model is `removePureDims`. Here `mr` is the
attribute `min_rank` of the calls (`none` is the default, which is the maximum of `int`).

Simplification: the sets of dimensions are `std::bitset<64>`, and an exception is thrown if a dimension from 64 is added. Here they are sets of
numbers without a bound, and only the slices of calls have the bound.
-/

namespace Slinky

/-- optimizations.cc:1502 `sliceable_dims` -/
abbrev DimSet := Nat → Bool

namespace RP

/-- optimizations.cc:1522-1526 `is_extent_one` -/
def isExtentOne (i : Interval) : Bool := i.isPoint || (i.min.defined && i.max.defined && matchE i.min i.max)

/-- optimizations.cc:1511-1520 `erase_dim` -/
def eraseDim (sd : DimSet) (d : Nat) : DimSet := fun i => if i < d then sd i else sd (i + 1)

/-- optimizations.cc:1528-1537 `find_sliceable` -/
def findSliceable (l : List Interval) : DimSet := fun d => match l[d]? with
  | some i => isExtentOne i
  | none => false

/-- optimizations.cc:1607-1612: the dimensions that are sliced are erased, the last one first. -/
def eraseDims (sd : DimSet) (es : List Expr) : DimSet :=
  ((List.range es.length).reverse).foldl (fun sd d => if ((es[d]?).getD .undef).defined then eraseDim sd d else sd) sd

/-- A new value in `symbol_to_sliceable_dims_`. -/
def setDims (S : Nat → DimSet) (x : Nat) (sd : DimSet) : Nat → DimSet := fun y => if y = x then sd else S y

/-- optimizations.cc:1634-1636: the undefined slices at the end are removed. -/
def trimUndef (l : List Expr) : List Expr := (l.reverse.dropWhile fun e => !e.defined).reverse

/-- optimizations.cc:1622-1636 `slices` -/
def slices (S : Nat → DimSet) (m : Nat) (o : List Nat) : List Expr :=
  trimUndef ((List.range 64).map fun d => if m ≤ d && o.all (fun x => S x d) then .var (o.headD 0) .min d else .undef)

/-- optimizations.cc:1643-1653: the symbols in the order in which they are inserted into `sliced` -/
def firsts (seen : List Nat) : List Nat → List Nat
  | [] => []
  | x :: xs => if x ∈ seen then firsts seen xs else x :: firsts (x :: seen) xs

/-- optimizations.cc:1642-1654: slices of the buffers around a call -/
def nest (es : List Expr) (xs : List Nat) (s : Stmt) : Stmt := xs.foldl (fun r x => .sliceBuffer x x es r) s

mutual
/-- optimizations.cc:1500-1658 `pure_dims_remover`. Simplification: `stmt_mutator` makes a block from the new statements with `block::make`, which does
nothing here because a new statement is a block or undefined only if the old one was. -/
def visit (mr : Nat → Option Nat) (S : Nat → DimSet) : Stmt → Stmt
  | .undef => .undef
  -- optimizations.cc:1617-1655
  | .call t i o xs =>
    match mr t with
    | none => .call t i o xs
    | some m => if (slices S m o).isEmpty then .call t i o xs else nest (slices S m o) (firsts [] (o ++ i)) (.call t i o xs)
  | .copy t src xs dst ys pad => .copy t src xs dst ys pad
  | .check c => .check c
  | .lets bs s cl => .lets bs (visit mr S s) cl
  | .block ss => .block (visits mr S ss)
  | .loop x wk b st s => .loop x wk b st (visit mr S s)
  -- optimizations.cc:1559-1563
  | .allocate x k e ds s => .allocate x k e ds (visit mr (setDims S x (findSliceable (ds.map (·.bounds)))) s)
  -- optimizations.cc:1571-1580
  | .constantBuffer x b s => .constantBuffer x b (visit mr (setDims S x fun d => decide (d < b.rank) && decide ((b.dim d).extent = 1)) s)
  -- optimizations.cc:1565-1569
  | .makeBuffer x base e ds s => .makeBuffer x base e ds (visit mr (setDims S x (findSliceable (ds.map (·.bounds)))) s)
  -- optimizations.cc:1582-1586
  | .cloneBuffer x y s => .cloneBuffer x y (visit mr (setDims S x (S y)) s)
  -- optimizations.cc:1552-1557
  | .cropBuffer x y bs s => .cropBuffer x y bs (visit mr (setDims S x fun d => S y d || findSliceable bs d) s)
  -- optimizations.cc:1542-1550
  | .cropDim x y d b s =>
    if isExtentOne b then .cropDim x y d b (visit mr (setDims S x fun i => S y i || decide (i = d)) s) else .cropDim x y d b (visit mr S s)
  -- optimizations.cc:1606-1615
  | .sliceBuffer x y es s => .sliceBuffer x y es (visit mr (setDims S x (eraseDims (S y) es)) s)
  -- optimizations.cc:1599-1604
  | .sliceDim x y d e s => .sliceDim x y d e (visit mr (setDims S x (eraseDim (S y) d)) s)
  -- optimizations.cc:1588-1597
  | .transpose x y ds s => .transpose x y ds (visit mr (setDims S x fun d => match ds[d]? with | some k => S y k | none => false) s)
  | .async x t s => .async x (visit mr S t) (visit mr S s)
/-- See `visit`. -/
def visits (mr : Nat → Option Nat) (S : Nat → DimSet) : Stmts → Stmts
  | .nil => .nil
  | .cons s ss => .cons (visit mr S s) (visits mr S ss)
end

end RP

/-- optimizations.cc:1662-1665 `remove_pure_dims` -/
def removePureDims (mr : Nat → Option Nat) (s : Stmt) : Stmt := RP.visit mr (fun _ _ => false) s

/-! ## Specification -/

/-- The base and the dimensions of a buffer without the dimensions in `D`, at the index `y d` of dimension `d`. `k` is the first dimension. -/
def dropDimsL (D : DimSet) (y : Nat → Int) : Nat → List Dim → Option Int → Option Int × List Dim
  | _, [], p => (p, [])
  | k, d :: ds, p =>
    if D k then dropDimsL D y (k + 1) ds (p.bind fun q => if d.contains (y k) then some (q + d.flatOffset (y k)) else none)
    else ((dropDimsL D y (k + 1) ds p).1, d :: (dropDimsL D y (k + 1) ds p).2)

/-- The buffer at the index `y d` of each dimension `d` in `D`. -/
def Buf.dropDims (D : DimSet) (y : Nat → Int) (b : Buf) : Buf := ⟨(dropDimsL D y 0 b.dims b.base).1, b.elem, (dropDimsL D y 0 b.dims b.base).2⟩

/-- What a call with `min_rank` promises (runtime/stmt.h:139-142): if some dimensions of the outputs from `min_rank` have only one index, which is the
same one in each output, the call does the same without these dimensions, at this index. -/
def World.MinRank (w : World) (mr : Nat → Option Nat) : Prop :=
  ∀ t m (D : DimSet) (y : Nat → Int) is os xs l, mr t = some m → os ≠ [] → (∀ d, D d = true → m ≤ d) →
    (∀ o ∈ os, ∀ d, D d = true → (o.dim d).min = y d ∧ (o.dim d).max = y d) →
    w.call t (is.map (Buf.dropDims D y)) (os.map (Buf.dropDims D y)) xs l = w.call t is os xs l

/-- The allocator does not change the bounds of buffers. -/
def World.AllocBounds (w : World) : Prop :=
  ∀ b l d, ((w.allocate b l).1.dim d).min = (b.dim d).min ∧ ((w.allocate b l).1.dim d).max = (b.dim d).max

/-- No dimension is empty. -/
def Buf.NonEmpty (b : Buf) : Prop := ∀ d, (b.dim d).min ≤ (b.dim d).max

/-- `i` is a value of the variable of a loop. -/
def LoopVal (w : World) (ρ : SEnv) (b : Interval) (st : Expr) (i : Int) : Prop :=
  ∃ l v s, evalIvS w l ρ b = some v ∧ evalDefS w l ρ st 1 = some s ∧
    ((v.1 ≤ i ∧ i ≤ v.2) ∨ i = v.1 ∨ ∃ k, parCount v.1 v.2 s = some k ∧ ∃ q ∈ w.sched l k, i = q.1 * s + v.1)

mutual
/-- Conditions. `Γ` is the symbols of the buffers that are declared around the statement.
(1) A crop is not empty, (2) the outputs of a call with `min_rank` that have only one index in the same dimension have the same index, (3) there is an
output, and the scalar arguments do not use the buffers of the call, (4) a `crop_dim` does not shadow a declaration other than its source, and (5) there
are no closures. The conditions are about the values in an execution, with any log of what the world did before. -/
def Stmt.PureOK (w : World) (mr : Nat → Option Nat) : List Nat → Stmt → SEnv → Prop
  | _, .undef, _ => True
  | _, .call t i o sc, ρ => ∀ m, mr t = some m → o ≠ [] ∧ (∀ e ∈ sc, ∀ x ∈ i ++ o, x ∉ e.occurs) ∧
      ∀ x ∈ o, ∀ y ∈ o, ∀ b c, ρ x = .buf b → ρ y = .buf c → ∀ d, m ≤ d → (b.dim d).isPoint = true → (c.dim d).isPoint = true → (b.dim d).min = (c.dim d).min
  | _, .copy .., _ => True
  | _, .check _, _ => True
  | Γ, .lets bs s cl, ρ => cl = false ∧ ∀ l ρ1, evalBindsS w l ρ bs = some ρ1 → s.PureOK w mr Γ ρ1
  | Γ, .block ss, ρ => ss.PureOK w mr Γ ρ
  | Γ, .loop x _ b st s, ρ => ∀ i, LoopVal w ρ b st i → s.PureOK w mr Γ (ρ.set x (.int i))
  | Γ, .allocate x k e ds s, ρ => ∀ l l1 n dv b h, evalI w l ρ e = some n → evalDimsS w l ρ (some Dim.autoStride) ds = some dv →
      allocS w k ⟨none, n, dv.take (trimRank dv)⟩ l = some (b, h, l1) → s.PureOK w mr (x :: Γ) (ρ.set x (.buf b))
  | Γ, .constantBuffer x b s, ρ => s.PureOK w mr (x :: Γ) (ρ.set x (.buf b))
  | Γ, .makeBuffer x base e ds s, ρ => ∀ l n p dv, evalDefS w l ρ e 0 = some n → evalDefS w l ρ base 0 = some p → evalDimsS w l ρ none ds = some dv →
      s.PureOK w mr (x :: Γ) (ρ.set x (.buf ⟨if p = 0 then none else some p, n, dv.take (trimRank dv)⟩))
  | Γ, .cloneBuffer x y s, ρ => ∀ b, ρ y = .buf b → s.PureOK w mr (x :: Γ) (ρ.set x (.buf b))
  | Γ, .cropBuffer x y bs s, ρ => ∀ l b b', ρ y = .buf b → cropS w l ρ 0 bs b = some b' → b'.NonEmpty ∧ s.PureOK w mr (x :: Γ) (ρ.set x (.buf b'))
  | Γ, .cropDim x y d b s, ρ => (x = y ∨ x ∉ Γ ∨ RP.isExtentOne b = true) ∧ ∀ l c v, ρ y = .buf c → evalIvDefS w l ρ b (c.dim d).min (c.dim d).max = some v →
      (c.crop d v.1 v.2).NonEmpty ∧ s.PureOK w mr (x :: Γ) (ρ.set x (.buf (c.crop d v.1 v.2)))
  | Γ, .sliceBuffer x y es s, ρ => ∀ l b r, ρ y = .buf b → sliceS w l ρ es b.dims b.base = some r → s.PureOK w mr (x :: Γ) (ρ.set x (.buf ⟨r.1, b.elem, r.2⟩))
  | Γ, .sliceDim x y d e s, ρ => ∀ b, ρ y = .buf b → s.PureOK w mr (x :: Γ) (ρ.set x (.buf (b.sliceDim d))) ∧
      ∀ l i, evalI w l ρ e = some i → s.PureOK w mr (x :: Γ) (ρ.set x (.buf (b.slice d i)))
  | Γ, .transpose x y ds s, ρ => ∀ b, ρ y = .buf b → s.PureOK w mr (x :: Γ) (ρ.set x (.buf ⟨b.base, b.elem, (ds.map b.dim).take (trimRank (ds.map b.dim))⟩))
  | Γ, .async x t s, ρ => t.PureOK w mr Γ ρ ∧ ∀ h, t.PureOK w mr Γ (ρ.setOpt x h) ∧ s.PureOK w mr Γ (ρ.setOpt x h)
/-- See `Stmt.PureOK`. -/
def Stmts.PureOK (w : World) (mr : Nat → Option Nat) : List Nat → Stmts → SEnv → Prop
  | _, .nil, _ => True
  | Γ, .cons s ss, ρ => s.PureOK w mr Γ ρ ∧ ss.PureOK w mr Γ ρ
end

end Slinky
