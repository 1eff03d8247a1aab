import Mathlib.Data.List.Basic
import Mathlib.Logic.Function.Basic

/-!
# The strides of a buffer that aliases share (`slinky/builder/optimizations.cc`, `copy_aliaser`)

Expressions are their values: bounds and strides are numbers, `none` is an undefined expression. `pr` is `prove_true` of an equality. Simplifications: the bounds
and the strides that are asked for do not depend on the other buffer; fold factors and contiguous copies (`is_contiguous_copy`, which are not checked) are left
out; that an allocation is in bounds of the other buffer (`inB`) is an input.
-/

namespace Slinky.AS

/-- `dim_expr` (expr.h): a dimension of an allocation. `point`: `bounds.is_point()`, the code sees that there is one index. -/
structure SDim where
  min : Int
  max : Int
  stride : Option Int
  point : Bool
deriving DecidableEq

def SDim.extent (d : SDim) : Int := d.max - d.min + 1

/-- optimizations.cc:274-292 `alias_info`: a dimension of an alias. `perm`: `permutation[d]` (`none`: `transpose::new_dim`); `scale`: how many elements of the other
buffer a step is (optimizations.cc:147 `is_copy`: `buffer_stride(src, src_d) * scale`); `at`: `at[permutation[d]]`. -/
structure ADim where
  perm : Option Nat
  scale : Int
  at_ : Int
deriving DecidableEq

/-- An attempt to replace an allocation by an alias: its dimensions with the dimensions of the alias; the size of its elements; `inB`: `assume_in_bounds` (after
optimizations.cc:362-380); `fixed`: the other buffer is an input or an output. -/
structure Attempt where
  dims : List (SDim × ADim)
  elem : Int
  inB : Bool
  fixed : Bool

/-- optimizations.cc:391, 419, 558: the dimension of the other buffer, if there is one -/
def inRange (n : Nat) (l : ADim) : Option Nat :=
  match l.perm with
  | none => none
  | some k => if k < n then some k else none

/-- optimizations.cc:147, 743, 793-797 (the stride of an alias), substitute.cc:853-877 (what the stride of the other buffer is replaced by: 0 if there is no such
dimension) -/
def aliasStride (t : List SDim) (l : ADim) : Option Int :=
  match l.perm with
  | none => some 0
  | some k => match t[k]? with
    | none => some 0
    | some d => d.stride.map (· * l.scale)

/-- optimizations.cc:262-269 `dim_has_stride`, `any_stride_defined` -/
def anyStride (t : List SDim) : Bool := t.any (fun d => !d.point && d.stride.isSome)

/-- optimizations.cc:384-397 `alias_compatible`: can the strides of the allocation be used in the other buffer? -/
def extentsOk (pr : Option Int → Option Int → Bool) (elem : Int) (t : List SDim) (dims : List (SDim × ADim)) : Bool :=
  dims.all (fun p => p.1.stride.isNone || p.1.point || pr p.1.stride (some elem)) ||
  dims.all (fun p => match inRange t.length p.2 with
    | none => true
    | some k => match t[k]? with
      | none => true
      | some d => p.1.point || d.point || pr (some p.1.extent) (some d.extent))

/-- optimizations.cc:402, 415-430 `alias_compatible`: the strides that the other buffer would get (`ts`: `target_stride`) do not contradict each other. -/
def propagate (pr : Option Int → Option Int → Bool) (n : Nat) : List (SDim × ADim) → (Nat → Option Int) → Bool
  | [], _ => true
  | (a, l) :: r, ts =>
    match a.stride with
    | none => propagate pr n r ts
    | some s => match inRange n l with
      | some k => (match ts k with
          | some s' => pr (some s') (some s)
          | none => true) && propagate pr n r (Function.update ts k (some s))
      | none => pr (some s) (some 0) && propagate pr n r ts

/-- optimizations.cc:341-342, 384-436 `alias_compatible`: strides -/
def compat (pr : Option Int → Option Int → Bool) (t : List SDim) (a : Attempt) : Bool :=
  let allocHas := anyStride (a.dims.map Prod.fst)
  if a.inB = false then
    !a.fixed && a.dims.all (fun p => !(p.1.stride.isSome || (aliasStride t p.2).isSome) || pr p.1.stride (aliasStride t p.2))
  else if allocHas = false then true
  else if anyStride t = false then extentsOk pr a.elem t a.dims && propagate pr t.length a.dims (fun _ => none)
  else a.dims.all (fun p => pr p.1.stride (aliasStride t p.2))

/-- optimizations.cc:566-582 `visit(const allocate*)`: the other buffer gets a stride -/
def setStride (t : List SDim) (p : SDim × ADim) : List SDim :=
  match p.1.stride with
  | none => t
  | some s => if p.1.point then t else match inRange t.length p.2 with
    | none => t
    | some k => t.modify k (fun d => if d.stride.isSome then d else { d with stride := some s })

/-- optimizations.cc:554-561 `visit(const allocate*)`: the other buffer is made bigger -/
def grow (t : List SDim) (p : SDim × ADim) : List SDim :=
  match inRange t.length p.2 with
  | none => t
  | some k => t.modify k (fun d => { d with
      min := min d.min p.2.at_
      max := max d.max (p.2.at_ + p.1.extent - 1)
      point := d.point && decide (d.min ≤ p.2.at_) && decide (p.2.at_ + p.1.extent - 1 ≤ d.max) })

/-- optimizations.cc:544-584 `visit(const allocate*)`: what happens to the other buffer when an allocation becomes an alias of it -/
def apply (t : List SDim) (a : Attempt) : List SDim :=
  if a.inB = false then a.dims.foldl grow t
  else if anyStride t = false then a.dims.foldl setStride t
  else t

/-- optimizations.cc:520-530 `visit(const allocate*)`: an attempt that is not possible does nothing. -/
def step (pr : Option Int → Option Int → Bool) (t : List SDim) (a : Attempt) : List SDim := if compat pr t a then apply t a else t

/-- The other buffer after all attempts to make allocations in its scope aliases of it -/
def run (pr : Option Int → Option Int → Bool) (t : List SDim) (h : List Attempt) : List SDim := h.foldl (step pr) t

/-! ## Specification -/

/-- What is proved is true. -/
def Sound (pr : Option Int → Option Int → Bool) : Prop := ∀ x y, pr x y = true → x = y

/-- The stride of the dimension `l` of an alias of a buffer that is allocated with the dimensions `t` -/
def HasStride (t : List SDim) (l : ADim) (s : Int) : Prop :=
  match l.perm with
  | none => s = 0
  | some k => match t[k]? with
    | none => s = 0
    | some d => ∃ u, d.stride = some u ∧ s = u * l.scale

/-- The address of an element of a buffer of two dimensions, relative to the base -/
def addr2 (s0 s1 x y : Int) : Int := s0 * x + s1 * y

end Slinky.AS
