import Mathlib.Data.List.Basic
import Mathlib.Logic.Function.Basic

/-!
# Removing the copies between a buffer and its alias (`slinky/builder/optimizations.cc`, `copy_remover`)

Statements are reduced to copies, views (crops, slices, transposes, clones), other declarations of buffers, and calls. Simplifications: a copy has no padding
(with padding, it is kept); `memcpy` is a copy; bounds of views and indices of copies are functions, whatever the expressions are.
-/

namespace Slinky.RMC

/-- Where the elements of a buffer are: the address of the element at an index, if there is one. -/
abbrev View := List Int → Option Int

/-- A buffer: its elements, and the allocation that it is a part of. -/
structure B where
  view : View
  root : Nat

/-- The buffers of the symbols. -/
abbrev Env := Nat → B

/-- The memory. -/
abbrev Mem := Int → Int

/-- Statements. -/
inductive S
  | skip
  /-- `copy_stmt`: the element of `dst` at `x` is the element of `src` at `f x` -/
  | copy (src dst : Nat) (f : List Int → List Int)
  /-- anything else that changes memory -/
  | call (F : Env → Mem → Mem → Prop)
  | seq (a b : S)
  /-- `crop_buffer`, `crop_dim`, `slice_buffer`, `slice_dim`, `transpose`, `clone_buffer` -/
  | view (sym src : Nat) (g : View → View) (body : S)
  /-- `allocate`, `make_buffer`, `constant_buffer` -/
  | decl (sym : Nat) (b : B) (body : S)

/-! ## The code -/

/-- optimizations.cc:205-208 `is_a_and_b` -/
def isAB (as bs : List Nat) (x y : Nat) : Bool := (decide (x ∈ as) && decide (y ∈ bs)) || (decide (y ∈ as) && decide (x ∈ bs))

/-- optimizations.cc:200-255 `copy_remover` -/
def remove (as bs : List Nat) : S → S
  | .copy src dst f => if isAB as bs src dst then .skip else .copy src dst f
  | .seq a b => .seq (remove as bs a) (remove as bs b)
  | .view sym src g body =>
    .view sym src g (remove (if src ∈ as then sym :: as else as) (if src ∈ bs then sym :: bs else bs) body)
  | .decl sym b body => .decl sym b (remove as bs body)
  | s => s

/-- optimizations.cc:257-260 `remove_copy` -/
def removeCopy (s : S) (a b : Nat) : S := remove [a] [b] s

/-! ## Specification -/

/-- What a copy may do: the elements of `dst` get the values that `src` had, and nothing else changes. -/
def Copied (src dst : View) (f : List Int → List Int) (m m' : Mem) : Prop :=
  ∀ p, (∃ x q, dst x = some p ∧ src (f x) = some q ∧ m' p = m q) ∨ ((∀ x, dst x ≠ some p) ∧ m' p = m p)

/-- What a statement may do to memory. -/
def Ex : S → Env → Mem → Mem → Prop
  | .skip, _, m, m' => m' = m
  | .copy src dst f, ρ, m, m' => Copied (ρ src).view (ρ dst).view f m m'
  | .call F, ρ, m, m' => F ρ m m'
  | .seq a b, ρ, m, m' => ∃ m1, Ex a ρ m m1 ∧ Ex b ρ m1 m'
  | .view sym src g body, ρ, m, m' => Ex body (Function.update ρ sym ⟨g (ρ src).view, (ρ src).root⟩) m m'
  | .decl sym b body, ρ, m, m' => Ex body (Function.update ρ sym b) m m'

/-- Every copy between the allocations `ra` and `rb` (in any direction) copies every element to itself. -/
def OnlyAlias (ra rb : Nat) : S → Env → Prop
  | .copy src dst f, ρ => ((ρ src).root = ra ∧ (ρ dst).root = rb) ∨ ((ρ dst).root = ra ∧ (ρ src).root = rb) →
    ∀ x p, (ρ dst).view x = some p → (ρ src).view (f x) = some p
  | .seq a b, ρ => OnlyAlias ra rb a ρ ∧ OnlyAlias ra rb b ρ
  | .view sym src g body, ρ => OnlyAlias ra rb body (Function.update ρ sym ⟨g (ρ src).view, (ρ src).root⟩)
  | .decl sym b body, ρ => OnlyAlias ra rb body (Function.update ρ sym b)
  | _, _ => True

/-- No declaration has the name of a buffer in scope (`ns`). -/
def NoShadow : List Nat → S → Prop
  | ns, .seq a b => NoShadow ns a ∧ NoShadow ns b
  | ns, .view sym _ _ body => sym ∉ ns ∧ NoShadow (sym :: ns) body
  | ns, .decl sym _ body => sym ∉ ns ∧ NoShadow (sym :: ns) body
  | _, _ => True

/-- The names of the buffers that the copies of a statement are between. -/
def copies : S → List (Nat × Nat)
  | .copy src dst _ => [(src, dst)]
  | .seq a b => copies a ++ copies b
  | .view _ _ _ body | .decl _ _ body => copies body
  | _ => []

end Slinky.RMC
