import Mathlib.Data.List.Basic
import Mathlib.Tactic.Tauto

/-!
# The buffers that an allocation may become an alias of (`slinky/builder/optimizations.cc`, `copy_aliaser`): names (C73)

Simplifications: only the names are modelled; all views (crops, slices, transposes, clones) are one statement; buffers that the code has no information about are
like allocations.
-/

namespace Slinky.ASc

/-- stmt.h: the statements, as far as buffers are declared and copied. `other`: a call, and other statements without copies -/
inductive Stmt
  | other (uses : List Nat)
  | copy (src dst : Nat)
  | seq (a b : Stmt)
  | loop (body : Stmt)
  | alloc (x : Nat) (body : Stmt)
  | view (sym src : Nat) (body : Stmt)

/-- optimizations.cc:862 and 871-872 `merge_buffer_info`: what is known of a view is known of the buffer -/
def rename (sym src : Nat) (x : Nat) : Nat := if x = sym then src else x

/-- The allocations and the buffers that they may become an alias of, when the statement is done: 712-812 (both directions of a copy), 484-497 (an allocation is not
a candidate when its scope ends: `do_not_alias`, `set_value_in_scope`), 829-880 `merge_buffer_info`. -/
def candidates : Stmt → List (Nat × Nat)
  | .other _ => []
  | .copy src dst => [(dst, src), (src, dst)]
  | .seq a b => candidates a ++ candidates b
  | .loop body => candidates body
  | .alloc x body => (candidates body).filter (fun p => decide (p.1 ≠ x) && decide (p.2 ≠ x))
  | .view sym src body => (candidates body).map (fun p => (rename sym src p.1, rename sym src p.2))

/-- optimizations.cc:486-497, 517-524: the buffers that the allocation `x` with this body may become an alias of -/
def targets (x : Nat) (body : Stmt) : List Nat := ((candidates body).filter (fun p => decide (p.1 = x))).map Prod.snd

/-! ## Specification -/

/-- The names that a statement uses and does not declare: they are declared where the statement is. -/
def Free (y : Nat) : Stmt → Prop
  | .other uses => y ∈ uses
  | .copy src dst => y = src ∨ y = dst
  | .seq a b => Free y a ∨ Free y b
  | .loop body => Free y body
  | .alloc x body => y ≠ x ∧ Free y body
  | .view sym src body => y = src ∨ (y ≠ sym ∧ Free y body)

/-- `a` and `b` are the buffers of a copy in the statement, or buffers that views, which are the buffers of the copy, are views of. -/
inductive Copied : Stmt → Nat → Nat → Prop
  | copy (s d : Nat) : Copied (.copy s d) s d
  | left {a b : Stmt} {s d : Nat} : Copied a s d → Copied (.seq a b) s d
  | right {a b : Stmt} {s d : Nat} : Copied b s d → Copied (.seq a b) s d
  | loop {b : Stmt} {s d : Nat} : Copied b s d → Copied (.loop b) s d
  | alloc {x : Nat} {b : Stmt} {s d : Nat} : Copied b s d → s ≠ x → d ≠ x → Copied (.alloc x b) s d
  | view {y x : Nat} {b : Stmt} {s d : Nat} : Copied b s d → Copied (.view y x b) (if s = y then x else s) (if d = y then x else d)

end Slinky.ASc
