import Mathlib.Data.List.Basic
import Mathlib.Data.List.Nodup
import Mathlib.Data.List.Perm.Subperm
import Mathlib.Logic.Function.Basic

/-!
# Symbol maps, scoped values, name contexts

Models of `symbol_map<T>` and `scoped_value_in_symbol_map<T>` (`slinky/runtime/expr.h:741-876`) and
`node_context` (`slinky/runtime/expr.h:47-66`, `slinky/runtime/expr_stmt.cc:23-53`).
-/

namespace Slinky.SM

variable {T : Type}

/-- `symbol_map::values`: `std::vector<std::optional<T>>` (expr.h:743). -/
abbrev Vals (T : Type) := List (Option T)

/-- `vector::resize(n)`. -/
def resize (m : Vals T) (n : Nat) : Vals T := m.take n ++ List.replicate (n - m.length) none

/-- `grow` (expr.h:745-749). -/
def grow (m : Vals T) (size : Nat) : Vals T :=
  if m.length ≤ size then resize m (max (m.length * 2) (size + 1)) else m

/-- `lookup` (expr.h:764-769). -/
def lookup (m : Vals T) (v : Nat) : Option T :=
  if h : v < m.length then m[v] else none

/-- `lookup` with a default (expr.h:771-776). -/
def lookupD (m : Vals T) (v : Nat) (d : T) : T :=
  if h : v < m.length then m[v].getD d else d

/-- `contains` (expr.h:784-789). -/
def contains (m : Vals T) (v : Nat) : Bool :=
  if h : v < m.length then m[v].isSome else false

/-- `m[v] = x` through the reference returned by `operator[](var)` (expr.h:779-782). -/
def assign (m : Vals T) (v : Nat) (x : Option T) : Vals T := (grow m v).set v x

/-- `erase` (expr.h:800-804). -/
def erase (m : Vals T) (v : Nat) : Vals T := if v < m.length then m.set v none else m

/-- `reserve` (expr.h:807). -/
def reserve (m : Vals T) (n : Nat) : Vals T := resize m (max m.length n)

/-- Direct write to `values[i]`, without `grow`: `none` if out of range (undefined behaviour). -/
def rawWrite (m : Vals T) (i : Nat) (x : Option T) : Option (Vals T) :=
  if i < m.length then some (m.set i x) else none

/-- `scoped_value_in_symbol_map`: `context_` (null or not; there is one map), `sym_`, `old_value_`
(expr.h:816-820). -/
structure Guard (T : Type) where
  active : Bool
  sym : Nat
  old : Option T

/-- The constructors with a value (expr.h:827-836). -/
def Guard.make (m : Vals T) (sym : Nat) (x : Option T) : Guard T × Vals T :=
  let m1 := grow m sym
  (⟨true, sym, lookup m1 sym⟩, m1.set sym x)

/-- The move constructor: the new object and the moved-from object (expr.h:838-842). -/
def Guard.move (g : Guard T) : Guard T × Guard T := (g, { g with active := false })

/-- The move assignment: swaps the two objects (expr.h:845-850). -/
def Guard.moveAssign (g h : Guard T) : Guard T × Guard T := (h, g)

/-- `exit_scope`, also called by the destructor (expr.h:855-863). -/
def Guard.exit (g : Guard T) (m : Vals T) : Option (Guard T × Vals T) :=
  if g.active then
    match rawWrite m g.sym g.old with
    | some m' => some ({ g with active := false }, m')
    | none => none
  else some (g, m)

/-- A program that uses a symbol map.  `scope s x body` is
`{ auto g = set_value_in_scope(m, s, x); body }`. -/
inductive Cmd (T : Type) where
  | assign (v : Nat) (x : Option T)
  | erase (v : Nat)
  | reserve (n : Nat)
  | seq (a b : Cmd T)
  | skip
  | scope (s : Nat) (x : Option T) (body : Cmd T)

/-- Run a program on the implementation; `none` if it accesses the vector out of range. -/
def Cmd.run : Cmd T → Vals T → Option (Vals T)
  | .assign v x, m => some (SM.assign m v x)
  | .erase v, m => some (SM.erase m v)
  | .reserve n, m => some (SM.reserve m n)
  | .seq a b, m => (a.run m).bind b.run
  | .skip, m => some m
  | .scope s x body, m =>
    let gm := Guard.make m s x
    -- `set_value_in_scope` returns by value: move into the variable, destroy the temporary
    let (g, tmp) := gm.1.move
    ((tmp.exit gm.2).bind (fun r => body.run r.2)).bind (fun m' => (g.exit m').map (·.2))

/-- The specification: a map is a function from symbols to optional values. -/
def Cmd.spec : Cmd T → (Nat → Option T) → (Nat → Option T)
  | .assign v x, f => Function.update f v x
  | .erase v, f => Function.update f v none
  | .reserve _, f => f
  | .seq a b, f => b.spec (a.spec f)
  | .skip, f => f
  | .scope s x body, f => Function.update (body.spec (Function.update f s x)) s (f s)

/-! ## Vectors of scoped values -/

/-- `std::vector<scoped_value_in_symbol_map<T>> decls; for (...) decls.push_back(set_value_in_scope(m, s, x))`:
the guards, in order of construction (`slinky/builder/simplify.cc:1567`,
`slinky/builder/optimizations.cc:1674,1694`, `slinky/builder/slide_and_fold_storage.cc:283`). -/
def openAll : List (Nat × Option T) → Vals T → List (Guard T) × Vals T
  | [], m => ([], m)
  | (s, x) :: rest, m =>
    let gm := Guard.make m s x
    let r := openAll rest gm.2
    (gm.1 :: r.1, r.2)

/-- Destroy guards in the order of the list. -/
def closeAll : List (Guard T) → Vals T → Option (Vals T)
  | [], m => some m
  | g :: rest, m => (g.exit m).bind (fun r => closeAll rest r.2)

/-! ## `node_context` -/

/-- `node_context`: `sym_to_name`, and the entries of the `std::map` `name_to_sym`, most recently
inserted first (expr.h:50-51). -/
structure NodeContext where
  names : List String
  map : List (String × Nat)

/-- `lookup` (expr_stmt.cc:50-53). -/
def NodeContext.lookup (c : NodeContext) (n : String) : Option Nat :=
  (c.map.find? (fun e => e.1 = n)).map (·.2)

/-- `name` (expr_stmt.cc:23-31); the invalid symbol id of an undefined `var` is the argument
`undef`. -/
def NodeContext.name (c : NodeContext) (undef v : Nat) : String :=
  match c.names[v]? with
  | some n => n
  | none => if v ≠ undef then "<" ++ toString v ++ ">" else "<>"

/-- `insert` (expr_stmt.cc:33-41). -/
def NodeContext.insert (c : NodeContext) (n : String) : Nat × NodeContext :=
  match c.lookup n with
  | some v => (v, c)
  | none => (c.names.length, ⟨c.names ++ [n], (n, c.names.length) :: c.map⟩)

/-- `prefix + "#" + std::to_string(i)`. -/
def suffixed (pre : String) (i : Nat) : String := pre ++ "#" ++ toString i

/-- The loop of `insert_unique` (expr_stmt.cc:43-47): `fuel` iterations remain, the counter is `i`. -/
def NodeContext.search (c : NodeContext) (pre : String) : Nat → Nat → String → String
  | 0, _, name => name
  | fuel + 1, i, name =>
    if (c.lookup name).isNone then name
    else c.search pre fuel (i + 1) (suffixed pre i)

/-- `insert_unique` (expr_stmt.cc:42-49). -/
def NodeContext.insertUnique (c : NodeContext) (pre : String) : Nat × NodeContext :=
  c.insert (c.search pre c.names.length 0 pre)

/-- A history of insertions. -/
inductive NodeContext.Reachable : NodeContext → Prop
  | empty : Reachable ⟨[], []⟩
  | insert {c} (n : String) : Reachable c → Reachable (c.insert n).2
  | insertUnique {c} (n : String) : Reachable c → Reachable (c.insertUnique n).2

end Slinky.SM
