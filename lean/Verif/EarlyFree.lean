import Verif.DependsStmt

/-!
# Model of `insert_early_free` (builder/optimizations.cc:1376-1496) and the life of heap allocations

`insert_early_free` adds `check(free(x))` after the last statement that uses a heap allocation `x`. The model of the pass is `earlyFree`. The
specification is about the events of an execution of the statement: allocations, uses and frees of memory (`Runs`).
-/

namespace Slinky

/-! ## The pass -/

/-- Result of a mutator: the statement, whether it differs from the original one (`!same_as`), and `found` and `visited_something`. -/
structure EfR where
  s : Stmt
  changed : Bool
  found : Bool
  visited : Bool

/-- See `EfR`, for the statements of a block. -/
structure EfRs where
  ss : List Stmt
  changed : Bool
  found : Bool
  visited : Bool

/-- `check::make(call::make(intrinsic::free, {x}))` -/
def checkFree (x : Nat) : Stmt := .check (.call .free (.cons (.v x) .nil))

/-- optimizations.cc:1417-1427 `insert_free_into_allocate::visit_terminal`. `depends_on(s, names).any()` is the disjunction over `names`. -/
def efTerminal (names : List Nat) (f v : Bool) (s : Stmt) : EfR :=
  if !f && names.any (fun x => anyDep (dependsOnS s x)) then
    if v then ⟨blockMake [s, checkFree (names.headD 0)], true, true, v⟩ else ⟨s, false, true, v⟩
  else ⟨s, false, f, v⟩

mutual
/-- optimizations.cc:1378-1461 `insert_free_into_allocate`. `f` is `found` and `v` is `visited_something`. The nodes without a handler are
visited by `stmt_mutator` (node_mutator.cc:124-143). -/
def efMut (names : List Nat) (f v : Bool) : Stmt → EfR
  | .undef => ⟨.undef, false, f, v⟩
  -- optimizations.cc:1391-1414
  | .block ss =>
    let r := efMuts names f v ss
    if r.changed then ⟨blockMake r.ss, true, r.found, r.visited⟩ else ⟨.block ss, false, r.found, r.visited⟩
  -- optimizations.cc:1429-1433
  | .loop x wk b st s => efTerminal names f v (.loop x wk b st s)
  | .call t i o xs => efTerminal names f v (.call t i o xs)
  | .copy t src xs dst ys pad => efTerminal names f v (.copy t src xs dst ys pad)
  | .check c => efTerminal names f v (.check c)
  | .lets bs s cl => efTerminal names f v (.lets bs s cl)
  -- optimizations.cc:1437-1452
  | .makeBuffer x base e ds s =>
    let dep := names.any fun y => anyDep (dependsOn base y)
    let f' := f || dep
    if x ∈ names then ⟨.makeBuffer x base e ds s, false, f', v⟩
    else
      let r := efMut (if dep then names ++ [x] else names) f' v s
      ⟨.makeBuffer x base e ds r.s, r.changed, r.found, r.visited⟩
  -- optimizations.cc:1454-1477
  | .cloneBuffer x y s =>
    if x ∈ names then ⟨.cloneBuffer x y s, false, f || names.contains y, v⟩
    else
      let r := efMut (if y ∈ names then names ++ [x] else names) (f || names.contains y) v s
      ⟨.cloneBuffer x y r.s, r.changed, r.found, r.visited⟩
  | .cropBuffer x y bs s =>
    if x ∈ names then ⟨.cropBuffer x y bs s, false, f || names.contains y, v⟩
    else
      let r := efMut (if y ∈ names then names ++ [x] else names) (f || names.contains y) v s
      ⟨.cropBuffer x y bs r.s, r.changed, r.found, r.visited⟩
  | .cropDim x y d b s =>
    if x ∈ names then ⟨.cropDim x y d b s, false, f || names.contains y, v⟩
    else
      let r := efMut (if y ∈ names then names ++ [x] else names) (f || names.contains y) v s
      ⟨.cropDim x y d b r.s, r.changed, r.found, r.visited⟩
  | .sliceBuffer x y es s =>
    if x ∈ names then ⟨.sliceBuffer x y es s, false, f || names.contains y, v⟩
    else
      let r := efMut (if y ∈ names then names ++ [x] else names) (f || names.contains y) v s
      ⟨.sliceBuffer x y es r.s, r.changed, r.found, r.visited⟩
  | .sliceDim x y d e s =>
    if x ∈ names then ⟨.sliceDim x y d e s, false, f || names.contains y, v⟩
    else
      let r := efMut (if y ∈ names then names ++ [x] else names) (f || names.contains y) v s
      ⟨.sliceDim x y d e r.s, r.changed, r.found, r.visited⟩
  | .transpose x y ds s =>
    if x ∈ names then ⟨.transpose x y ds s, false, f || names.contains y, v⟩
    else
      let r := efMut (if y ∈ names then names ++ [x] else names) (f || names.contains y) v s
      ⟨.transpose x y ds r.s, r.changed, r.found, r.visited⟩
  -- node_mutator.cc:126-143
  | .allocate x k e ds s =>
    let r := efMut names f v s
    ⟨.allocate x k e ds r.s, r.changed, r.found, r.visited⟩
  | .constantBuffer x b s =>
    let r := efMut names f v s
    ⟨.constantBuffer x b r.s, r.changed, r.found, r.visited⟩
  | .async x t s =>
    let r := efMut names f v t
    let q := efMut names r.found r.visited s
    ⟨.async x r.s q.s, r.changed || q.changed, q.found, q.visited⟩
/-- optimizations.cc:1395-1408: the statements of a block, the last one first -/
def efMuts (names : List Nat) (f v : Bool) : Stmts → EfRs
  | .nil => ⟨[], false, f, v⟩
  | .cons s ss =>
    let r := efMuts names f v ss
    if r.changed || r.found then ⟨s :: r.ss, r.changed, r.found, true⟩
    else
      let q := efMut names r.found r.visited s
      ⟨q.s :: r.ss, q.changed, q.found, true⟩
end

mutual
/-- optimizations.cc:1463-1496 `early_free_inserter`: the new statement, and if it differs from the original one. The nodes other than `allocate`
are visited by `stmt_mutator` (node_mutator.cc:91-143). -/
def earlyFreeR : Stmt → Stmt × Bool
  | .undef => (.undef, false)
  | .call t i o xs => (.call t i o xs, false)
  | .copy t src xs dst ys pad => (.copy t src xs dst ys pad, false)
  | .check c => (.check c, false)
  | .block ss =>
    let r := earlyFreeRs ss
    if r.2 then (blockMake r.1, true) else (.block ss, false)
  | .lets bs s cl => let r := earlyFreeR s; (.lets bs r.1 cl, r.2)
  | .loop x wk b st s => let r := earlyFreeR s; (.loop x wk b st r.1, r.2)
  -- optimizations.cc:1465-1477
  | .allocate x k e ds s =>
    let r := earlyFreeR s
    if k = .heap then
      let q := efMut [x] false false r.1
      (.allocate x k e ds q.s, r.2 || q.changed)
    else (.allocate x k e ds r.1, r.2)
  | .makeBuffer x base e ds s => let r := earlyFreeR s; (.makeBuffer x base e ds r.1, r.2)
  | .constantBuffer x b s => let r := earlyFreeR s; (.constantBuffer x b r.1, r.2)
  | .cloneBuffer x y s => let r := earlyFreeR s; (.cloneBuffer x y r.1, r.2)
  | .cropBuffer x y bs s => let r := earlyFreeR s; (.cropBuffer x y bs r.1, r.2)
  | .cropDim x y d b s => let r := earlyFreeR s; (.cropDim x y d b r.1, r.2)
  | .sliceBuffer x y es s => let r := earlyFreeR s; (.sliceBuffer x y es r.1, r.2)
  | .sliceDim x y d e s => let r := earlyFreeR s; (.sliceDim x y d e r.1, r.2)
  | .transpose x y ds s => let r := earlyFreeR s; (.transpose x y ds r.1, r.2)
  | .async x t s => let r := earlyFreeR t; let q := earlyFreeR s; (.async x r.1 q.1, r.2 || q.2)
/-- See `earlyFreeR`. -/
def earlyFreeRs : Stmts → List Stmt × Bool
  | .nil => ([], false)
  | .cons s ss => let r := earlyFreeR s; let q := earlyFreeRs ss; (r.1 :: q.1, r.2 || q.2)
end

/-- optimizations.cc:1482-1485 `insert_early_free` -/
def earlyFree (s : Stmt) : Stmt := (earlyFreeR s).1

/-! ## Specification: the events of an execution -/

/-- What happens to memory: allocation `h` is made, its memory may be read or written, it is freed; `bad`: a `free` of a buffer that is not an
allocation (evaluate.cc:289-296 would read a member that the object does not have). -/
inductive HEv
  | alloc (h : Nat)
  | use (h : Nat)
  | free (h : Nat)
  | bad
deriving DecidableEq, Repr

/-- The event is about allocation `h`. -/
def HEv.on (h : Nat) : HEv → Bool
  | .alloc k => k == h
  | .use k => k == h
  | .free k => k == h
  | .bad => false

/-- What a symbol stands for: the allocation that the object itself holds (`allocated_buffer::allocation`), and the allocations whose memory can be
reached through it. -/
structure HSlot where
  obj : Option Nat
  owns : Nat → Prop

/-- Nothing that is an allocation. -/
def HSlot.none : HSlot := ⟨.none, fun _ => False⟩

/-- Symbols -/
abbrev HEnv := Nat → HSlot

/-- A new meaning for a symbol. -/
def HEnv.set (ρ : HEnv) (x : Nat) (v : HSlot) : HEnv := fun y => if y = x then v else ρ y

/-- A view (a clone, crop, slice or transpose) of a buffer. -/
def HSlot.view (v : HSlot) : HSlot := ⟨.none, v.owns⟩

/-- Values of lets, which may be pointers that are computed from any symbol in the values. -/
def HEnv.bind (ρ : HEnv) (bs : Binds) : HEnv := fun z =>
  if z ∈ bs.syms then ⟨.none, fun h => ∃ q y, ReadsBinds q y bs ∧ (ρ y).owns h⟩ else ρ z

/-- A buffer made from a pointer that is computed by an expression. -/
def HEnv.base (ρ : HEnv) (e : Expr) : HSlot := ⟨.none, fun h => ∃ q y, Reads q y e ∧ (ρ y).owns h⟩

/-- Events that only use memory that can be reached by the symbols in `P`, any number of times and in any order. -/
def Touches (ρ : HEnv) (P : Nat → Prop) (tr : List HEv) : Prop := ∀ e ∈ tr, ∃ h x, e = .use h ∧ P x ∧ (ρ x).owns h

/-- The events of two threads, in any order between the threads. -/
inductive HMerge : List HEv → List HEv → List HEv → Prop
  | nil : HMerge [] [] []
  | left (e : HEv) {a b c : List HEv} : HMerge a b c → HMerge (e :: a) b (e :: c)
  | right (e : HEv) {a b c : List HEv} : HMerge a b c → HMerge a (e :: b) (e :: c)

/-- The events of any number of threads. -/
def HMergeAll : List (List HEv) → List HEv → Prop
  | [], tr => tr = []
  | t :: ts, tr => ∃ r, HMergeAll ts r ∧ HMerge t r tr

/-- evaluate.cc:643-645: at the end of the scope the allocation is freed, if it was not freed before. -/
def closing (h : Nat) (tr : List HEv) : List HEv := if HEv.free h ∈ tr then [] else [.free h]

/-- The symbol that a condition frees. -/
def freeArg : Expr → Option Nat
  | .call .free (.cons (.var x .none _) .nil) => some x
  | _ => none

mutual
/-- The executions of a statement (evaluate.cc:390-760): `tr` is the events and `ok` is whether it succeeds. What the statements compute is left
open, so every order and number of uses of the memory that a statement refers to is possible, calls and checks can fail, and an allocation can fail.
Iterations of a loop run in any order, also at the same time, and any number of them; the same for the task and the body of an `async` (this has
more executions than the code, which is good enough for a safety property). Expressions read the metadata of a buffer and not its memory, unless they
are in a call, copy, check, let or loop. An undefined statement does nothing (`block::make` removes them). -/
def Runs : Stmt → HEnv → List HEv → Bool → Prop
  | .undef, _, tr, ok => tr = [] ∧ ok = true
  | .call t i o xs, ρ, tr, _ => Touches ρ (fun x => ∃ p, (Stmt.call t i o xs).Uses (some p) x) tr
  | .copy t src xs dst ys pad, ρ, tr, _ => Touches ρ (fun x => ∃ p, (Stmt.copy t src xs dst ys pad).Uses (some p) x) tr
  | .check c, ρ, tr, ok =>
    match freeArg c with
    | some x => ok = true ∧ tr = [match (ρ x).obj with | some h => .free h | none => .bad]
    | none => Touches ρ (fun x => ∃ p, Reads p x c) tr
  | .lets bs s _, ρ, tr, ok => ∃ a b, tr = a ++ b ∧ Touches ρ (fun x => ∃ p, ReadsBinds p x bs) a ∧ Runs s (ρ.bind bs) b ok
  | .block ss, ρ, tr, ok => RunsL ss ρ tr ok
  | .loop x wk i st s, ρ, tr, ok => ∃ a b, ∃ its : List (List HEv × Bool), tr = a ++ b ∧
      Touches ρ (fun y => ∃ p : Dep, i.Reads (some p) y ∨ Reads p y st ∨ Reads p y wk) a ∧
      (∀ p ∈ its, Runs s (ρ.set x .none) p.1 p.2) ∧ HMergeAll (its.map Prod.fst) b ∧ ok = its.all Prod.snd
  | .allocate x _ _ _ s, ρ, tr, ok => (tr = [] ∧ ok = false) ∨
      ∃ h t, Runs s (ρ.set x ⟨some h, fun k => k = h⟩) t ok ∧ tr = .alloc h :: (t ++ closing h t)
  | .makeBuffer x base _ _ s, ρ, tr, ok => Runs s (ρ.set x (ρ.base base)) tr ok
  | .constantBuffer x _ s, ρ, tr, ok => Runs s (ρ.set x .none) tr ok
  | .cloneBuffer x y s, ρ, tr, ok => Runs s (ρ.set x (ρ y).view) tr ok
  | .cropBuffer x y _ s, ρ, tr, ok => Runs s (ρ.set x (ρ y).view) tr ok
  | .cropDim x y _ _ s, ρ, tr, ok => Runs s (ρ.set x (ρ y).view) tr ok
  | .sliceBuffer x y _ s, ρ, tr, ok => Runs s (ρ.set x (ρ y).view) tr ok
  | .sliceDim x y _ _ s, ρ, tr, ok => Runs s (ρ.set x (ρ y).view) tr ok
  | .transpose x y _ s, ρ, tr, ok => Runs s (ρ.set x (ρ y).view) tr ok
  | .async x t s, ρ, tr, ok => ∃ a b oa ob, HMerge a b tr ∧ ok = (oa && ob) ∧
      Runs t (match x with | some y => ρ.set y .none | none => ρ) a oa ∧ Runs s (match x with | some y => ρ.set y .none | none => ρ) b ob
/-- The executions of the statements of a block: they end at the first one that fails. -/
def RunsL : Stmts → HEnv → List HEv → Bool → Prop
  | .nil, _, tr, ok => tr = [] ∧ ok = true
  | .cons s ss, ρ, tr, ok => (ok = false ∧ Runs s ρ tr false) ∨ ∃ a b, tr = a ++ b ∧ Runs s ρ a true ∧ RunsL ss ρ b ok
end

/-- At the start no symbol refers to an allocation. -/
def HEnv.start : HEnv := fun _ => .none

/-- The life of allocation `h`: nothing, or it is allocated once, then used any number of times, and then freed once. -/
def GoodLife (h : Nat) (tr : List HEv) : Prop :=
  tr.filter (·.on h) = [] ∨ ∃ n, tr.filter (·.on h) = .alloc h :: (List.replicate n (.use h) ++ [.free h])

/-- `Early t' t`: the events `t'` are the events `t`, but with some of the `free`s moved to an earlier position. -/
inductive Early : List HEv → List HEv → Prop
  | nil : Early [] []
  | same (e : HEv) {a b : List HEv} : Early a b → Early (e :: a) (e :: b)
  | move (h : Nat) {a b c : List HEv} : Early a (b ++ c) → Early (.free h :: a) (b ++ .free h :: c)

/-! ### Conditions -/

/-- The memory of `x`, or its metadata, is used. -/
def Stmt.Mem (x : Nat) (s : Stmt) : Prop := ∃ p : Dep, s.Uses (some p) x

mutual
/-- There is no `free` in the statement. -/
def Stmt.NoFreeE : Stmt → Prop
  | .undef => True
  | .call .. => True
  | .copy .. => True
  | .check c => freeArg c = none
  | .lets _ s _ => s.NoFreeE
  | .block ss => ss.NoFreeE
  | .loop _ _ _ _ s => s.NoFreeE
  | .allocate _ _ _ _ s => s.NoFreeE
  | .makeBuffer _ _ _ _ s => s.NoFreeE
  | .constantBuffer _ _ s => s.NoFreeE
  | .cloneBuffer _ _ s => s.NoFreeE
  | .cropBuffer _ _ _ s => s.NoFreeE
  | .cropDim _ _ _ _ s => s.NoFreeE
  | .sliceBuffer _ _ _ s => s.NoFreeE
  | .sliceDim _ _ _ _ s => s.NoFreeE
  | .transpose _ _ _ s => s.NoFreeE
  | .async _ t s => t.NoFreeE ∧ s.NoFreeE
/-- See `Stmt.NoFreeE`. -/
def Stmts.NoFreeE : Stmts → Prop
  | .nil => True
  | .cons s ss => s.NoFreeE ∧ ss.NoFreeE
end

mutual
/-- In the scope of allocation `x` (outside of loops and lets, which the pass does not change), there is no allocation or constant buffer of the same
name, and no `async` where both the task and the body use `x`. -/
def Stmt.OneUser (x : Nat) : Stmt → Prop
  | .undef => True
  | .call .. => True
  | .copy .. => True
  | .check _ => True
  | .lets .. => True
  | .loop .. => True
  | .block ss => ss.OneUser x
  | .allocate y _ _ _ s => y ≠ x ∧ s.OneUser x
  | .makeBuffer _ _ _ _ s => s.OneUser x
  | .constantBuffer y _ s => y ≠ x ∧ s.OneUser x
  | .cloneBuffer _ _ s => s.OneUser x
  | .cropBuffer _ _ _ s => s.OneUser x
  | .cropDim _ _ _ _ s => s.OneUser x
  | .sliceBuffer _ _ _ s => s.OneUser x
  | .sliceDim _ _ _ _ s => s.OneUser x
  | .transpose _ _ _ s => s.OneUser x
  | .async _ t s => ¬ (t.Mem x ∧ s.Mem x) ∧ t.OneUser x ∧ s.OneUser x
/-- See `Stmt.OneUser`. -/
def Stmts.OneUser (x : Nat) : Stmts → Prop
  | .nil => True
  | .cons s ss => s.OneUser x ∧ ss.OneUser x
end

mutual
/-- `OneUser` for every heap allocation in the statement. -/
def Stmt.FreeOK : Stmt → Prop
  | .undef => True
  | .call .. => True
  | .copy .. => True
  | .check _ => True
  | .lets _ s _ => s.FreeOK
  | .block ss => ss.FreeOK
  | .loop _ _ _ _ s => s.FreeOK
  | .allocate x k _ _ s => (k = .heap → s.OneUser x) ∧ s.FreeOK
  | .makeBuffer _ _ _ _ s => s.FreeOK
  | .constantBuffer _ _ s => s.FreeOK
  | .cloneBuffer _ _ s => s.FreeOK
  | .cropBuffer _ _ _ s => s.FreeOK
  | .cropDim _ _ _ _ s => s.FreeOK
  | .sliceBuffer _ _ _ s => s.FreeOK
  | .sliceDim _ _ _ _ s => s.FreeOK
  | .transpose _ _ _ s => s.FreeOK
  | .async _ t s => t.FreeOK ∧ s.FreeOK
/-- See `Stmt.FreeOK`. -/
def Stmts.FreeOK : Stmts → Prop
  | .nil => True
  | .cons s ss => s.FreeOK ∧ ss.FreeOK
end

end Slinky
