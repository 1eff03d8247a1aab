import Mathlib.Data.List.Basic
import Mathlib.Tactic.SplitIfs

/-!
# Removing semaphores that do nothing (`slinky/builder/optimizations.cc`, `cleanup_semaphores`)

Statements are reduced to what matters to semaphores: calls, checks that wait for or signal semaphores, loops, asynchronous tasks, and the
allocations that the semaphores are in. Simplifications: a loop has a number of iterations; all of the other statements with a body only are
their bodies; an allocation of semaphores is one semaphore (all the semaphores of an allocation are treated in the same way).
-/

namespace Slinky.SC

/-! ## The code -/

/-- Statements. -/
inductive S
  /-- the empty block -/
  | skip
  /-- a call that is not `init_semaphores`, or another statement that is executed at once -/
  | work (n : Nat)
  /-- the call `init_semaphores` with the output `x`: the semaphore has the value `k` -/
  | init (x k : Nat)
  /-- `check(semaphore_wait(...))` (`wait`) or `check(semaphore_signal(...))` of the semaphores `xs` -/
  | sync (wait : Bool) (xs : List Nat)
  /-- `block`: a block is the list of the leaves -/
  | seq (a b : S)
  /-- `loop`; `par`: `max_workers` is not the constant 1 -/
  | loop (par : Bool) (n : Nat) (a : S)
  /-- `async`: the task and the body -/
  | async (a b : S)
  /-- `allocate` -/
  | alloc (x : Nat) (a : S)
deriving DecidableEq, Repr

/-- optimizations.cc:2208-2214: does a call make `x` semaphores? (`is_semaphores`) -/
def isSem (x : Nat) : S → Bool
  | .init y _ => decide (x = y)
  | .seq a b | .async a b => isSem x a || isSem x b
  | .loop _ _ a => isSem x a
  | .alloc y a => if y = x then false else isSem x a
  | _ => false

/-- optimizations.cc:2246-2270: is the semaphore `x`, whose allocation has the depth `d0`, used at another depth? (`used_async`; `d`: `async_depth`) -/
def usedAsync (x d0 : Nat) : Nat → S → Bool
  | d, .sync _ xs => decide (x ∈ xs) && decide (d0 ≠ d)
  | d, .seq a b => usedAsync x d0 d a || usedAsync x d0 d b
  | d, .loop par _ a => usedAsync x d0 (if par then d + 1 else d) a
  | d, .async a b => usedAsync x d0 (d + 1) a || usedAsync x d0 (d + 1) b
  | d, .alloc y a => if y = x then false else usedAsync x d0 d a
  | _, _ => false

/-- optimizations.cc:2227: the first statement of a block, if it is `init_semaphores`. -/
def first : S → Option (Nat × Nat)
  | .init x k => some (x, k)
  | .seq a _ => first a
  | _ => none

/-- optimizations.cc:2229: the block without its first statement. -/
def dropFirst : S → S
  | .seq a b => match a with
    | .seq _ _ => .seq (dropFirst a) b
    | _ => b
  | s => s

/-- optimizations.cc:2231 `substitute(body, x, expr())`: uses of the semaphore are removed (the simplifier drops semaphores that are undefined). -/
def remove (x : Nat) : S → S
  | .sync w xs => .sync w (xs.filter (· ≠ x))
  | .seq a b => .seq (remove x a) (remove x b)
  | .async a b => .async (remove x a) (remove x b)
  | .loop p n a => .loop p n (remove x a)
  | .alloc y a => if y = x then .alloc y a else .alloc y (remove x a)
  | s => s

/-- Is the statement a block? -/
def isBlock : S → Bool
  | .seq _ _ => true
  | _ => false

/-- optimizations.cc:2216-2256 `semaphore_cleaner` at depth `d`. -/
def clean : Nat → S → S
  | d, .alloc x a =>
    if isSem x a && !usedAsync x d d a && isBlock (clean d a) && (first (clean d a)).isSome then remove x (dropFirst (clean d a))
    else .alloc x (clean d a)
  | d, .seq a b => .seq (clean d a) (clean d b)
  | d, .loop p n a => .loop p n (clean (if p then d + 1 else d) a)
  | d, .async a b => .async (clean (d + 1) a) (clean (d + 1) b)
  | _, s => s

/-! ## Specification: what a statement may do -/

/-- What is observed. -/
inductive Ev
  | work (n : Nat)
  | init (x k : Nat)
  | sync (wait : Bool) (xs : List Nat)
deriving DecidableEq, Repr

/-- `t` is an interleaving of `u` and `v`. -/
inductive Shuf {α : Type} : List α → List α → List α → Prop
  | nil : Shuf [] [] []
  | left (a : α) {u v t} : Shuf u v t → Shuf (a :: u) v (a :: t)
  | right (a : α) {u v t} : Shuf u v t → Shuf u (a :: v) (a :: t)

/-- What happens to one semaphore. -/
inductive Op
  | init (k : Nat)
  | wait
  | signal
deriving DecidableEq, Repr

/-- What an event does to the semaphore `x`. -/
def op (x : Nat) : Ev → Option Op
  | .work _ => none
  | .init y k => if y = x then some (.init k) else none
  | .sync w xs => if x ∈ xs then some (if w then .wait else .signal) else none

/-- A semaphore with the value `c` (`none`: not initialized) allows the operations: a `wait` comes when the value is positive. -/
def Allows : Option Nat → List Op → Prop
  | _, [] => True
  | _, .init k :: os => Allows (some k) os
  | some (c + 1), .wait :: os => Allows (some c) os
  | some c, .signal :: os => Allows (some (c + 1)) os
  | _, _ => False

/-- The event without the semaphore `x`; `none`: nothing is left. -/
def hide (x : Nat) : Ev → Option Ev
  | .work n => some (.work n)
  | .init y k => if y = x then none else some (.init y k)
  | .sync w xs => if xs.filter (· ≠ x) = [] then none else some (.sync w (xs.filter (· ≠ x)))

/-- `n` runs of `A`, one after the other (`par = false`) or interleaved. -/
def Iter (A : List Ev → Prop) (par : Bool) : Nat → List Ev → Prop
  | 0, t => t = []
  | n + 1, t => ∃ u v, A u ∧ Iter A par n v ∧ if par then Shuf u v t else t = u ++ v

/-- The runs of a statement that complete: the events in the order in which they happen. Threads are interleaved in all ways; an allocation has its own
semaphore, that is not seen outside, and that must allow the run. -/
def Runs : S → List Ev → Prop
  | .skip, t => t = []
  | .work n, t => t = [.work n]
  | .init x k, t => t = [.init x k]
  | .sync w xs, t => t = if xs = [] then [] else [.sync w xs]
  | .seq a b, t => ∃ u v, Runs a u ∧ Runs b v ∧ t = u ++ v
  | .loop p n a, t => Iter (Runs a) p n t
  | .async a b, t => ∃ u v, Runs a u ∧ Runs b v ∧ Shuf u v t
  | .alloc x a, t => ∃ u, Runs a u ∧ Allows none (u.filterMap (op x)) ∧ t = u.filterMap (hide x)

/-- The operations of a semaphore that is used in one thread, in order. -/
def serial (x : Nat) : S → List Op
  | .init y k => if y = x then [.init k] else []
  | .sync w xs => if x ∈ xs then [if w then .wait else .signal] else []
  | .seq a b => serial x a ++ serial x b
  | .loop false n a => (List.replicate n (serial x a)).flatten
  | .alloc y a => if y = x then [] else serial x a
  | _ => []

/-- Is the semaphore `x` of the body `a` (at depth `d`) removed? -/
def Removed (d x : Nat) (a : S) : Prop := clean d (.alloc x a) ≠ .alloc x (clean d a)

/-- Every semaphore that is removed is initialized by the first statement, and by nothing else; if `live`, its thread never waits for itself: the thread
has no `wait` when the value is 0. -/
def Good (live : Prop) : Nat → S → Prop
  | d, .alloc x a => Good live d a ∧
    (Removed d x a → (∃ k, first a = some (x, k)) ∧ isSem x (dropFirst a) = false ∧ (live → Allows none (serial x a)))
  | d, .seq a b => Good live d a ∧ Good live d b
  | d, .loop p _ a => Good live (if p then d + 1 else d) a
  | d, .async a b => Good live (d + 1) a ∧ Good live (d + 1) b
  | _, _ => True

end Slinky.SC
