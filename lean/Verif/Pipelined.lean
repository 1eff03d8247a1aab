import Verif.SlideFold
import Verif.SlideStore

/-!
# Model of pipelined loops

A loop with sliding windows is not data parallel, but `slide_and_fold_storage` can still run several iterations at the same time as a pipeline: a stage of the body waits until the
same stage of the previous iteration has completed. This is implemented with an array of semaphores.

* `LoopSync`, `stagesOf`, `pipelineOf`: what the pass builds (slide_and_fold_storage.cc:215-234, 255-276, 628-665, 695-700);
* `PState`, `PAct`, `PLoop.act`: how the evaluator and the thread pool run it (evaluate.cc:236-270, 449-503; thread_pool_impl.cc:40-55, 219-241): every action is atomic,
  the threads are interleaved in any order.

Not modelled: threads that help other tasks while they wait; nested loops (the body of a stage is one action that takes some time, from `enter` to `finish`).
-/

namespace Slinky

/-! ### The pass -/

/-- slide_and_fold_storage.cc:201-234: the part of `loop_info` for the synchronization. -/
structure LoopSync where
  maxWorkers : Expr
  syncStages : Nat := 0
  stage : Option Nat := none

/-- slide_and_fold_storage.cc:221-234 `add_synchronization`. `fuel` is that of `prove_true`. -/
def LoopSync.add (cfg : SimpCfg) (fuel : Nat) (l : LoopSync) : LoopSync :=
  if proveTrue cfg fuel (mkBin .le l.maxWorkers (.const ((l.syncStages + 1 : Nat) : Int))) (fun _ => none) (fun _ => none) then l
  else match l.stage with
    | some _ => l
    | none => { l with stage := some l.syncStages, syncStages := l.syncStages + 1 }

/-- slide_and_fold_storage.cc:255-276 `mutate`, for the statements of the body of the loop in the order in which they run. The list says for each one how often `add_synchronization` was
called when it was visited (slide_and_fold_storage.cc:490, once for every folded dimension of an output). The result says which stage it becomes. -/
def stagesOf (cfg : SimpCfg) (fuel : Nat) : LoopSync → List Nat → List (Option Nat) × LoopSync
  | l, [] => ([], l)
  | l, c :: cs =>
    let l1 := (LoopSync.add cfg fuel)^[c] l
    let r := stagesOf cfg fuel { l1 with stage := none } cs
    (l1.stage :: r.1, r.2)

/-- A pipelined loop: what is passed to the evaluator. `segs` are the statements of the body; `some st` is wrapped into waiting for and signaling the semaphores of stage `st`. -/
structure PLoop where
  segs : List (Option Nat)
  min : Int
  step : Int
  /-- the number of iterations -/
  n : Nat
  /-- `max_workers` of the loop -/
  workers : Nat
  /-- the fold factor of the array of semaphores -/
  slots : Nat
deriving DecidableEq, Repr

/-- slide_and_fold_storage.cc:628-665, 695-700: the loop with its semaphores. `none`: there are no semaphores, the loop is data parallel or runs serially. -/
def pipelineOf (cfg : SimpCfg) (fuel : Nat) (dataParallel : Bool) (maxWorkers : Expr) (min step : Int) (n : Nat) (body : List Nat) : Option PLoop :=
  let r := stagesOf cfg fuel { maxWorkers := maxWorkers } body
  let stageCount := r.2.syncStages
  if dataParallel || stageCount ≤ 1 then none
  else some ⟨r.1, min, step, n, Nat.max 1 stageCount, stageCount⟩

/-! ### The evaluator -/

/-- slide_and_fold_storage.cc:266, 269: `floor_div(loop_var, step)` in iteration `k`. -/
def PLoop.index (L : PLoop) (k : Nat) : Int := ediv (L.min + k * L.step) L.step

/-- The semaphore that iteration `k` waits for (in the folded dimension, buffer.h `flat_offset_bytes`). -/
def PLoop.waitSlot (L : PLoop) (k : Nat) : Int := emod (L.index k - 1) L.slots
/-- The semaphore that iteration `k` signals. -/
def PLoop.signalSlot (L : PLoop) (k : Nat) : Int := emod (L.index k) L.slots

/-- Where an iteration is in the current statement. `ran`: before the signal. -/
inductive PPhase
  | ready | running | ran
deriving DecidableEq, Repr

/-- A state of the loop. -/
structure PState where
  /-- the counter of the loop: the next iteration that will be started -/
  next : Nat
  /-- what the threads do: `none` is idle -/
  worker : Nat → Option Nat
  /-- how many statements an iteration has completed -/
  pos : Nat → Nat
  phase : Nat → PPhase
  /-- the semaphores: stage and slot -/
  sem : Nat → Int → Int

/-- slide_and_fold_storage.cc:642-654 `init_semaphores`: at the beginning, the semaphore before the first iteration is 1 for every stage. -/
def PLoop.init (L : PLoop) : PState :=
  ⟨0, fun _ => none, fun _ => 0, fun _ => .ready, fun _ j => if j = emod (ediv L.min L.step - 1) L.slots then 1 else 0⟩

/-- What a thread can do next. `fail`: the statement returns an error. -/
inductive PAct
  | take (w : Nat) | enter (w : Nat) | finish (w : Nat) | signal (w : Nat) | leave (w : Nat) | fail (w : Nat)
deriving DecidableEq, Repr

/-- One step of a thread; `none` if it is not possible (or if it must wait). -/
def PLoop.act (L : PLoop) (s : PState) : PAct → Option PState
  -- thread_pool_impl.cc:43 (one counter, because `max_workers` is finite: 219-241)
  | .take w =>
    if w < L.workers ∧ s.worker w = none ∧ s.next < L.n then some { s with next := s.next + 1, worker := Function.update s.worker w (some s.next) } else none
  | .enter w =>
    match s.worker w with
    | none => none
    | some k =>
      if s.phase k = .ready then
        match L.segs[s.pos k]? with
        | none => none
        | some none => some { s with phase := Function.update s.phase k .running }
        -- evaluate.cc:253-270: the test and the decrement are atomic
        | some (some st) =>
          if 1 ≤ s.sem st (L.waitSlot k) then
            some { s with phase := Function.update s.phase k .running,
                          sem := Function.update s.sem st (Function.update (s.sem st) (L.waitSlot k) (s.sem st (L.waitSlot k) - 1)) }
          else none
      else none
  | .finish w =>
    match s.worker w with
    | none => none
    | some k =>
      if s.phase k = .running then
        match L.segs[s.pos k]? with
        | none => none
        | some none => some { s with phase := Function.update s.phase k .ready, pos := Function.update s.pos k (s.pos k + 1) }
        | some (some _) => some { s with phase := Function.update s.phase k .ran }
      else none
  -- evaluate.cc:236-251
  | .signal w =>
    match s.worker w with
    | none => none
    | some k =>
      if s.phase k = .ran then
        match L.segs[s.pos k]? with
        | some (some st) =>
          some { s with phase := Function.update s.phase k .ready, pos := Function.update s.pos k (s.pos k + 1),
                        sem := Function.update s.sem st (Function.update (s.sem st) (L.signalSlot k) (s.sem st (L.signalSlot k) + 1)) }
        | _ => none
      else none
  | .leave w =>
    match s.worker w with
    | none => none
    | some k => if s.phase k = .ready ∧ s.pos k = L.segs.length then some { s with worker := Function.update s.worker w none } else none
  -- evaluate.cc `eval(block)`: nothing else of the body is run
  | .fail w =>
    match s.worker w with
    | none => none
    | some k =>
      if s.phase k = .running then some { s with phase := Function.update s.phase k .ready, pos := Function.update s.pos k L.segs.length } else none

/-- The states that can be reached without errors. -/
inductive PLoop.Reachable (L : PLoop) : PState → Prop
  | init : L.Reachable L.init
  | step {s s' : PState} {a : PAct} : L.Reachable s → (∀ w, a ≠ .fail w) → L.act s a = some s' → L.Reachable s'

/-- The states that can be reached if statements can fail. -/
inductive PLoop.ReachableF (L : PLoop) : PState → Prop
  | init : L.ReachableF L.init
  | step {s s' : PState} {a : PAct} : L.ReachableF s → L.act s a = some s' → L.ReachableF s'

/-- Everything is done: all iterations were taken and no thread is busy. -/
def PLoop.Done (L : PLoop) (s : PState) : Prop := s.next = L.n ∧ ∀ w, s.worker w = none

/-- The iteration `k` has completed the statement `j` of the body (and signaled this). -/
def PState.Completed (s : PState) (k j : Nat) : Prop := j < s.pos k
/-- The iteration `k` is in the statement `j`. -/
def PState.In (s : PState) (k j : Nat) : Prop := s.pos k = j ∧ s.phase k = .running

/-! ### A buffer

The slots of one dimension of one buffer, that is produced by the statement `prod` and folded by `F`. In iteration `k` the producer writes the indices
from `lo k` to `hi k`, in any order, each one at least once. -/

/-- The buffer. -/
structure PBuf where
  prod : Nat
  F : Int
  lo : Nat → Int
  hi : Nat → Int

/-- The state with the buffer. `written k` are the indices that iteration `k` has written. -/
structure PBState where
  s : PState
  buf : SlotStore
  written : Nat → List Int

/-- The steps with the buffer: `finish` of the producer is only possible if everything is written. -/
inductive PBuf.Step (L : PLoop) (B : PBuf) : PBState → PBState → Prop
  | act {t : PBState} {a : PAct} {s' : PState} : (∀ w, a ≠ .fail w) → L.act t.s a = some s' →
      (∀ w k, a = .finish w → t.s.worker w = some k → t.s.pos k = B.prod → ∀ i, B.lo k ≤ i → i ≤ B.hi k → i ∈ t.written k) → PBuf.Step L B t ⟨s', t.buf, t.written⟩
  | write {t : PBState} {w k : Nat} {i : Int} : t.s.worker w = some k → t.s.In k B.prod → B.lo k ≤ i → i ≤ B.hi k →
      PBuf.Step L B t ⟨t.s, t.buf.write B.F i, Function.update t.written k (t.written k ++ [i])⟩

/-- The states that can be reached with the buffer, which contains anything at the beginning. -/
inductive PBuf.Reachable (L : PLoop) (B : PBuf) : PBState → Prop
  | init (st : SlotStore) : PBuf.Reachable L B ⟨L.init, st, fun _ => []⟩
  | step {t t' : PBState} : PBuf.Reachable L B t → PBuf.Step L B t t' → PBuf.Reachable L B t'

end Slinky
