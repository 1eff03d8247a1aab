import Verif.ThreadPoolStack
import Mathlib.Order.WellFounded

/-!
# C29: the pool does not run forever without new work

Every infinite execution has infinitely many calls from user code, spurious wakeups, or yields of the spin loop.
-/

namespace Slinky.TP

/-- The steps that are not a new call from user code, a spurious wakeup, or a yield. -/
def Act.internal : Act → Bool
  | .enter _ | .fetch _ | .ret _ | .finish _ | .spinDone _ | .spinEnd _ | .lock _ | .check _ | .dequeue _ | .sleep _ => true
  | _ => false

/-- Is the frame about to notify? -/
def isLN : Frame → Nat
  | .wait _ .lockNotify => 1
  | _ => 0

/-- How far the frame is from sleeping or returning, if the queue has `n` elements. -/
def rank (n : Nat) : Frame → Nat
  | .work _ rem _ run => rem.length + (if run.isSome then 1 else 0) + 1
  | .wait _ .asleep => 0
  | .wait _ .nap => 1
  | .wait _ (.deq pos) => 2 + (n - pos)
  | .wait _ .check => n + 3
  | .wait _ .lock => n + 4
  | .wait _ .lockNotify => n + 5
  | .wait _ .spin => n + 6
  | .wait _ .working => n + 7
  | .wait _ .direct => n + 7
  | .wait _ .entry => n + 8

/-- Sums over tasks. -/
def sumT (f : Task → Nat) (ts : List Task) : Nat := (ts.map f).sum

theorem sumT_set (f : Task → Nat) : ∀ (l : List Task) (t : Nat) (x y : Task), l[t]? = some x → sumT f (l.set t y) + f x = sumT f l + f y
  | [], _, _, _, h => by simp at h
  | a :: l, 0, x, y, h => by simp at h; subst h; simp [sumT]; omega
  | a :: l, s + 1, x, y, h => by
    have := sumT_set f l s x y (by simpa using h)
    simp [sumT] at *; omega

def open1 (tk : Task) : Nat := if tk.todo = 0 then 0 else 1

def m1 (p : Pool) : Nat := sumT open1 p.tasks + tot isLN p.threads
def m2 (p : Pool) : Nat := sumT (fun tk => tk.maxW.toNat) p.tasks
def m3 (p : Pool) : Nat := sumT Task.left p.tasks
def m4 (p : Pool) : Nat := tot (rank p.queue.length) p.threads

def Dec (q p : Pool) : Prop :=
  m1 q < m1 p ∨ m1 q = m1 p ∧ (m2 q < m2 p ∨ m2 q = m2 p ∧ (m3 q < m3 p ∨ m3 q = m3 p ∧ m4 q < m4 p))

theorem dec_wf : WellFounded Dec := by
  have h : WellFounded (Prod.Lex (· < ·) (Prod.Lex (· < ·) (Prod.Lex (· < ·) (· < ·))) : Nat × Nat × Nat × Nat → _ → Prop) :=
    WellFounded.prod_lex wellFounded_lt (WellFounded.prod_lex wellFounded_lt (WellFounded.prod_lex wellFounded_lt wellFounded_lt))
  refine Subrelation.wf (r := InvImage _ (fun p : Pool => (m1 p, m2 p, m3 p, m4 p))) ?_ (InvImage.wf _ h)
  intro q p hd
  simp only [InvImage, Prod.lex_def]
  exact hd

theorem dec_of {q p : Pool} (h1 : m1 q ≤ m1 p) (h2 : m1 q < m1 p ∨ m2 q ≤ m2 p ∧ (m2 q < m2 p ∨ m3 q ≤ m3 p ∧ (m3 q < m3 p ∨ m4 q < m4 p))) : Dec q p := by
  unfold Dec; omega

/-- The effect on the sums of a step that changes one stack. -/
theorem tot_change (g : Frame → Nat) {ths : List (List Frame)} {k : Nat} {stk : List Frame} (h : ths[k]? = some stk) (stk' : List Frame) :
    tot g (ths.set k stk') + (stk.map g).sum = tot g ths + (stk'.map g).sum := tot_set g ths k stk stk' h

theorem rank_mono {n m : Nat} (h : n ≤ m) (f : Frame) : rank n f ≤ rank m f := by
  cases f with
  | work => simp [rank]
  | wait c pc => cases pc <;> simp [rank] <;> omega

theorem rest_sum_mono {n m : Nat} (h : n ≤ m) (l : List Frame) : (l.map (rank n)).sum ≤ (l.map (rank m)).sum :=
  List.sum_le_sum fun f _ => rank_mono h f

theorem contrib_le {p : Pool} (hi : Inv p) {k t : Nat} {rem : List Nat} {done : Nat} {run : Option Nat} {rest : List Frame} {tk : Task}
    (h0 : p.threads[k]? = some (.work t rem done run :: rest)) (h1 : p.tasks[t]? = some tk) : (done : Int) ≤ tk.todo := by
  have h2 := sum_le_tot (contrib t) h0
  have h3 := hi.sum t tk h1
  simp only [List.map_cons, List.sum_cons, contrib, if_true] at h2
  omega

/-- Every internal step decreases the measure. -/
theorem dec_step {p q : Pool} {a : Act} (hi : Inv p) (ha : a.internal = true) (h : LStep p a q) : Dec q p := by
  cases h with
  | enterOk k t tk rest h0 h1 h2 =>
    have e1 := tot_change isLN h0 (.work t (shardOrder (tk.maxW - 1) tk.shards.length) 0 none :: .wait (.task t) .direct :: rest)
    have e2 := sumT_set open1 _ _ _ { tk with maxW := tk.maxW - 1 } h1
    have e3 := sumT_set (fun tk => tk.maxW.toNat) _ _ _ { tk with maxW := tk.maxW - 1 } h1
    simp only [List.map_cons, List.sum_cons, isLN, open1] at e1 e2 e3
    apply dec_of <;> simp only [m1, m2, Pool.setStk] <;> omega
  | enterNo k t tk rest h0 h1 h2 =>
    have e1 := tot_change isLN h0 (.wait (.task t) .spin :: rest)
    have e2 := sumT_set open1 _ _ _ { tk with maxW := tk.maxW - 1 } h1
    have e3 := sumT_set (fun tk => tk.maxW.toNat) _ _ _ { tk with maxW := tk.maxW - 1 } h1
    have e4 := sumT_set Task.left _ _ _ { tk with maxW := tk.maxW - 1 } h1
    have e5 := tot_change (rank p.queue.length) h0 (.wait (.task t) .spin :: rest)
    simp only [List.map_cons, List.sum_cons, isLN, open1, Task.left, rank] at e1 e2 e3 e4 e5
    apply dec_of <;> simp only [m1, m2, m3, m4, Pool.setStk] <;> omega
  | start k t s i e done rem tk rest h0 h1 h2 h3 =>
    have e1 := tot_change isLN h0 (.work t (s :: rem) done (some i) :: rest)
    have e2 := sumT_set open1 _ _ _ { tk with shards := tk.shards.set s (i + 1, e) } h1
    have e3 := sumT_set (fun tk => tk.maxW.toNat) _ _ _ { tk with shards := tk.shards.set s (i + 1, e) } h1
    have e4 := sumT_set Task.left _ _ _ { tk with shards := tk.shards.set s (i + 1, e) } h1
    have e5 := sum_set (fun s => s.2 - s.1) tk.shards s _ (i + 1, e) h2
    simp only [List.map_cons, List.sum_cons, isLN, open1, Task.left] at e1 e2 e3 e4 e5
    apply dec_of <;> simp only [m1, m2, m3, Pool.setStk] <;> omega
  | skip k t s i e done rem tk rest h0 h1 h2 h3 =>
    have e1 := tot_change isLN h0 (.work t rem done none :: rest)
    have e2 := sumT_set open1 _ _ _ { tk with shards := tk.shards.set s (i + 1, e) } h1
    have e3 := sumT_set (fun tk => tk.maxW.toNat) _ _ _ { tk with shards := tk.shards.set s (i + 1, e) } h1
    have e4 := sumT_set Task.left _ _ _ { tk with shards := tk.shards.set s (i + 1, e) } h1
    have e5 := sum_set (fun s => s.2 - s.1) tk.shards s _ (i + 1, e) h2
    have e6 := tot_change (rank p.queue.length) h0 (.work t rem done none :: rest)
    simp only [List.map_cons, List.sum_cons, isLN, open1, Task.left, rank, List.length_cons] at e1 e2 e3 e4 e5 e6
    apply dec_of <;> simp only [m1, m2, m3, m4, Pool.setStk] <;> omega
  | ret k t i done rem rest h0 =>
    have e1 := tot_change isLN h0 (.work t rem (done + 1) none :: rest)
    have e6 := tot_change (rank p.queue.length) h0 (.work t rem (done + 1) none :: rest)
    simp only [List.map_cons, List.sum_cons, isLN, rank, Option.isSome_some, Option.isSome_none, if_true, Bool.false_eq_true, if_false] at e1 e6
    apply dec_of <;> simp only [m1, m2, m3, m4, Pool.setStk] <;> omega
  | finishDirect k t done c tk rest h0 h1 h2 =>
    have e0 := contrib_le hi h0 h1
    have e1 := tot_change isLN h0 rest
    have e2 := sumT_set open1 _ _ _ { tk with todo := (if 0 < done then tk.todo - done else tk.todo) } h1
    have e7 : open1 tk = 1 := if_neg (by omega)
    have e8 : open1 { tk with todo := (if 0 < done then tk.todo - done else tk.todo) } = 0 := if_pos h2.2
    simp only [List.map_cons, List.sum_cons, isLN] at e1
    apply dec_of <;> simp only [m1, m2, Pool.setStk] <;> omega
  | finishSpin k t done c tk rest h0 h1 h2 =>
    have e0 := contrib_le hi h0 h1
    have e1 := tot_change isLN h0 (.wait c .spin :: rest)
    have e2 := sumT_set open1 _ _ _ { tk with todo := (if 0 < done then tk.todo - done else tk.todo) } h1
    have e3 := sumT_set (fun tk => tk.maxW.toNat) _ _ _ { tk with todo := (if 0 < done then tk.todo - done else tk.todo) } h1
    have e4 := sumT_set Task.left _ _ _ { tk with todo := (if 0 < done then tk.todo - done else tk.todo) } h1
    have e6 := tot_change (rank p.queue.length) h0 (.wait c .spin :: rest)
    have e7 : open1 { tk with todo := (if 0 < done then tk.todo - done else tk.todo) } = open1 tk := by
      by_cases hd : 0 < done
      · have : ¬ tk.todo - done = 0 := by
          intro e; exact h2 ⟨hd, by rw [if_pos hd]; exact e⟩
        rw [if_pos hd]
        simp only [open1, this, if_false]
        rw [if_neg (by omega)]
      · rw [if_neg hd]
    simp only [List.map_cons, List.sum_cons, isLN, rank, Task.left] at e1 e3 e4 e6
    apply dec_of <;> simp only [m1, m2, m3, m4, Pool.setStk] <;> omega
  | finishNotify k t done c tk rest h0 h1 h2 =>
    have e0 := contrib_le hi h0 h1
    have e1 := tot_change isLN h0 (.wait c .lockNotify :: rest)
    have e2 := sumT_set open1 _ _ _ { tk with todo := (if 0 < done then tk.todo - done else tk.todo) } h1
    have e3 := sumT_set (fun tk => tk.maxW.toNat) _ _ _ { tk with todo := (if 0 < done then tk.todo - done else tk.todo) } h1
    have e4 := sumT_set Task.left _ _ _ { tk with todo := (if 0 < done then tk.todo - done else tk.todo) } h1
    have e6 := tot_change (rank p.queue.length) h0 (.wait c .lockNotify :: rest)
    have e7 : open1 tk = 1 := if_neg (by omega)
    have e8 : open1 { tk with todo := (if 0 < done then tk.todo - done else tk.todo) } = 0 := if_pos h2.2
    simp only [List.map_cons, List.sum_cons, isLN, rank, Task.left] at e1 e3 e4 e6
    apply dec_of <;> simp only [m1, m2, m3, m4, Pool.setStk] <;> omega
  | finishLock k t done c tk rest h0 h1 h2 =>
    have e0 := contrib_le hi h0 h1
    have e1 := tot_change isLN h0 (.wait c .lock :: rest)
    have e2 := sumT_set open1 _ _ _ { tk with todo := (if 0 < done then tk.todo - done else tk.todo) } h1
    have e3 := sumT_set (fun tk => tk.maxW.toNat) _ _ _ { tk with todo := (if 0 < done then tk.todo - done else tk.todo) } h1
    have e4 := sumT_set Task.left _ _ _ { tk with todo := (if 0 < done then tk.todo - done else tk.todo) } h1
    have e6 := tot_change (rank p.queue.length) h0 (.wait c .lock :: rest)
    have e7 : open1 { tk with todo := (if 0 < done then tk.todo - done else tk.todo) } = open1 tk := by
      by_cases hd : 0 < done
      · have : ¬ tk.todo - done = 0 := by
          intro e; exact h2 ⟨hd, by rw [if_pos hd]; exact e⟩
        rw [if_pos hd]
        simp only [open1, this, if_false]
        rw [if_neg (by omega)]
      · rw [if_neg hd]
    simp only [List.map_cons, List.sum_cons, isLN, rank, Task.left] at e1 e3 e4 e6
    apply dec_of <;> simp only [m1, m2, m3, m4, Pool.setStk] <;> omega
  | lockNotify k c rest h0 h1 =>
    have e0 : tot isLN (wakeHelpers p.threads) = tot isLN p.threads := by
      apply tot_map
      intro f
      rcases woken_helper f with h | ⟨c, h, h'⟩
      · rw [h]
      · rw [h', h]; rfl
    have e1 : (wakeHelpers p.threads)[k]? = some ((.wait c .lockNotify :: rest).map Frame.wakeHelper) := by simp [wakeHelpers, h1]
    have e2 := tot_change isLN e1 (.wait c .check :: rest.map Frame.wakeHelper)
    have e3 : Frame.wakeHelper (.wait c .lockNotify) = .wait c .lockNotify := by cases c <;> rfl
    simp only [List.map_cons, List.sum_cons, isLN, e3] at e2
    apply dec_of <;> simp only [m1, m2, Pool.setStk] <;> omega
  | deqStarted k pos t c tk rest h0 h1 h2 h3 =>
    have hl : pos < p.queue.length := by
      by_contra hh; rw [List.getElem?_eq_none (by omega)] at h1; cases h1
    have e1 : (p.queue.eraseIdx pos).length = p.queue.length - 1 := List.length_eraseIdx_of_lt hl
    have e2 := tot_change (rank p.queue.length) h0 (.wait c .asleep :: rest)
    have e3 := tot_change (rank (p.queue.eraseIdx pos).length) h0 (.wait c .asleep :: rest)
    have e4 : tot (rank (p.queue.eraseIdx pos).length) (p.threads.set k (.wait c .asleep :: rest)) ≤ tot (rank p.queue.length) (p.threads.set k (.wait c .asleep :: rest)) :=
      tot_mono (rank_mono (by omega)) _
    simp only [List.map_cons, List.sum_cons, rank] at e2 e3
    apply dec_of <;> simp only [m1, m2, m3, m4] <;> omega
  | deqFull k pos t c tk rest h0 h1 h2 h3 =>
    have hl : pos < p.queue.length := by
      by_contra hh; rw [List.getElem?_eq_none (by omega)] at h1; cases h1
    have e1 : (p.queue.eraseIdx pos).length = p.queue.length - 1 := List.length_eraseIdx_of_lt hl
    have e2 := tot_change (rank p.queue.length) h0 (.wait c .asleep :: rest)
    have e3 := tot_change (rank (p.queue.eraseIdx pos).length) h0 (.wait c .asleep :: rest)
    have e4 : tot (rank (p.queue.eraseIdx pos).length) (p.threads.set k (.wait c .asleep :: rest)) ≤ tot (rank p.queue.length) (p.threads.set k (.wait c .asleep :: rest)) :=
      tot_mono (rank_mono (by omega)) _
    have e5 := sumT_set open1 _ _ _ { tk with maxW := tk.maxW - 1 } h2
    have e6 := sumT_set (fun tk => tk.maxW.toNat) _ _ _ { tk with maxW := tk.maxW - 1 } h2
    have e7 := sumT_set Task.left _ _ _ { tk with maxW := tk.maxW - 1 } h2
    simp only [List.map_cons, List.sum_cons, rank, open1, Task.left] at e2 e3 e5 e6 e7
    apply dec_of <;> simp only [m1, m2, m3, m4] <;> omega
  | deqWork k pos t c tk rest h0 h1 h2 h3 =>
    have e1 := tot_change isLN h0 (.work t (shardOrder (tk.maxW - 1) tk.shards.length) 0 none :: .wait c .working :: rest)
    have e2 := sumT_set open1 _ _ _ { tk with maxW := tk.maxW - 1 } h2
    have e3 := sumT_set (fun tk => tk.maxW.toNat) _ _ _ { tk with maxW := tk.maxW - 1 } h2
    simp only [List.map_cons, List.sum_cons, isLN, open1] at e1 e2 e3
    apply dec_of <;> simp only [m1, m2, Pool.setStk] <;> omega
  | deqOn k pos t c tk rest h0 h1 h2 h3 =>
    have hl : pos < p.queue.length := by
      by_contra hh; rw [List.getElem?_eq_none (by omega)] at h1; cases h1
    have e1 := tot_change isLN h0 (.wait c (.deq (pos + 1)) :: rest)
    have e6 := tot_change (rank p.queue.length) h0 (.wait c (.deq (pos + 1)) :: rest)
    simp only [List.map_cons, List.sum_cons, isLN, rank] at e1 e6
    apply dec_of <;> simp only [m1, m2, m3, m4, Pool.setStk] <;> omega
  | spinDone k t tk rest h0 =>
    have e1 := tot_change isLN h0 rest
    have e6 := tot_change (rank p.queue.length) h0 rest
    simp only [List.map_cons, List.sum_cons, isLN, rank] at e1 e6
    apply dec_of <;> simp only [m1, m2, m3, m4, Pool.setStk] <;> omega
  | spinEnd k t rest h0 =>
    have e1 := tot_change isLN h0 (.wait (.task t) .lock :: rest)
    have e6 := tot_change (rank p.queue.length) h0 (.wait (.task t) .lock :: rest)
    simp only [List.map_cons, List.sum_cons, isLN, rank] at e1 e6
    apply dec_of <;> simp only [m1, m2, m3, m4, Pool.setStk] <;> omega
  | lock k c rest h0 h1 =>
    have e1 := tot_change isLN h1 (.wait c .check :: rest)
    have e6 := tot_change (rank p.queue.length) h1 (.wait c .check :: rest)
    simp only [List.map_cons, List.sum_cons, isLN, rank] at e1 e6
    apply dec_of <;> simp only [m1, m2, m3, m4, Pool.setStk] <;> omega
  | checkDone k t tk rest h0 =>
    have e1 := tot_change isLN h0 rest
    have e6 := tot_change (rank p.queue.length) h0 rest
    simp only [List.map_cons, List.sum_cons, isLN, rank] at e1 e6
    apply dec_of <;> simp only [m1, m2, m3, m4, Pool.setStk] <;> omega
  | checkNot k t tk rest h0 =>
    have e1 := tot_change isLN h0 (.wait (.task t) (.deq 0) :: rest)
    have e6 := tot_change (rank p.queue.length) h0 (.wait (.task t) (.deq 0) :: rest)
    simp only [List.map_cons, List.sum_cons, isLN, rank] at e1 e6
    apply dec_of <;> simp only [m1, m2, m3, m4, Pool.setStk] <;> omega
  | semsDone k l rest h0 =>
    have e1 := tot_change isLN h0 rest
    have e6 := tot_change (rank p.queue.length) h0 rest
    simp only [List.map_cons, List.sum_cons, isLN, rank] at e1 e6
    apply dec_of <;> simp only [m1, m2, m3, m4, Pool.setStk] <;> omega
  | semsNot k l rest h0 =>
    have e1 := tot_change isLN h0 (.wait (.sems l) (.deq 0) :: rest)
    have e6 := tot_change (rank p.queue.length) h0 (.wait (.sems l) (.deq 0) :: rest)
    simp only [List.map_cons, List.sum_cons, isLN, rank] at e1 e6
    apply dec_of <;> simp only [m1, m2, m3, m4, Pool.setStk] <;> omega
  | stopDone k rest h0 =>
    have e1 := tot_change isLN h0 rest
    have e6 := tot_change (rank p.queue.length) h0 rest
    simp only [List.map_cons, List.sum_cons, isLN, rank] at e1 e6
    apply dec_of <;> simp only [m1, m2, m3, m4, Pool.setStk] <;> omega
  | stopNot k rest h0 =>
    have e1 := tot_change isLN h0 (.wait .stop (.deq 0) :: rest)
    have e6 := tot_change (rank p.queue.length) h0 (.wait .stop (.deq 0) :: rest)
    simp only [List.map_cons, List.sum_cons, isLN, rank] at e1 e6
    apply dec_of <;> simp only [m1, m2, m3, m4, Pool.setStk] <;> omega
  | deqNone k pos c rest h0 =>
    have e1 := tot_change isLN h0 (.wait c .nap :: rest)
    have e6 := tot_change (rank p.queue.length) h0 (.wait c .nap :: rest)
    simp only [List.map_cons, List.sum_cons, isLN, rank] at e1 e6
    apply dec_of <;> simp only [m1, m2, m3, m4, Pool.setStk] <;> omega
  | sleep k c rest h0 =>
    have e1 := tot_change isLN h0 (.wait c .asleep :: rest)
    have e6 := tot_change (rank p.queue.length) h0 (.wait c .asleep :: rest)
    simp only [List.map_cons, List.sum_cons, isLN, rank] at e1 e6
    apply dec_of <;> simp only [m1, m2, m3, m4, Pool.setStk] <;> omega
  | _ => simp [Act.internal] at ha

/-- **C29.** The pool cannot run forever on its own: there is no infinite execution, from any reachable state, in which no thread
makes a new call (enqueue, wait, signal, ...), wakes up spuriously or yields in the spin loop. -/
theorem no_infinite_internal_run (f : Nat → Pool) (hr : Reachable (f 0)) :
    ¬ ∀ i, ∃ a : Act, a.internal = true ∧ step (f i) a = some (f (i + 1)) := by
  intro h
  have hr' : ∀ i, Reachable (f i) := by
    intro i
    induction i with
    | zero => exact hr
    | succ i ih =>
      obtain ⟨a, _, hs⟩ := h i
      exact ih.step hs
  have hd : ∀ i, Dec (f (i + 1)) (f i) := by
    intro i
    obtain ⟨a, ha, hs⟩ := h i
    exact dec_step (inv_reachable (hr' i)) ha (step_cases hs)
  obtain ⟨_, ⟨i, rfl⟩, hm⟩ := dec_wf.has_min (Set.range f) ⟨f 0, 0, rfl⟩
  exact hm (f (i + 1)) ⟨i + 1, rfl⟩ (hd i)

end Slinky.TP
