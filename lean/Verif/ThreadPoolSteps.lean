import Verif.ThreadPoolProps

/-!
# The steps of the thread pool, one by one

An inversion principle for `step`, so that invariants can be proved step by step.
-/

namespace Slinky.TP

set_option linter.style.longLine false

/-- The result of each step that is possible. -/
inductive LStep (p : Pool) : Act → Pool → Prop where
  | enqueue (k n : Nat) (mw : Int) (wk hk : Nat) (stk : List Frame) (h0 : p.threads[k]? = some stk) (h1 : userCode stk = true) (h2 : p.locked = false) (h3 : 0 < n) :
      LStep p (.enqueue k n mw wk hk) (p.enqueue n mw wk hk)
  | parallelFor (k n : Nat) (mw : Int) (wk hk : Nat) (stk : List Frame) (h0 : p.threads[k]? = some stk) (h1 : userCode stk = true) (h2 : p.locked = false) (h3 : 0 < n) :
      LStep p (.parallelFor k n mw wk hk) ((p.enqueue n mw wk hk).setStk k (.wait (.task p.tasks.length) .entry :: stk))
  | waitTask (k t : Nat) (stk : List Frame) (h0 : p.threads[k]? = some stk) (h1 : userCode stk = true) (h2 : t < p.tasks.length) :
      LStep p (.waitTask k t) (p.setStk k (.wait (.task t) .entry :: stk))
  | semWait (k : Nat) (l : List (Nat × Int)) (stk : List Frame) (h0 : p.threads[k]? = some stk) (h1 : userCode stk = true) :
      LStep p (.semWait k l) (p.setStk k (.wait (.sems l) .lock :: stk))
  | semSignal (k : Nat) (l : List (Nat × Int)) (h0 : p.locked = false) :
      LStep p (.semSignal k l) ({ p with sems := semsAdd 1 l p.sems, semSig := semsAdd 1 l p.semSig }.notifyAll)
  | semInit (k s : Nat) (v : Int) (h0 : p.locked = false) :
      LStep p (.semInit k s v) ({ p with sems := fun x => if x = s then v else p.sems x, semInit := fun x => if x = s then v else p.semInit x, semSig := fun x => if x = s then 0 else p.semSig x, semAcq := fun x => if x = s then 0 else p.semAcq x }.notifyAll)
  | setStop (k : Nat) (h0 : p.locked = false) :
      LStep p (.setStop k) ({ p with stop := true }.notifyAll)
  | runWorker (k : Nat) (h0 : p.threads[k]? = some []) :
      LStep p (.runWorker k) (p.setStk k [.wait .stop .lock])
  | enterOk (k t : Nat) (tk : Task) (rest : List Frame) (h0 : p.threads[k]? = some (.wait (.task t) .entry :: rest)) (h1 : p.tasks[t]? = some tk) (h2 : 0 ≤ tk.maxW - 1) :
      LStep p (.enter k) ({ p with tasks := p.tasks.set t { tk with maxW := tk.maxW - 1 } }.setStk k (.work t (shardOrder (tk.maxW - 1) tk.shards.length) 0 none :: .wait (.task t) .direct :: rest))
  | enterNo (k t : Nat) (tk : Task) (rest : List Frame) (h0 : p.threads[k]? = some (.wait (.task t) .entry :: rest)) (h1 : p.tasks[t]? = some tk) (h2 : tk.maxW - 1 < 0) :
      LStep p (.enter k) ({ p with tasks := p.tasks.set t { tk with maxW := tk.maxW - 1 } }.setStk k (.wait (.task t) .spin :: rest))
  | start (k t s i e done : Nat) (rem : List Nat) (tk : Task) (rest : List Frame) (h0 : p.threads[k]? = some (.work t (s :: rem) done none :: rest)) (h1 : p.tasks[t]? = some tk) (h2 : tk.shards[s]? = some (i, e)) (h3 : i < e) :
      LStep p (.fetch k) ({ p with tasks := p.tasks.set t { tk with shards := tk.shards.set s (i + 1, e) }, started := (t, i) :: p.started }.setStk k (.work t (s :: rem) done (some i) :: rest))
  | skip (k t s i e done : Nat) (rem : List Nat) (tk : Task) (rest : List Frame) (h0 : p.threads[k]? = some (.work t (s :: rem) done none :: rest)) (h1 : p.tasks[t]? = some tk) (h2 : tk.shards[s]? = some (i, e)) (h3 : e ≤ i) :
      LStep p (.fetch k) ({ p with tasks := p.tasks.set t { tk with shards := tk.shards.set s (i + 1, e) } }.setStk k (.work t rem done none :: rest))
  | ret (k t i done : Nat) (rem : List Nat) (rest : List Frame) (h0 : p.threads[k]? = some (.work t rem done (some i) :: rest)) :
      LStep p (.ret k) ({ p with returned := (t, i) :: p.returned }.setStk k (.work t rem (done + 1) none :: rest))
  | finishDirect (k t done : Nat) (c : Cond) (tk : Task) (rest : List Frame) (h0 : p.threads[k]? = some (.work t [] done none :: .wait c .direct :: rest)) (h1 : p.tasks[t]? = some tk) (h2 : 0 < done ∧ (if 0 < done then tk.todo - done else tk.todo) = 0) :
      LStep p (.finish k) ({ p with tasks := p.tasks.set t { tk with todo := (if 0 < done then tk.todo - done else tk.todo) }, completed := t :: p.completed }.setStk k rest)
  | finishSpin (k t done : Nat) (c : Cond) (tk : Task) (rest : List Frame) (h0 : p.threads[k]? = some (.work t [] done none :: .wait c .direct :: rest)) (h1 : p.tasks[t]? = some tk) (h2 : ¬ (0 < done ∧ (if 0 < done then tk.todo - done else tk.todo) = 0)) :
      LStep p (.finish k) ({ p with tasks := p.tasks.set t { tk with todo := (if 0 < done then tk.todo - done else tk.todo) } }.setStk k (.wait c .spin :: rest))
  | finishNotify (k t done : Nat) (c : Cond) (tk : Task) (rest : List Frame) (h0 : p.threads[k]? = some (.work t [] done none :: .wait c .working :: rest)) (h1 : p.tasks[t]? = some tk) (h2 : 0 < done ∧ (if 0 < done then tk.todo - done else tk.todo) = 0) :
      LStep p (.finish k) ({ p with tasks := p.tasks.set t { tk with todo := (if 0 < done then tk.todo - done else tk.todo) }, completed := t :: p.completed }.setStk k (.wait c .lockNotify :: rest))
  | finishLock (k t done : Nat) (c : Cond) (tk : Task) (rest : List Frame) (h0 : p.threads[k]? = some (.work t [] done none :: .wait c .working :: rest)) (h1 : p.tasks[t]? = some tk) (h2 : ¬ (0 < done ∧ (if 0 < done then tk.todo - done else tk.todo) = 0)) :
      LStep p (.finish k) ({ p with tasks := p.tasks.set t { tk with todo := (if 0 < done then tk.todo - done else tk.todo) } }.setStk k (.wait c .lock :: rest))
  | spinDone (k t : Nat) (tk : Task) (rest : List Frame) (h0 : p.threads[k]? = some (.wait (.task t) .spin :: rest)) (h1 : p.tasks[t]? = some tk) (h2 : tk.todo = 0) :
      LStep p (.spinDone k) (p.setStk k rest)
  | spinEnd (k t : Nat) (rest : List Frame) (h0 : p.threads[k]? = some (.wait (.task t) .spin :: rest)) :
      LStep p (.spinEnd k) (p.setStk k (.wait (.task t) .lock :: rest))
  | lock (k : Nat) (c : Cond) (rest : List Frame) (h0 : p.locked = false) (h1 : p.threads[k]? = some (.wait c .lock :: rest)) :
      LStep p (.lock k) ({ p with locked := true }.setStk k (.wait c .check :: rest))
  | lockNotify (k : Nat) (c : Cond) (rest : List Frame) (h0 : p.locked = false) (h1 : p.threads[k]? = some (.wait c .lockNotify :: rest)) :
      LStep p (.lock k) ({ p with locked := true, threads := wakeHelpers p.threads }.setStk k (.wait c .check :: rest.map Frame.wakeHelper))
  | checkDone (k t : Nat) (tk : Task) (rest : List Frame) (h0 : p.threads[k]? = some (.wait (.task t) .check :: rest)) (h1 : p.tasks[t]? = some tk) (h2 : tk.todo = 0) :
      LStep p (.check k) ({ p with locked := false }.setStk k rest)
  | checkNot (k t : Nat) (tk : Task) (rest : List Frame) (h0 : p.threads[k]? = some (.wait (.task t) .check :: rest)) (h1 : p.tasks[t]? = some tk) (h2 : tk.todo ≠ 0) :
      LStep p (.check k) (p.setStk k (.wait (.task t) (.deq 0) :: rest))
  | semsDone (k : Nat) (l : List (Nat × Int)) (rest : List Frame) (h0 : p.threads[k]? = some (.wait (.sems l) .check :: rest)) (h1 : semsOk p.sems l = true) :
      LStep p (.check k) ({ p with locked := false, sems := semsAdd (-1) l p.sems, semAcq := semsAdd 1 l p.semAcq }.setStk k rest)
  | semsNot (k : Nat) (l : List (Nat × Int)) (rest : List Frame) (h0 : p.threads[k]? = some (.wait (.sems l) .check :: rest)) (h1 : semsOk p.sems l = false) :
      LStep p (.check k) (p.setStk k (.wait (.sems l) (.deq 0) :: rest))
  | stopDone (k : Nat) (rest : List Frame) (h0 : p.threads[k]? = some (.wait .stop .check :: rest)) (h1 : p.stop = true) :
      LStep p (.check k) ({ p with locked := false }.setStk k rest)
  | stopNot (k : Nat) (rest : List Frame) (h0 : p.threads[k]? = some (.wait .stop .check :: rest)) (h1 : p.stop = false) :
      LStep p (.check k) (p.setStk k (.wait .stop (.deq 0) :: rest))
  | deqNone (k pos : Nat) (c : Cond) (rest : List Frame) (h0 : p.threads[k]? = some (.wait c (.deq pos) :: rest)) (h1 : p.queue[pos]? = none) :
      LStep p (.dequeue k) (p.setStk k (.wait c .nap :: rest))
  | deqStarted (k pos t : Nat) (c : Cond) (tk : Task) (rest : List Frame) (h0 : p.threads[k]? = some (.wait c (.deq pos) :: rest)) (h1 : p.queue[pos]? = some t) (h2 : p.tasks[t]? = some tk) (h3 : tk.allStarted = true) :
      LStep p (.dequeue k) ({ p with queue := p.queue.eraseIdx pos })
  | deqOn (k pos t : Nat) (c : Cond) (tk : Task) (rest : List Frame) (h0 : p.threads[k]? = some (.wait c (.deq pos) :: rest)) (h1 : p.queue[pos]? = some t) (h2 : p.tasks[t]? = some tk) (h3 : onStack t rest = true) :
      LStep p (.dequeue k) (p.setStk k (.wait c (.deq (pos + 1)) :: rest))
  | deqFull (k pos t : Nat) (c : Cond) (tk : Task) (rest : List Frame) (h0 : p.threads[k]? = some (.wait c (.deq pos) :: rest)) (h1 : p.queue[pos]? = some t) (h2 : p.tasks[t]? = some tk) (h3 : tk.maxW - 1 < 0) :
      LStep p (.dequeue k) ({ p with tasks := p.tasks.set t { tk with maxW := tk.maxW - 1 }, queue := p.queue.eraseIdx pos })
  | deqWork (k pos t : Nat) (c : Cond) (tk : Task) (rest : List Frame) (h0 : p.threads[k]? = some (.wait c (.deq pos) :: rest)) (h1 : p.queue[pos]? = some t) (h2 : p.tasks[t]? = some tk) (h3 : 0 ≤ tk.maxW - 1) :
      LStep p (.dequeue k) ({ p with tasks := p.tasks.set t { tk with maxW := tk.maxW - 1 }, locked := false, queue := if tk.maxW - 1 = 0 then p.queue.eraseIdx pos else p.queue }.setStk k (.work t (shardOrder (tk.maxW - 1) tk.shards.length) 0 none :: .wait c .working :: rest))
  | yield (k : Nat) (c : Cond) (rest : List Frame) (h0 : p.threads[k]? = some (.wait c .nap :: rest)) :
      LStep p (.yield k) ({ p with locked := false }.setStk k (.wait c .lock :: rest))
  | sleep (k : Nat) (c : Cond) (rest : List Frame) (h0 : p.threads[k]? = some (.wait c .nap :: rest)) :
      LStep p (.sleep k) ({ p with locked := false }.setStk k (.wait c .asleep :: rest))
  | wake (k : Nat) (c : Cond) (rest : List Frame) (h0 : p.threads[k]? = some (.wait c .asleep :: rest)) :
      LStep p (.wake k) (p.setStk k (.wait c .lock :: rest))

theorem step_cases {p q : Pool} {a : Act} (h : step p a = some q) : LStep p a q := by
  cases a with
  | enqueue k n mw wk hk =>
    simp only [step] at h
    split at h
    · rename_i stk hstk
      split at h
      · rename_i hc
        simp only [Option.some.injEq] at h; subst h
        simp at hc
        exact .enqueue _ _ _ _ _ _ hstk hc.1.1 hc.1.2 hc.2
      · cases h
    · cases h
  | parallelFor k n mw wk hk =>
    simp only [step] at h
    split at h
    · rename_i stk hstk
      split at h
      · rename_i hc
        simp only [Option.some.injEq] at h; subst h
        simp at hc
        exact .parallelFor _ _ _ _ _ _ hstk hc.1.1 hc.1.2 hc.2
      · cases h
    · cases h
  | waitTask k t =>
    simp only [step] at h
    split at h
    · rename_i stk hstk
      split at h
      · rename_i hc
        simp only [Option.some.injEq] at h; subst h
        simp at hc
        exact .waitTask _ _ _ hstk hc.1.1 hc.1.2
      · cases h
    · cases h
  | semWait k l =>
    simp only [step] at h
    split at h
    · rename_i stk hstk
      split at h
      · rename_i hc
        simp only [Option.some.injEq] at h; subst h
        exact .semWait _ _ _ hstk hc
      · cases h
    · cases h
  | semSignal k l =>
    simp only [step] at h
    split at h
    · split at h
      · rename_i hc
        simp only [Option.some.injEq] at h; subst h
        simp at hc
        exact .semSignal _ _ hc.2
      · cases h
    · cases h
  | semInit k s v =>
    simp only [step] at h
    split at h
    · split at h
      · rename_i hc
        simp only [Option.some.injEq] at h; subst h
        simp at hc
        exact .semInit _ _ _ hc.2
      · cases h
    · cases h
  | setStop k =>
    simp only [step] at h
    split at h
    · split at h
      · rename_i hc
        simp only [Option.some.injEq] at h; subst h
        simp at hc
        exact .setStop _ hc.2
      · cases h
    · cases h
  | runWorker k =>
    simp only [step] at h
    split at h
    · rename_i hstk
      simp only [Option.some.injEq] at h; subst h
      exact .runWorker _ hstk
    · cases h
  | enter k =>
    simp only [step] at h
    split at h
    · rename_i t rest hstk
      split at h
      · rename_i tk htk
        split at h
        · rename_i hw
          simp only [Option.some.injEq] at h; subst h
          exact .enterOk _ _ _ _ hstk htk hw
        · rename_i hw
          simp only [Option.some.injEq] at h; subst h
          exact .enterNo _ _ _ _ hstk htk (by omega)
      · cases h
    · cases h
  | fetch k =>
    simp only [step] at h
    split at h
    · rename_i t s rem done rest hstk
      split at h
      · rename_i tk htk
        split at h
        · rename_i i e hsh
          split at h
          · rename_i hie
            simp only [Option.some.injEq] at h; subst h
            exact .start _ _ _ _ _ _ _ _ _ hstk htk hsh hie
          · rename_i hie
            simp only [Option.some.injEq] at h; subst h
            exact .skip _ _ _ _ _ _ _ _ _ hstk htk hsh (by omega)
        · cases h
      · cases h
    · cases h
  | ret k =>
    simp only [step] at h
    split at h
    · rename_i hstk
      simp only [Option.some.injEq] at h; subst h
      exact .ret _ _ _ _ _ _ hstk
    · cases h
  | finish k =>
    simp only [step] at h
    split at h
    · rename_i t done c pc rest hstk
      split at h
      · rename_i tk htk
        by_cases hc : 0 < done ∧ (if 0 < done then tk.todo - done else tk.todo) = 0
        · have hc' : (decide (0 < done) && decide ((if 0 < done then tk.todo - (done : Int) else tk.todo) = 0)) = true := by
            simp only [Bool.and_eq_true, decide_eq_true_eq]; exact hc
          rw [hc'] at h
          simp only [if_true] at h
          split at h
          · simp only [Option.some.injEq] at h; subst h
            exact .finishDirect _ _ _ _ _ _ hstk htk hc
          · simp only [Option.some.injEq] at h; subst h
            exact .finishNotify _ _ _ _ _ _ hstk htk hc
          · cases h
        · have hc' : (decide (0 < done) && decide ((if 0 < done then tk.todo - (done : Int) else tk.todo) = 0)) = false := by
            rw [← Bool.not_eq_true]
            simp only [Bool.and_eq_true, decide_eq_true_eq]; exact hc
          rw [hc'] at h
          simp only [Bool.false_eq_true, if_false] at h
          split at h
          · simp only [Option.some.injEq] at h; subst h
            exact .finishSpin _ _ _ _ _ _ hstk htk hc
          · simp only [Option.some.injEq] at h; subst h
            exact .finishLock _ _ _ _ _ _ hstk htk hc
          · cases h
      · cases h
    · cases h
  | spinDone k =>
    simp only [step] at h
    split at h
    · rename_i t rest hstk
      split at h
      · rename_i tk htk
        split at h
        · rename_i hz
          simp only [Option.some.injEq] at h; subst h
          exact .spinDone _ _ _ _ hstk htk hz
        · cases h
      · cases h
    · cases h
  | spinEnd k =>
    simp only [step] at h
    split at h
    · rename_i t rest hstk
      simp only [Option.some.injEq] at h; subst h
      exact .spinEnd _ _ _ hstk
    · cases h
  | lock k =>
    simp only [step] at h
    split at h
    · cases h
    · rename_i hl
      have hl : p.locked = false := by simpa using hl
      split at h
      · rename_i hstk
        simp only [Option.some.injEq] at h; subst h
        exact .lock _ _ _ hl hstk
      · rename_i hstk
        simp only [Option.some.injEq] at h; subst h
        exact .lockNotify _ _ _ hl hstk
      · cases h
  | check k =>
    simp only [step] at h
    split at h
    · rename_i t rest hstk
      split at h
      · rename_i tk htk
        split at h
        · rename_i hz
          simp only [Option.some.injEq] at h; subst h
          exact .checkDone _ _ _ _ hstk htk hz
        · rename_i hz
          simp only [Option.some.injEq] at h; subst h
          exact .checkNot _ _ _ _ hstk htk hz
      · cases h
    · rename_i hstk
      split at h
      · rename_i hz
        simp only [Option.some.injEq] at h; subst h
        exact .semsDone _ _ _ hstk hz
      · rename_i hz
        simp only [Option.some.injEq] at h; subst h
        exact .semsNot _ _ _ hstk (by simpa using hz)
    · rename_i hstk
      split at h
      · rename_i hz
        simp only [Option.some.injEq] at h; subst h
        exact .stopDone _ _ hstk hz
      · rename_i hz
        simp only [Option.some.injEq] at h; subst h
        exact .stopNot _ _ hstk (by simpa using hz)
    · cases h
  | dequeue k =>
    simp only [step] at h
    split at h
    · rename_i c pos rest hstk
      split at h
      · rename_i hq
        simp only [Option.some.injEq] at h; subst h
        exact .deqNone _ _ _ _ hstk hq
      · rename_i t hq
        split at h
        · cases h
        · rename_i tk htk
          split at h
          · rename_i hz
            simp only [Option.some.injEq] at h; subst h
            exact .deqStarted _ _ _ _ _ _ hstk hq htk hz
          · split at h
            · rename_i hz
              simp only [Option.some.injEq] at h; subst h
              exact .deqOn _ _ _ _ _ _ hstk hq htk hz
            · split at h
              · rename_i hz
                simp only [Option.some.injEq] at h; subst h
                exact .deqFull _ _ _ _ _ _ hstk hq htk hz
              · rename_i hz
                simp only [Option.some.injEq] at h; subst h
                exact .deqWork _ _ _ _ _ _ hstk hq htk (by omega)
    · cases h
  | yield k =>
    simp only [step] at h
    split at h
    · rename_i hstk
      simp only [Option.some.injEq] at h; subst h
      exact .yield _ _ _ hstk
    · cases h
  | sleep k =>
    simp only [step] at h
    split at h
    · rename_i hstk
      simp only [Option.some.injEq] at h; subst h
      exact .sleep _ _ _ hstk
    · cases h
  | wake k =>
    simp only [step] at h
    split at h
    · rename_i hstk
      simp only [Option.some.injEq] at h; subst h
      exact .wake _ _ _ hstk
    · cases h

end Slinky.TP
