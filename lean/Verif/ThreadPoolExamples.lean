import Verif.ThreadPoolLive

/-!
# Thread pool: the serial path of `parallel_for`, concrete runs, and two ways to hang
-/

namespace Slinky.TP

/-- thread_pool.cc:5-23 `parallel_for`: the iterations that the caller runs itself, or the arguments of `enqueue`. -/
inductive ForPlan where
  | inline (iterations : List Nat)
  | pool (n : Nat) (maxWorkers : Int)
deriving DecidableEq, Repr

def parallelForPlan (n : Nat) (maxWorkers : Int) (threadCount : Nat) : ForPlan :=
  if n = 0 then .inline []
  else if n = 1 then .inline [0]
  else if maxWorkers = 1 ∨ threadCount = 0 then .inline (List.range n)
  else .pool n maxWorkers

/-- **C27.** If the caller runs the loop itself, it runs the iterations 0, ..., n - 1 once each, in order. Otherwise it enqueues all
`n` iterations, with `n` not zero. -/
theorem parallelForPlan_correct (n : Nat) (mw : Int) (tc : Nat) :
    parallelForPlan n mw tc = .inline (List.range n) ∨ (parallelForPlan n mw tc = .pool n mw ∧ 1 < n ∧ mw ≠ 1 ∧ 0 < tc) := by
  unfold parallelForPlan
  by_cases h0 : n = 0
  · subst h0; left; rfl
  · by_cases h1 : n = 1
    · subst h1; left; rfl
    · rw [if_neg h0, if_neg h1]
      by_cases h2 : mw = 1 ∨ tc = 0
      · rw [if_pos h2]; exact Or.inl rfl
      · rw [if_neg h2]
        push Not at h2
        exact Or.inr ⟨rfl, by omega, h2.1, by omega⟩

/-- With `max_workers = 1` the loop is always serial (`loop::serial`). -/
theorem parallelForPlan_serial (n tc : Nat) : parallelForPlan n 1 tc = .inline (List.range n) := by
  rcases parallelForPlan_correct n 1 tc with h | ⟨_, _, h, _⟩
  · exact h
  · exact absurd rfl h

/-- A run: thread 0 calls `parallel_for(3, ..., unlimited)`; thread 1 is a worker and steals; in iteration 0 thread 0 calls
`parallel_for(2, ...)` again, and helps. The run is nested, and both loops complete. -/
def forExample : List Act :=
  [.runWorker 1, .lock 1, .check 1, .dequeue 1, .sleep 1,
   .parallelFor 0 3 intMax 1 1, .enter 0, .lock 1, .check 1, .dequeue 1, .fetch 1, .fetch 0,
   .parallelFor 1 2 intMax 0 0, .enter 1, .fetch 1, .ret 0, .fetch 0, .ret 1,
   .fetch 0, .ret 0, .fetch 0, .fetch 0, .finish 0, .spinEnd 0, .lock 0, .check 0, .dequeue 0, .dequeue 0,
   .fetch 0, .fetch 1, .fetch 1, .finish 1, .ret 0, .fetch 0, .fetch 0, .finish 0, .lock 0, .check 0, .dequeue 0, .sleep 0,
   .spinDone 1, .ret 1, .fetch 1, .fetch 1, .fetch 1, .finish 1, .lock 1, .check 1, .dequeue 1, .sleep 1, .lock 0, .check 0]

example : ∀ a ∈ forExample, ForkJoin a := by
  simp only [forExample, List.mem_cons, forall_eq_or_imp, ForkJoin, intMax]
  simp

def final (n : Nat) (as : List Act) : Option (List (List Frame) × List Int × List (Nat × Nat)) :=
  (run (Pool.initial n fun _ => 0) as).map fun p => (p.threads, p.tasks.map (·.todo), p.returned)

example : (final 2 forExample).map (·.1) = some [[], [.wait .stop .asleep]] := by decide +kernel
example : (final 2 forExample).map (·.2) = some ([0, 0], [(0, 1), (1, 0), (0, 0), (1, 1), (0, 2)]) := by decide +kernel

/-- The step that returns from the outer loop, for `wait_returns_after_all_bodies`. -/
example : ((run (Pool.initial 2 fun _ => 0) (forExample.take 51)).map fun p => p.threads[0]?) = some (some [.wait (.task 0) .check]) := by
  decide +kernel

/-- A sleeping `parallel_for`, for `no_lost_wakeup`. -/
example : ((run (Pool.initial 2 fun _ => 0) (forExample.take 46)).map fun p => (p.threads[0]?, tot isLN p.threads)) =
    some (some [.wait (.task 0) .asleep], 1) := by
  decide +kernel

/-! ## `max_workers = 0` -/

theorem zero_workers_inv {p : Pool} (h : Reachable p) : ∀ (t : Nat) (tk : Task), p.tasks[t]? = some tk → tk.init = 0 → tk.todo = tk.n := by
  have : Inv p ∧ ∀ (t : Nat) (tk : Task), p.tasks[t]? = some tk → tk.init = 0 → tk.todo = tk.n := by
    obtain ⟨threads, sems, as, h⟩ := h
    have : ∀ (as : List Act) (p q : Pool), (Inv p ∧ ∀ (t : Nat) (tk : Task), p.tasks[t]? = some tk → tk.init = 0 → tk.todo = tk.n) → run p as = some q →
        (Inv q ∧ ∀ (t : Nat) (tk : Task), q.tasks[t]? = some tk → tk.init = 0 → tk.todo = tk.n) := by
      intro as
      induction as with
      | nil => intro p q hi h; simp [run] at h; subst h; exact hi
      | cons a as ih =>
        intro p q hi h
        rw [run] at h
        split at h
        · rename_i p' hp
          refine ih p' q ⟨inv_step hi.1 hp, ?_⟩ h
          intro t tk ht h0
          have nowork : ∀ {k : Nat} {t' : Nat} {tk' : Task} {rem : List Nat} {done : Nat} {r : Option Nat} {rest : List Frame}, p.threads[k]? = some (.work t' rem done r :: rest) →
              p.tasks[t']? = some tk' → tk'.init ≠ 0 := by
            intro k t' tk' rem done r rest h1 h2 h3
            have h4 := sum_le_tot (isWork t') h1
            have h5 := hi.1.wk t' tk' h2
            simp only [List.map_cons, List.sum_cons, isWork, if_true] at h4
            omega
          have setT : ∀ {t' : Nat} {tk' tk'' : Task}, p.tasks[t']? = some tk' → (p.tasks.set t' tk'')[t]? = some tk →
              (tk''.init = 0 → tk''.todo = tk''.n) → tk.todo = tk.n := by
            intro t' tk' tk'' h1 h2 h3
            rcases get_set h1 h2 with ⟨_, rfl⟩ | ⟨_, h2⟩
            · exact h3 h0
            · exact hi.2 t tk h2 h0
          have app : ∀ {n : Nat} {mw : Int}, (p.tasks ++ [mkTask n mw])[t]? = some tk → tk.todo = tk.n := by
            intro n mw h
            rcases get_append h with h | ⟨_, rfl⟩
            · exact hi.2 t tk h h0
            · rfl
          cases step_cases hp with
          | enqueue => exact app ht
          | parallelFor => exact app ht
          | enterOk k t' tk' rest h1 h2 => exact setT h2 ht (hi.2 t' tk' h2)
          | enterNo k t' tk' rest h1 h2 => exact setT h2 ht (hi.2 t' tk' h2)
          | start k t' s i e done rem tk' rest h1 h2 => exact setT h2 ht (hi.2 t' tk' h2)
          | skip k t' s i e done rem tk' rest h1 h2 => exact setT h2 ht (hi.2 t' tk' h2)
          | finishDirect k t' done c tk' rest h1 h2 => exact setT h2 ht (fun h3 => (nowork h1 h2 h3).elim)
          | finishSpin k t' done c tk' rest h1 h2 => exact setT h2 ht (fun h3 => (nowork h1 h2 h3).elim)
          | finishNotify k t' done c tk' rest h1 h2 => exact setT h2 ht (fun h3 => (nowork h1 h2 h3).elim)
          | finishLock k t' done c tk' rest h1 h2 => exact setT h2 ht (fun h3 => (nowork h1 h2 h3).elim)
          | deqFull k pos t' c tk' rest h1 h2 h3 => exact setT h3 ht (hi.2 t' tk' h3)
          | deqWork k pos t' c tk' rest h1 h2 h3 => exact setT h3 ht (hi.2 t' tk' h3)
          | _ => exact hi.2 t tk ht h0
        · cases h
    exact this as _ p ⟨inv_initial _ _, by simp [Pool.initial]⟩ h
  exact this.2

/-- **C29, counterexample.** A task with `max_workers = 0` never makes progress, and a `parallel_for` or `wait_for` on it never
returns, in any execution. -/
theorem max_workers_zero_hangs {p q : Pool} {a : Act} (hr : Reachable p) (h : step p a = some q) (k t n : Nat) (hn : 0 < n)
    (pc : WPC) (pre rest : List Frame) (hk : p.threads[k]? = some (pre ++ .wait (.task t) pc :: rest))
    (tk : Task) (ht : q.tasks[t]? = some tk) (hi : tk.init = (mkTask n 0).init) : q.threads[k]? ≠ some rest := by
  intro hq
  obtain ⟨tk', h1, h2⟩ := wait_task_done hr h k t pc pre rest hk hq
  rw [ht] at h1
  cases h1
  have h3 := zero_workers_inv (hr.step h) t tk ht (by rw [hi]; simp [mkTask])
  have h4 := ((inv_reachable (hr.step h)).shape t tk ht).1
  omega

example : ((run (Pool.initial 1 fun _ => 0) [.parallelFor 0 2 0 0 0, .enter 0]).map fun p => (p.threads, p.tasks.map (·.init))) =
    some ([[.wait (.task 0) .spin]], [0]) := by decide +kernel

/-! ## Two threads that wait for the same task -/

/-- Thread 0 enqueues a task with one iteration and waits for it; it runs the iteration. Meanwhile thread 1 waits for the same task
and goes to sleep. Thread 0 completes the task in `wait_for(task*)`, which does not notify. -/
def twoWaiters : List Act :=
  [.enqueue 0 1 1 0 0, .waitTask 0 0, .enter 0, .fetch 0, .waitTask 1 0, .enter 1, .spinEnd 1, .lock 1, .check 1, .dequeue 1,
   .dequeue 1, .sleep 1, .ret 0, .fetch 0, .finish 0]

/-- **C29, counterexample.** After this run the task is done, thread 0 has returned from `wait_for`, and thread 1 sleeps; no thread
can take a step except for a spurious wakeup. (thread_pool_impl.cc:241-256 does not notify `cv_helper_` when `work_on_task`
returns true.) -/
theorem two_waiters_lost_wakeup : ∃ p : Pool, run (Pool.initial 2 fun _ => 0) twoWaiters = some p ∧
    p.threads = [[], [.wait (.task 0) .asleep]] ∧ p.tasks.map (·.todo) = [0] ∧ Stuck p := by
  have h : (final 2 twoWaiters).map (fun x => (x.1, x.2.1)) = some ([[], [.wait (.task 0) .asleep]], [0]) := by decide +kernel
  unfold final at h
  cases hr : run (Pool.initial 2 fun _ => 0) twoWaiters with
  | none => rw [hr] at h; cases h
  | some p =>
    rw [hr] at h
    simp only [Option.map_some, Option.some.injEq, Prod.mk.injEq] at h
    refine ⟨p, rfl, h.1, h.2, ?_⟩
    have get : ∀ k : Nat, p.threads[k]? = if k = 0 then some [] else if k = 1 then some [.wait (.task 0) .asleep] else none := by
      intro k
      rw [h.1]
      match k with
      | 0 => rfl
      | 1 => rfl
      | k + 2 => simp
    intro a ha
    cases a with
    | enter k | fetch k | ret k | finish k | spinDone k | spinEnd k | lock k | check k | dequeue k | sleep k =>
      simp only [step, get]
      by_cases h0 : k = 0
      · simp [h0]
      · by_cases h1 : k = 1 <;> simp [h0, h1]
    | _ => simp [Act.internal] at ha

end Slinky.TP
