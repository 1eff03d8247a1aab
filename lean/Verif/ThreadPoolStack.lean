import Verif.SemaphoreProps

/-!
# The stacks of the threads of the pool

In every execution the frames of a thread alternate as the code does: `work` is called from a `wait_for`, a `wait_for` from a task
body or from outside. From this: `wait_for(task)` returns only when every iteration of the task has returned.
-/

namespace Slinky.TP

/-- A position in `wait_for` that is not in `work_on_task`. -/
def WPC.top : WPC → Prop
  | .direct => False
  | .working => False
  | _ => True

/-- The stacks that can occur (the newest frame first). -/
inductive Stk : List Frame → Prop where
  | nil : Stk []
  | wait (c : Cond) (pc : WPC) (rest : List Frame) : pc.top → userCode rest = true → Stk rest → Stk (.wait c pc :: rest)
  | direct (t : Nat) (rem : List Nat) (done : Nat) (run : Option Nat) (rest : List Frame) : Stk (.wait (.task t) .spin :: rest) →
      Stk (.work t rem done run :: .wait (.task t) .direct :: rest)
  | working (t : Nat) (rem : List Nat) (done : Nat) (run : Option Nat) (c : Cond) (rest : List Frame) : Stk (.wait c .lock :: rest) →
      Stk (.work t rem done run :: .wait c .working :: rest)

theorem Stk.pop {c pc rest} (h : Stk (.wait c pc :: rest)) : Stk rest ∧ userCode rest = true := by
  cases h with
  | wait _ _ _ _ hu hs => exact ⟨hs, hu⟩

theorem Stk.pc {c pc pc' rest} (h : Stk (.wait c pc :: rest)) (ht : pc'.top) : Stk (.wait c pc' :: rest) :=
  .wait _ _ _ ht h.pop.2 h.pop.1

theorem Stk.work {t rem done run rem' done' run' rest} (h : Stk (.work t rem done run :: rest)) : Stk (.work t rem' done' run' :: rest) := by
  cases h with
  | direct _ _ _ _ _ h => exact .direct _ _ _ _ _ h
  | working _ _ _ _ _ _ h => exact .working _ _ _ _ _ _ h

theorem Stk.work_below {t rem done run rest} (h : Stk (.work t rem done run :: rest)) :
    ∃ c pc rest', rest = .wait c pc :: rest' ∧ ((pc = .direct ∧ c = .task t) ∨ pc = .working) ∧ ∀ pc' : WPC, pc'.top → Stk (.wait c pc' :: rest') := by
  cases h with
  | direct _ _ _ _ _ h => exact ⟨_, _, _, rfl, Or.inl ⟨rfl, rfl⟩, fun _ h' => h.pc h'⟩
  | working _ _ _ _ _ _ h => exact ⟨_, _, _, rfl, Or.inr rfl, fun _ h' => h.pc h'⟩

/-- Waking frames does not change the shape. -/
theorem Stk.map {stk : List Frame} (h : Stk stk) {φ : Frame → Frame} (hφ : ∀ f, Woken f (φ f)) : Stk (stk.map φ) := by
  have hw : ∀ t rem done run, φ (.work t rem done run) = .work t rem done run := by
    intro t rem done run
    rcases hφ (.work t rem done run) with h | ⟨c, h, _⟩
    · exact h
    · cases h
  have hu : ∀ rest, userCode rest = true → userCode (rest.map φ) = true := by
    intro rest h
    cases rest with
    | nil => rfl
    | cons f rest =>
      cases f with
      | wait => simp [userCode] at h
      | work t rem done run =>
        rw [List.map_cons, hw]
        cases run with
        | none => simp [userCode] at h
        | some => rfl
  have hp : ∀ c pc, pc.top → ∃ pc' : WPC, pc'.top ∧ φ (.wait c pc) = .wait c pc' := by
    intro c pc hpc
    rcases hφ (.wait c pc) with h | ⟨c', h, h'⟩
    · exact ⟨pc, hpc, h⟩
    · cases h; exact ⟨.lock, trivial, h'⟩
  have hn : ∀ c pc, ¬ pc.top → φ (.wait c pc) = .wait c pc := by
    intro c pc hpc
    rcases hφ (.wait c pc) with h | ⟨c', h, h'⟩
    · exact h
    · cases h; exact absurd trivial hpc
  induction h with
  | nil => exact .nil
  | wait c pc rest h1 h2 h3 ih =>
    obtain ⟨pc', h4, h5⟩ := hp c pc h1
    rw [List.map_cons, h5]
    exact .wait _ _ _ h4 (hu _ h2) ih
  | direct t rem done run rest h ih =>
    rw [List.map_cons, List.map_cons, hw, hn _ _ (by simp [WPC.top])]
    obtain ⟨pc', h4, h5⟩ := hp (.task t) .spin trivial
    rw [List.map_cons, h5] at ih
    exact .direct _ _ _ _ _ (ih.pc trivial)
  | working t rem done run c rest h ih =>
    rw [List.map_cons, List.map_cons, hw, hn _ _ (by simp [WPC.top])]
    obtain ⟨pc', h4, h5⟩ := hp c .lock trivial
    rw [List.map_cons, h5] at ih
    exact .working _ _ _ _ _ _ (ih.pc trivial)

/-- A property of stacks for all threads. -/
def AllS (P : List Frame → Prop) (ths : List (List Frame)) : Prop := ∀ stk ∈ ths, P stk

theorem AllS.set {P : List Frame → Prop} {ths : List (List Frame)} (h : AllS P ths) {k : Nat} {stk : List Frame} (hs : P stk) : AllS P (ths.set k stk) := by
  intro s hsm
  rcases List.mem_or_eq_of_mem_set hsm with h1 | rfl
  · exact h s h1
  · exact hs

theorem AllS.get {P : List Frame → Prop} {ths : List (List Frame)} (h : AllS P ths) {k : Nat} {stk : List Frame} (hk : ths[k]? = some stk) : P stk :=
  h stk (List.mem_of_getElem? hk)

theorem AllS.map {P : List Frame → Prop} {ths : List (List Frame)} {φ : Frame → Frame} (h : AllS P ths) (hm : ∀ s, P s → P (s.map φ)) :
    AllS P (ths.map (List.map φ)) := by
  intro s hs
  obtain ⟨s', hs', rfl⟩ := List.mem_map.1 hs
  exact hm _ (h _ hs')

theorem AllS.notifyAll {P : List Frame → Prop} {p : Pool} (h : AllS P p.threads) (hm : ∀ s (φ : Frame → Frame), (∀ f, Woken f (φ f)) → P s → P (s.map φ)) :
    AllS P p.notifyAll.threads :=
  (h.map fun s hs => hm s _ woken_worker hs).map fun s hs => hm s _ woken_helper hs

/-- The stack of each thread after `enqueue`: waking twice. -/
theorem enqueue_stk2 (p : Pool) (n : Nat) (mw : Int) (wk hk k : Nat) : ∃ φ ψ : Frame → Frame, (∀ f, Woken f (φ f)) ∧ (∀ f, Woken f (ψ f)) ∧
    (p.enqueue n mw wk hk).threads[k]? = (p.threads[k]?).map fun s => (s.map φ).map ψ := by
  have w2 : ∀ (φ : Frame → Frame) (j : Nat) (ths : List (List Frame)), (wakeOne φ j ths)[k]? = (ths[k]?).map (List.map φ) ∨
      (wakeOne φ j ths)[k]? = (ths[k]?).map (List.map id) := by
    intro φ j ths
    unfold wakeOne
    by_cases hj : j = k
    · subst hj
      cases h : ths[j]? with
      | none => left; rw [List.set_eq_of_length_le (by simpa using h), h]; rfl
      | some stk => left; rw [get_set_eq h]; rfl
    · right; rw [get_set_ne (fun h => hj h.symm)]; simp
  have wid : ∀ f : Frame, Woken f (id f) := fun f => Or.inl rfl
  simp only [Pool.enqueue]
  split
  · rcases w2 Frame.wakeHelper hk (wakeOne Frame.wakeWorker wk p.threads) with h1 | h1 <;>
      rcases w2 Frame.wakeWorker wk p.threads with h2 | h2 <;> rw [h1, h2, Option.map_map]
    · exact ⟨_, _, woken_worker, woken_helper, rfl⟩
    · exact ⟨_, _, wid, woken_helper, rfl⟩
    · exact ⟨_, _, woken_worker, wid, rfl⟩
    · exact ⟨_, _, wid, wid, rfl⟩
  · refine ⟨_, _, woken_worker, woken_helper, ?_⟩
    simp only [wakeHelpers, wakeWorkers, List.getElem?_map, Option.map_map]
    rfl

theorem AllS.enqueue {P : List Frame → Prop} {p : Pool} (h : AllS P p.threads) (hm : ∀ s (φ : Frame → Frame), (∀ f, Woken f (φ f)) → P s → P (s.map φ))
    (n : Nat) (mw : Int) (wk hk : Nat) : AllS P (p.enqueue n mw wk hk).threads := by
  intro s hs
  obtain ⟨k, hk'⟩ := List.getElem?_of_mem hs
  obtain ⟨φ, ψ, h1, h2, h3⟩ := enqueue_stk2 p n mw wk hk k
  rw [hk'] at h3
  cases h4 : p.threads[k]? with
  | none => rw [h4] at h3; cases h3
  | some stk =>
    rw [h4] at h3
    simp only [Option.map_some, Option.some.injEq] at h3
    subst h3
    exact hm _ _ h2 (hm _ _ h1 (h.get h4))

theorem userCode_cases {stk : List Frame} (h : userCode stk = true) : stk = [] ∨ ∃ t rem done i rest, stk = .work t rem done (some i) :: rest := by
  cases stk with
  | nil => exact Or.inl rfl
  | cons f rest =>
    cases f with
    | wait => simp [userCode] at h
    | work t rem done run =>
      cases run with
      | none => simp [userCode] at h
      | some i => exact Or.inr ⟨_, _, _, _, _, rfl⟩

theorem stk_map (s : List Frame) (φ : Frame → Frame) (hφ : ∀ f, Woken f (φ f)) (h : Stk s) : Stk (s.map φ) := h.map hφ

theorem stk_step {p q : Pool} {a : Act} (hi : AllS Stk p.threads) (h : LStep p a q) : AllS Stk q.threads := by
  cases h with
  | enqueue => exact hi.enqueue stk_map _ _ _ _
  | parallelFor k n mw wk hk stk h0 h1 => exact (hi.enqueue stk_map _ _ _ _).set (.wait _ _ _ trivial h1 (hi.get h0))
  | waitTask k t stk h0 h1 => exact hi.set (.wait _ _ _ trivial h1 (hi.get h0))
  | semWait k l stk h0 h1 => exact hi.set (.wait _ _ _ trivial h1 (hi.get h0))
  | semSignal => exact hi.notifyAll stk_map
  | semInit => exact hi.notifyAll stk_map
  | setStop => exact hi.notifyAll stk_map
  | runWorker => exact hi.set (.wait _ _ _ trivial rfl .nil)
  | enterOk k t tk rest h0 => exact hi.set (.direct _ _ _ _ _ ((hi.get h0).pc trivial))
  | enterNo k t tk rest h0 => exact hi.set ((hi.get h0).pc trivial)
  | start k t s i e done rem tk rest h0 => exact hi.set (hi.get h0).work
  | skip k t s i e done rem tk rest h0 => exact hi.set (hi.get h0).work
  | ret k t i done rem rest h0 => exact hi.set (hi.get h0).work
  | finishDirect k t done c tk rest h0 =>
    obtain ⟨c', pc', rest', h1, h2, h3⟩ := (hi.get h0).work_below
    cases h1
    exact hi.set (h3 .lock trivial).pop.1
  | finishSpin k t done c tk rest h0 =>
    obtain ⟨c', pc', rest', h1, h2, h3⟩ := (hi.get h0).work_below
    cases h1
    exact hi.set (h3 _ trivial)
  | finishNotify k t done c tk rest h0 =>
    obtain ⟨c', pc', rest', h1, h2, h3⟩ := (hi.get h0).work_below
    cases h1
    exact hi.set (h3 _ trivial)
  | finishLock k t done c tk rest h0 =>
    obtain ⟨c', pc', rest', h1, h2, h3⟩ := (hi.get h0).work_below
    cases h1
    exact hi.set (h3 _ trivial)
  | lockNotify k c rest h0 h1 =>
    refine AllS.set (hi.map fun s hs => hs.map woken_helper) ?_
    have := (hi.get h1).map woken_helper
    rw [List.map_cons] at this
    have e : Frame.wakeHelper (.wait c .lockNotify) = .wait c .lockNotify := by cases c <;> rfl
    rw [e] at this
    exact this.pc trivial
  | deqStarted => exact hi
  | deqFull => exact hi
  | deqWork k pos t c tk rest h0 => exact hi.set (.working _ _ _ _ _ _ ((hi.get h0).pc trivial))
  | _ =>
    rename p.threads[(_ : Nat)]? = some _ => h0
    first
      | exact hi.set ((hi.get h0).pc trivial)
      | exact hi.set (hi.get h0).pop.1

theorem stk_reachable {p : Pool} (h : Reachable p) : AllS Stk p.threads := by
  refine reachable_induction (I := fun p => AllS Stk p.threads) ?_ ?_ h
  · intro threads sems s hs
    obtain rfl := List.eq_of_mem_replicate hs
    exact .nil
  · intro p q a hi h; exact stk_step hi h

theorem Reachable.step {p q : Pool} {a : Act} (h : Reachable p) (hs : TP.step p a = some q) : Reachable q := by
  obtain ⟨threads, sems, as, h⟩ := h
  refine ⟨threads, sems, as ++ [a], ?_⟩
  have : ∀ (as : List Act) (p0 : Pool), run p0 as = some p → run p0 (as ++ [a]) = some q := by
    intro as
    induction as with
    | nil => intro p0 h; simp [run] at h; subst h; simp [run, hs]
    | cons b as ih =>
      intro p0 h
      rw [run] at h
      rw [List.cons_append, run]
      split at h
      · rename_i p' hp
        exact ih _ h
      · cases h
  exact this as _ h

/-- A `wait_for(task)` returns only when the counter of the task is zero. -/
theorem wait_task_done {p q : Pool} {a : Act} (hr : Reachable p) (h : step p a = some q) (k t : Nat) (pc : WPC) (pre rest : List Frame)
    (hk : p.threads[k]? = some (pre ++ .wait (.task t) pc :: rest)) (hq : q.threads[k]? = some rest) :
    ∃ tk : Task, q.tasks[t]? = some tk ∧ tk.todo = 0 := by
  have enq : ∀ (n : Nat) (mw : Int) (wk hk' : Nat), ((p.enqueue n mw wk hk').threads[k]?) ≠ some rest := by
    intro n mw wk hk' e
    obtain ⟨φ, -, e2⟩ := enqueue_stk p n mw wk hk' k
    rw [e, hk] at e2
    simp only [Option.map_some, Option.some.injEq] at e2
    have := congrArg List.length e2
    simp at this; omega
  have map : ∀ (φ : Frame → Frame) (ψ : Frame → Frame), ((p.threads.map (List.map φ)).map (List.map ψ))[k]? ≠ some rest := by
    intro φ ψ e
    simp only [List.getElem?_map, hk, Option.map_some, Option.some.injEq] at e
    have := congrArg List.length e
    simp at this; omega
  have same : q.threads[k]? ≠ p.threads[k]? := by
    intro e
    rw [hk, hq] at e
    have := congrArg List.length (Option.some.inj e)
    simp at this; omega
  have pop1 : ∀ (f : Frame) (rest' : List Frame), pre ++ .wait (.task t) pc :: rest = f :: rest' → rest = rest' → f = .wait (.task t) pc := by
    intro f rest' e e'
    subst e'
    cases pre with
    | nil => simp at e; exact e.symm
    | cons g pre => 
      have := congrArg List.length e
      simp at this
      omega
  cases step_cases h with
  | enqueue => exact absurd hq (enq _ _ _ _)
  | parallelFor k' n mw wk hk' stk h0 =>
    exfalso
    by_cases e : k = k'
    · subst e
      obtain ⟨φ, -, e2⟩ := enqueue_stk p n mw wk hk' k
      rw [hk] at e2 h0
      simp only [Pool.setStk] at hq
      rw [get_set_eq e2] at hq
      cases h0
      have := congrArg List.length (Option.some.inj hq)
      simp at this; omega
    · simp only [Pool.setStk] at hq
      rw [get_set_ne e] at hq
      exact absurd hq (enq _ _ _ _)
  | semSignal => exact absurd hq (map _ _)
  | semInit => exact absurd hq (map _ _)
  | setStop => exact absurd hq (map _ _)
  | deqStarted => exact absurd rfl same
  | deqFull => exact absurd rfl same
  | lockNotify k' c rest' h0 h1 =>
    exfalso
    have h2 : (wakeHelpers p.threads)[k]? = some ((pre ++ Frame.wait (.task t) pc :: rest).map Frame.wakeHelper) := by
      simp [wakeHelpers, hk]
    by_cases e : k = k'
    · subst e
      simp only [Pool.setStk] at hq
      rw [get_set_eq h2] at hq
      rw [hk] at h1
      have h3 := congrArg List.length (Option.some.inj hq)
      have h4 := congrArg List.length (Option.some.inj h1)
      simp at h3 h4; omega
    · simp only [Pool.setStk] at hq
      rw [get_set_ne e, h2] at hq
      have h3 := congrArg List.length (Option.some.inj hq)
      simp at h3; omega
  | finishDirect k' t' done c tk rest' h0 h1 h2 =>
    have e : k = k' := by
      by_contra e
      exact same (get_set_ne e)
    subst e
    simp only [Pool.setStk] at hq
    rw [get_set_eq h0] at hq
    have hs := (stk_reachable hr).get h0
    obtain ⟨c', pc', rest'', h3, h4, -⟩ := hs.work_below
    cases h3
    simp only [reduceCtorEq, or_false, true_and] at h4
    subst h4
    cases hq
    rw [hk] at h0
    have h5 := Option.some.inj h0
    have h6 : pre = [.work t' [] done none] ∧ t = t' := by
      match pre, h5 with
      | [], h5 => simp at h5
      | [f], h5 => simp at h5; simp [h5.1, h5.2.1]
      | f :: g :: pre, h5 =>
        exfalso
        have := congrArg List.length h5
        simp at this; omega
    obtain ⟨-, rfl⟩ := h6
    exact ⟨_, get_set_eq h1, h2.2⟩
  | spinDone k' t' tk rest' h0 h1 h2 =>
    have e : k = k' := by
      by_contra e
      exact same (get_set_ne e)
    subst e
    simp only [Pool.setStk] at hq
    rw [get_set_eq h0] at hq
    rw [hk] at h0
    have := pop1 _ _ (Option.some.inj h0) (Option.some.inj hq).symm
    cases this
    exact ⟨tk, h1, h2⟩
  | checkDone k' t' tk rest' h0 h1 h2 =>
    have e : k = k' := by
      by_contra e
      exact same (get_set_ne e)
    subst e
    simp only [Pool.setStk] at hq
    rw [get_set_eq h0] at hq
    rw [hk] at h0
    have := pop1 _ _ (Option.some.inj h0) (Option.some.inj hq).symm
    cases this
    exact ⟨tk, h1, h2⟩
  | semsDone k' l rest' h0 h1 =>
    exfalso
    have e : k = k' := by
      by_contra e
      exact same (get_set_ne e)
    subst e
    simp only [Pool.setStk] at hq
    rw [get_set_eq h0] at hq
    rw [hk] at h0
    cases pop1 _ _ (Option.some.inj h0) (Option.some.inj hq).symm
  | stopDone k' rest' h0 h1 =>
    exfalso
    have e : k = k' := by
      by_contra e
      exact same (get_set_ne e)
    subst e
    simp only [Pool.setStk] at hq
    rw [get_set_eq h0] at hq
    rw [hk] at h0
    cases pop1 _ _ (Option.some.inj h0) (Option.some.inj hq).symm
  | finishSpin k' t' done c tk rest' h0 h1 h2 =>
    exfalso
    have e : k = k' := by
      by_contra e
      exact same (get_set_ne e)
    subst e
    simp only [Pool.setStk] at hq
    rw [get_set_eq h0] at hq
    rw [hk] at h0
    have h5 := Option.some.inj h0
    have h6 := Option.some.inj hq
    cases pre with
    | nil => simp at h5
    | cons f pre =>
      have h3 := congrArg List.length h5
      have h4 := congrArg List.length h6
      simp at h3 h4; omega
  | finishNotify k' t' done c tk rest' h0 h1 h2 =>
    exfalso
    have e : k = k' := by
      by_contra e
      exact same (get_set_ne e)
    subst e
    simp only [Pool.setStk] at hq
    rw [get_set_eq h0] at hq
    rw [hk] at h0
    have h5 := Option.some.inj h0
    have h6 := Option.some.inj hq
    cases pre with
    | nil => simp at h5
    | cons f pre =>
      have h3 := congrArg List.length h5
      have h4 := congrArg List.length h6
      simp at h3 h4; omega
  | finishLock k' t' done c tk rest' h0 h1 h2 =>
    exfalso
    have e : k = k' := by
      by_contra e
      exact same (get_set_ne e)
    subst e
    simp only [Pool.setStk] at hq
    rw [get_set_eq h0] at hq
    rw [hk] at h0
    have h5 := Option.some.inj h0
    have h6 := Option.some.inj hq
    cases pre with
    | nil => simp at h5
    | cons f pre =>
      have h3 := congrArg List.length h5
      have h4 := congrArg List.length h6
      simp at h3 h4; omega
  | _ =>
    rename p.threads[(_ : Nat)]? = some _ => h0
    exfalso
    simp only [Pool.setStk] at hq
    rw [List.getElem?_set] at hq
    split at hq
    · rename_i e
      subst e
      rw [hk] at h0
      split at hq
      · have h3 := congrArg List.length (Option.some.inj hq)
        have h4 := congrArg List.length (Option.some.inj h0)
        simp at h3 h4 <;> omega
      · cases hq
    · rw [hk] at hq
      have h3 := congrArg List.length (Option.some.inj hq)
      simp at h3; omega

/-- **C28.** When `wait_for(task)`, or the `parallel_for` that called it, returns, in any execution, every iteration of the task was
started exactly once and its body has returned. -/
theorem wait_returns_after_all_bodies {p q : Pool} {a : Act} (hr : Reachable p) (h : step p a = some q) (k t : Nat) (pc : WPC) (pre rest : List Frame)
    (hk : p.threads[k]? = some (pre ++ .wait (.task t) pc :: rest)) (hq : q.threads[k]? = some rest) :
    ∃ tk : Task, q.tasks[t]? = some tk ∧ ∀ i < tk.n, q.started.count (t, i) = 1 ∧ q.returned.count (t, i) = 1 := by
  obtain ⟨tk, h1, h2⟩ := wait_task_done hr h k t pc pre rest hk hq
  exact ⟨tk, h1, fun i hi => done_exactly_once (hr.step h) t tk h1 h2 i hi⟩

end Slinky.TP
