import Verif.ThreadPoolSteps

/-!
# C30: semaphores, and mutual exclusion
-/

namespace Slinky.TP

theorem sum_le_tot (g : Frame → Nat) {ths : List (List Frame)} {k : Nat} {stk : List Frame} (h : ths[k]? = some stk) :
    (stk.map g).sum ≤ tot g ths :=
  List.single_le_sum (by simp) _ (List.mem_map_of_mem (f := fun st => (st.map g).sum) (List.mem_of_getElem? h))

theorem tot_set_eq (g : Frame → Nat) {ths : List (List Frame)} {k : Nat} {stk stk' : List Frame} (h : ths[k]? = some stk) :
    tot g (ths.set k stk') = tot g ths + (stk'.map g).sum - (stk.map g).sum := by
  have := tot_set g ths k stk stk' h
  omega

/-- `g` does not distinguish a frame that was notified. -/
def WakeInv (g : Frame → Nat) : Prop := ∀ f, g f.wakeHelper = g f ∧ g f.wakeWorker = g f

theorem WakeInv.notifyAll {g} (h : WakeInv g) (p : Pool) : tot g p.notifyAll.threads = tot g p.threads := by
  show tot g (wakeHelpers (wakeWorkers p.threads)) = _
  rw [wakeHelpers, wakeWorkers, tot_map g _ (fun f => (h f).1), tot_map g _ (fun f => (h f).2)]

theorem WakeInv.enqueue {g} (h : WakeInv g) (p : Pool) (n : Nat) (mw : Int) (wk hk : Nat) : tot g (p.enqueue n mw wk hk).threads = tot g p.threads := by
  simp only [Pool.enqueue]
  split
  · rw [tot_wakeOne g _ (fun f => (h f).1), tot_wakeOne g _ (fun f => (h f).2)]
  · rw [wakeHelpers, wakeWorkers, tot_map g _ (fun f => (h f).1), tot_map g _ (fun f => (h f).2)]

/-- Waking keeps a frame, or turns `asleep` into `lock`. -/
def Woken (f f' : Frame) : Prop := f' = f ∨ ∃ c, f = .wait c .asleep ∧ f' = .wait c .lock

theorem woken_helper (f : Frame) : Woken f f.wakeHelper := by
  unfold Frame.wakeHelper
  split
  · exact Or.inr ⟨_, rfl, rfl⟩
  · exact Or.inr ⟨_, rfl, rfl⟩
  · exact Or.inl rfl

theorem woken_worker (f : Frame) : Woken f f.wakeWorker := by
  unfold Frame.wakeWorker
  split
  · exact Or.inr ⟨_, rfl, rfl⟩
  · exact Or.inl rfl

/-- The stack of each thread after `enqueue`. -/
theorem enqueue_stk (p : Pool) (n : Nat) (mw : Int) (wk hk k : Nat) : ∃ φ : Frame → Frame, (∀ f, ∃ m, Woken f m ∧ Woken m (φ f)) ∧
    (p.enqueue n mw wk hk).threads[k]? = (p.threads[k]?).map (List.map φ) := by
  have w2 : ∀ (φ : Frame → Frame) (j : Nat) (ths : List (List Frame)), (wakeOne φ j ths)[k]? = (ths[k]?).map (List.map φ) ∨
      (wakeOne φ j ths)[k]? = (ths[k]?).map (List.map id) := by
    intro φ j ths
    unfold wakeOne
    by_cases hj : j = k
    · subst hj
      cases h : ths[j]? with
      | none => left; rw [List.set_eq_of_length_le (by simpa using h), h]; rfl
      | some stk => left; rw [get_set_eq h]; rfl
    · right; rw [get_set_ne (fun h => hj h.symm)]; simp
  simp only [Pool.enqueue]
  split
  · rcases w2 Frame.wakeHelper hk (wakeOne Frame.wakeWorker wk p.threads) with h1 | h1 <;>
      rcases w2 Frame.wakeWorker wk p.threads with h2 | h2 <;> rw [h1, h2, Option.map_map]
    · exact ⟨fun f => f.wakeWorker.wakeHelper, fun f => ⟨_, woken_worker f, woken_helper _⟩, by simp [Function.comp_def]⟩
    · exact ⟨fun f => f.wakeHelper, fun f => ⟨f, Or.inl rfl, woken_helper _⟩, by simp [Function.comp_def]⟩
    · exact ⟨fun f => f.wakeWorker, fun f => ⟨f, Or.inl rfl, woken_worker _⟩, by simp [Function.comp_def]⟩
    · exact ⟨fun f => f, fun f => ⟨f, Or.inl rfl, Or.inl rfl⟩, by simp [Function.comp_def]⟩
  · refine ⟨fun f => f.wakeWorker.wakeHelper, fun f => ⟨_, woken_worker f, woken_helper _⟩, ?_⟩
    simp [wakeHelpers, wakeWorkers, Function.comp_def]

theorem enqueue_stk_sum {g} (hg : WakeInv g) (hw : ∀ f f', Woken f f' → g f' = g f) (p : Pool) (n : Nat) (mw : Int) (wk hk k : Nat) (stk : List Frame) (h : p.threads[k]? = some stk) :
    ∃ stk', (p.enqueue n mw wk hk).threads[k]? = some stk' ∧ (stk'.map g).sum = (stk.map g).sum := by
  obtain ⟨φ, h1, h2⟩ := enqueue_stk p n mw wk hk k
  rw [h] at h2
  refine ⟨stk.map φ, h2, ?_⟩
  have : ∀ f, g (φ f) = g f := by
    intro f
    obtain ⟨m, a, b⟩ := h1 f
    rw [hw _ _ b, hw _ _ a]
  simp [Function.comp_def, this]

/-- The effect of `parallel_for` on a sum. -/
theorem tot_parallelFor {g} (hg : WakeInv g) (hw : ∀ f f', Woken f f' → g f' = g f) (p : Pool) (n : Nat) (mw : Int) (wk hk k : Nat) (stk : List Frame) (t : Nat)
    (h : p.threads[k]? = some stk) :
    tot g ((p.enqueue n mw wk hk).setStk k (.wait (.task t) .entry :: stk)).threads = tot g p.threads + g (.wait (.task t) .entry) := by
  obtain ⟨stk', h1, h2⟩ := enqueue_stk_sum hg hw p n mw wk hk k stk h
  have := tot_set g _ k _ (.wait (.task t) .entry :: stk) h1
  rw [hg.enqueue] at this
  simp only [List.map_cons, List.sum_cons] at this
  show tot g ((p.enqueue n mw wk hk).threads.set k (.wait (.task t) .entry :: stk)) = _
  omega

/-! ## Mutual exclusion -/

/-- Does the frame hold the mutex? -/
def inCS : Frame → Nat
  | .wait _ .check => 1
  | .wait _ (.deq _) => 1
  | .wait _ .nap => 1
  | _ => 0

theorem inCS_woken (f f' : Frame) (h : Woken f f') : inCS f' = inCS f := by
  rcases h with rfl | ⟨c, rfl, rfl⟩ <;> rfl

theorem inCS_wake : WakeInv inCS := fun f => ⟨inCS_woken _ _ (woken_helper f), inCS_woken _ _ (woken_worker f)⟩

/-- The mutex is locked exactly when one frame holds it. -/
def MutexInv (p : Pool) : Prop := tot inCS p.threads = p.locked.toNat

set_option linter.unreachableTactic false in
set_option linter.unusedTactic false in
theorem mutex_step {p q : Pool} {a : Act} (hi : MutexInv p) (h : LStep p a q) : MutexInv q := by
  unfold MutexInv at *
  cases h with
  | enqueue => rw [inCS_wake.enqueue]; exact hi
  | parallelFor k n mw wk hk stk h0 =>
    rw [tot_parallelFor inCS_wake inCS_woken _ _ _ _ _ _ _ _ h0]
    show _ = p.locked.toNat
    simpa [inCS] using hi
  | semSignal => rw [inCS_wake.notifyAll]; exact hi
  | semInit => rw [inCS_wake.notifyAll]; exact hi
  | setStop => rw [inCS_wake.notifyAll]; exact hi
  | lockNotify k c rest h0 h1 =>
    have e : (wakeHelpers p.threads)[k]? = some ((.wait c .lockNotify :: rest).map Frame.wakeHelper) := by
      simp [wakeHelpers, h1]
    have h2 : tot inCS (wakeHelpers p.threads) = tot inCS p.threads := tot_map _ _ (fun f => (inCS_wake f).1) _
    have h3 := sum_le_tot inCS e
    simp only [Pool.setStk]
    rw [tot_set_eq inCS e]
    have h4 : inCS (Frame.wakeHelper (.wait c .lockNotify)) = 0 := by cases c <;> rfl
    simp only [List.map_cons, List.sum_cons, h4] at h3 ⊢
    simp only [inCS, h0, Bool.toNat_true, Bool.toNat_false] at *
    omega
  | lock k c rest h0 h1 =>
    have h3 := sum_le_tot inCS h1
    simp only [Pool.setStk]
    rw [tot_set_eq inCS h1]
    simp only [List.map_cons, List.sum_cons, inCS, h0, Bool.toNat_true, Bool.toNat_false] at *
    omega
  | deqStarted => exact hi
  | deqFull => exact hi
  | _ =>
    rename p.threads[(_ : Nat)]? = some _ => h0
    have h3 := sum_le_tot inCS h0
    simp only [Pool.setStk]
    rw [tot_set_eq inCS h0]
    simp only [List.map_cons, List.map_nil, List.sum_cons, List.sum_nil, inCS] at *
    cases hl : p.locked <;> simp only [hl, Bool.toNat_true, Bool.toNat_false] at * <;> omega

theorem reachable_induction {I : Pool → Prop} (h0 : ∀ threads sems, I (Pool.initial threads sems))
    (hs : ∀ p q a, I p → LStep p a q → I q) {p : Pool} (h : Reachable p) : I p := by
  obtain ⟨threads, sems, as, h⟩ := h
  have : ∀ (as : List Act) (p q : Pool), I p → run p as = some q → I q := by
    intro as
    induction as with
    | nil => intro p q hi h; simp [run] at h; subst h; exact hi
    | cons a as ih =>
      intro p q hi h
      rw [run] at h
      split at h
      · rename_i p' hp
        exact ih p' q (hs _ _ _ hi (step_cases hp)) h
      · cases h
  exact this as _ p (h0 _ _) h

theorem mutex_reachable {p : Pool} (h : Reachable p) : MutexInv p :=
  reachable_induction (fun _ _ => by simp [MutexInv, Pool.initial, tot]) (fun _ _ _ => mutex_step) h

/-- At most one thread is in a section of `wait_for` that holds the mutex. -/
theorem mutual_exclusion {p : Pool} (h : Reachable p) : tot inCS p.threads ≤ 1 := by
  rw [mutex_reachable h]; exact Bool.toNat_le _

/-! ## Conservation -/

/-- The sum of the counts of semaphore `s` in a list. -/
def countOf (l : List (Nat × Int)) (s : Nat) : Int := ((l.filter fun x => x.1 = s).map (·.2)).sum

theorem semsAdd_eq (sign : Int) : ∀ (l : List (Nat × Int)) (f : Nat → Int) (s : Nat), semsAdd sign l f s = f s + sign * countOf l s
  | [], f, s => by simp [semsAdd, countOf]
  | (a, c) :: l, f, s => by
    rw [semsAdd, semsAdd_eq sign l]
    unfold countOf
    by_cases h : a = s
    · subst h; simp; ring
    · have : ¬ s = a := fun e => h e.symm
      simp [h, this]

/-- **C30.** At all times, in every execution, the value of a semaphore is the value it was initialized with, plus the signals,
minus the counts of the waits that succeeded. No signal is lost, no acquisition happens twice. -/
theorem semaphore_conservation {p : Pool} (h : Reachable p) (s : Nat) : p.sems s = p.semInit s + p.semSig s - p.semAcq s := by
  revert s
  refine reachable_induction (I := fun p => ∀ s, p.sems s = p.semInit s + p.semSig s - p.semAcq s) ?_ ?_ h
  · intro threads sems s; simp [Pool.initial]
  · intro p q a hi h s
    have := hi s
    cases h with
    | semSignal k l =>
      show semsAdd 1 l p.sems s = p.semInit s + semsAdd 1 l p.semSig s - p.semAcq s
      rw [semsAdd_eq, semsAdd_eq]; omega
    | semInit k s' v =>
      show (if s = s' then v else p.sems s) = (if s = s' then v else p.semInit s) + (if s = s' then 0 else p.semSig s) - (if s = s' then 0 else p.semAcq s)
      split <;> omega
    | semsDone k l rest =>
      show semsAdd (-1) l p.sems s = p.semInit s + p.semSig s - semsAdd 1 l p.semAcq s
      rw [semsAdd_eq, semsAdd_eq]; omega
    | _ => exact this

/-! ## Acquisition is atomic -/

/-- **C30.** A step changes the semaphores only by a signal, an initialization, or the return of a wait for a list of
semaphores. In the last case every semaphore has the count that was asked for, and all counts are subtracted in that one step. -/
theorem semaphore_changes {p q : Pool} {a : Act} (h : step p a = some q) :
    q.sems = p.sems ∨ (∃ k l, a = .semSignal k l ∧ ∀ s, q.sems s = p.sems s + countOf l s) ∨
    (∃ k s v, a = .semInit k s v ∧ q.sems s = v ∧ ∀ s', s' ≠ s → q.sems s' = p.sems s') ∨
    (∃ (k : Nat) (l : List (Nat × Int)) (rest : List Frame), a = .check k ∧ p.threads[k]? = some (.wait (.sems l) .check :: rest) ∧
      q.threads[k]? = some rest ∧ (∀ x ∈ l, x.2 ≤ p.sems x.1) ∧ ∀ s, q.sems s = p.sems s - countOf l s) := by
  cases step_cases h with
  | semSignal k l =>
    right; left
    exact ⟨k, l, rfl, fun s => by show semsAdd 1 l p.sems s = _; rw [semsAdd_eq]; ring⟩
  | semInit k s v =>
    right; right; left
    refine ⟨k, s, v, rfl, ?_, ?_⟩
    · show (if s = s then v else _) = v; simp
    · intro s' h; show (if s' = s then v else _) = _; rw [if_neg h]
  | semsDone k l rest h0 h1 =>
    right; right; right
    refine ⟨k, l, rest, rfl, h0, get_set_eq h0, ?_, ?_⟩
    · intro x hx
      simp only [semsOk, List.all_eq_true] at h1
      have := h1 x hx
      simp at this; exact this
    · intro s; show semsAdd (-1) l p.sems s = _; rw [semsAdd_eq]; ring
  | _ => exact Or.inl rfl

theorem cons_ne_self {α} (x : α) (l : List α) : l ≠ x :: l := fun e => by simpa using congrArg List.length e
theorem cons_ne_self2 {α} (x y : α) (l : List α) : l ≠ x :: y :: l := fun e => by
  have := congrArg List.length e
  simp at this; omega

/-- **C30.** A wait for semaphores returns only in a step that finds all the counts and subtracts them. -/
theorem semaphore_wait_returns {p q : Pool} {a : Act} (h : step p a = some q) (k : Nat) (l : List (Nat × Int)) (pc : WPC) (rest : List Frame)
    (hk : p.threads[k]? = some (.wait (.sems l) pc :: rest)) (hq : q.threads[k]? = some rest) :
    (∀ x ∈ l, x.2 ≤ p.sems x.1) ∧ ∀ s, q.sems s = p.sems s - countOf l s := by
  have enq : ∀ (n : Nat) (mw : Int) (wk hk' : Nat), ((p.enqueue n mw wk hk').threads[k]?) ≠ some rest := by
    intro n mw wk hk' e
    obtain ⟨φ, -, e2⟩ := enqueue_stk p n mw wk hk' k
    rw [e, hk] at e2
    simp only [Option.map_some, Option.some.injEq] at e2
    simpa using congrArg List.length e2
  have map : ∀ (φ : Frame → Frame) (ψ : Frame → Frame), ((p.threads.map (List.map φ)).map (List.map ψ))[k]? ≠ some rest := by
    intro φ ψ e
    simp only [List.getElem?_map, hk, Option.map_some, Option.some.injEq] at e
    simpa using congrArg List.length e
  cases step_cases h with
  | semsDone k' l' rest' h0 h1 =>
    by_cases e : k = k'
    · subst e
      rw [hk] at h0
      simp only [Option.some.injEq, List.cons.injEq, Frame.wait.injEq, Cond.sems.injEq] at h0
      obtain ⟨⟨rfl, rfl⟩, rfl⟩ := h0
      refine ⟨?_, ?_⟩
      · intro x hx
        simp only [semsOk, List.all_eq_true] at h1
        have := h1 x hx
        simp at this; exact this
      · intro s; show semsAdd (-1) l p.sems s = _; rw [semsAdd_eq]; ring
    · simp only [Pool.setStk] at hq
      rw [get_set_ne e, hk] at hq
      exact absurd (Option.some.inj hq).symm (cons_ne_self _ _)
  | enqueue => exact absurd hq (enq _ _ _ _)
  | parallelFor k' n mw wk hk' stk h0 =>
    by_cases e : k = k'
    · subst e
      obtain ⟨φ, -, e2⟩ := enqueue_stk p n mw wk hk' k
      rw [hk] at e2 h0
      simp only [Pool.setStk] at hq
      rw [get_set_eq e2] at hq
      cases h0
      exact absurd (Option.some.inj hq).symm (cons_ne_self2 _ _ _)
    · simp only [Pool.setStk] at hq
      rw [get_set_ne e] at hq
      exact absurd hq (enq _ _ _ _)
  | semSignal => exact absurd hq (map _ _)
  | semInit => exact absurd hq (map _ _)
  | setStop => exact absurd hq (map _ _)
  | lockNotify k' c rest' h0 h1 =>
    have h2 : (wakeHelpers p.threads)[k]? = some ((Frame.wait (.sems l) pc :: rest).map Frame.wakeHelper) := by
      simp [wakeHelpers, hk]
    by_cases e : k = k'
    · subst e
      simp only [Pool.setStk] at hq
      rw [get_set_eq h2] at hq
      rw [hk] at h1
      cases h1
      exact absurd (congrArg List.length (Option.some.inj hq)) (by simp)
    · simp only [Pool.setStk] at hq
      rw [get_set_ne e, h2] at hq
      exact absurd (congrArg List.length (Option.some.inj hq)) (by simp)
  | deqStarted =>
    exact absurd (Option.some.inj (hq.symm.trans hk)) (cons_ne_self _ _)
  | deqFull =>
    exact absurd (Option.some.inj (hq.symm.trans hk)) (cons_ne_self _ _)
  | _ =>
    rename p.threads[(_ : Nat)]? = some _ => h0
    rename Nat => k'
    simp only [Pool.setStk] at hq
    rw [List.getElem?_set] at hq
    split at hq
    · rename_i e
      subst e
      rw [hk] at h0
      simp only [Option.some.injEq, List.cons.injEq, Frame.wait.injEq, reduceCtorEq, false_and] at h0
      all_goals try (obtain ⟨_, rfl⟩ := h0)
      all_goals split at hq
      all_goals first
        | cases hq; done
        | (have e := congrArg List.length (Option.some.inj hq)
           simp only [List.length_cons] at e
           omega)
    · rw [hk] at hq
      exact absurd (Option.some.inj hq).symm (cons_ne_self _ _)

/-! ## Semaphores are not negative, and no wakeup is lost -/

/-- The uses of semaphores that make sense: a wait names each semaphore once, and no count is negative. -/
def SemUse : Act → Prop
  | .semWait _ l => (l.map (·.1)).Nodup ∧ ∀ x ∈ l, 0 ≤ x.2
  | .semSignal _ l => ∀ x ∈ l, 0 ≤ x.2
  | .semInit _ _ v => 0 ≤ v
  | _ => True

/-- The states that runs with such uses reach. -/
def SemReachable (p : Pool) : Prop :=
  ∃ threads sems as, (∀ s, 0 ≤ sems s) ∧ (∀ a ∈ as, SemUse a) ∧ run (Pool.initial threads sems) as = some p

theorem SemReachable.reachable {p : Pool} (h : SemReachable p) : Reachable p := by
  obtain ⟨a, b, c, _, _, h⟩ := h
  exact ⟨a, b, c, h⟩

theorem countOf_nonneg {l : List (Nat × Int)} (h : ∀ x ∈ l, 0 ≤ x.2) (s : Nat) : 0 ≤ countOf l s := by
  unfold countOf
  apply List.sum_nonneg
  intro y hy
  simp only [List.mem_map, List.mem_filter] at hy
  obtain ⟨x, ⟨hx, _⟩, rfl⟩ := hy
  exact h x hx

theorem countOf_le {f : Nat → Int} : ∀ {l : List (Nat × Int)}, (l.map (·.1)).Nodup → (∀ x ∈ l, x.2 ≤ f x.1) → ∀ s, 0 ≤ f s → countOf l s ≤ f s
  | [], _, _, s, h => by simpa [countOf] using h
  | (a, c) :: l, hn, hl, s, h => by
    simp only [List.map_cons, List.nodup_cons] at hn
    by_cases e : a = s
    · subst e
      have : l.filter (fun x => decide (x.1 = a)) = [] := by
        rw [List.filter_eq_nil_iff]
        intro x hx
        simp only [decide_eq_true_eq]
        intro e
        exact hn.1 (List.mem_map.2 ⟨x, hx, e⟩)
      have h1 := hl (a, c) (by simp)
      unfold countOf
      simp [this]
      exact h1
    · have := countOf_le hn.2 (fun x hx => hl x (by simp [hx])) s h
      unfold countOf at *
      simpa [e] using this

/-- All frames have a property. -/
def AllF (P : Frame → Prop) (ths : List (List Frame)) : Prop := ∀ stk ∈ ths, ∀ f ∈ stk, P f

theorem AllF.set {P : Frame → Prop} {ths : List (List Frame)} (h : AllF P ths) {k : Nat} {stk : List Frame} (hs : ∀ f ∈ stk, P f) : AllF P (ths.set k stk) := by
  intro s hsm
  rcases List.mem_or_eq_of_mem_set hsm with h1 | rfl
  · exact h s h1
  · exact hs

theorem AllF.get {P : Frame → Prop} {ths : List (List Frame)} (h : AllF P ths) {k : Nat} {stk : List Frame} (hk : ths[k]? = some stk) : ∀ f ∈ stk, P f :=
  h stk (List.mem_of_getElem? hk)

theorem AllF.map {P Q : Frame → Prop} {ths : List (List Frame)} {φ : Frame → Frame} (h : AllF P ths) (hm : ∀ f, P f → Q (φ f)) :
    AllF Q (ths.map (List.map φ)) := by
  intro s hs
  obtain ⟨s', hs', rfl⟩ := List.mem_map.1 hs
  intro f hf
  obtain ⟨f', hf', rfl⟩ := List.mem_map.1 hf
  exact hm _ (h _ hs' _ hf')

theorem AllF.mono {P Q : Frame → Prop} {ths : List (List Frame)} (h : AllF P ths) (hm : ∀ f, P f → Q f) : AllF Q ths :=
  fun s hs f hf => hm f (h s hs f hf)

theorem AllF.enqueue {P : Frame → Prop} {p : Pool} (h : AllF P p.threads) (hw : ∀ f f', Woken f f' → P f → P f') (n : Nat) (mw : Int) (wk hk : Nat) :
    AllF P (p.enqueue n mw wk hk).threads := by
  intro s hs f hf
  obtain ⟨k, hk'⟩ := List.getElem?_of_mem hs
  obtain ⟨φ, h1, h2⟩ := enqueue_stk p n mw wk hk k
  rw [hk'] at h2
  cases h3 : p.threads[k]? with
  | none => rw [h3] at h2; cases h2
  | some stk =>
    rw [h3] at h2
    simp only [Option.map_some, Option.some.injEq] at h2
    subst h2
    obtain ⟨f', hf', rfl⟩ := List.mem_map.1 hf
    obtain ⟨m, a, b⟩ := h1 f'
    exact hw _ _ b (hw _ _ a (h.get h3 f' hf'))

theorem AllF.notifyAll {P Q : Frame → Prop} {p : Pool} (h : AllF P p.threads) (hw : ∀ f, P f → Q f.wakeWorker.wakeHelper) : AllF Q p.notifyAll.threads := by
  show AllF Q (wakeHelpers (wakeWorkers p.threads))
  unfold wakeHelpers wakeWorkers
  exact (h.map (Q := fun f => Q f.wakeHelper) hw).map (fun f h => h)

theorem tot_zero_iff (g : Frame → Nat) (ths : List (List Frame)) : tot g ths = 0 ↔ AllF (fun f => g f = 0) ths := by
  have := tot_pos_iff g ths
  constructor
  · intro h stk hs f hf
    by_contra hc
    have := this.2 ⟨stk, hs, f, hf, by omega⟩
    omega
  · intro h
    by_contra hc
    obtain ⟨stk, hs, f, hf, h1⟩ := this.1 (by omega)
    have := h stk hs f hf
    simp at this
    omega

/-- The wait of the frame is sensible. -/
def GoodSems : Frame → Prop
  | .wait (.sems l) _ => (l.map (·.1)).Nodup ∧ ∀ x ∈ l, 0 ≤ x.2
  | _ => True

theorem goodSems_pc {c : Cond} {pc pc' : WPC} (h : GoodSems (.wait c pc)) : GoodSems (.wait c pc') := by
  cases c <;> exact h

theorem goodSems_woken (f f' : Frame) (h : Woken f f') (hf : GoodSems f) : GoodSems f' := by
  rcases h with rfl | ⟨c, rfl, rfl⟩
  · exact hf
  · cases c <;> exact hf

/-- The frame is not about to sleep or asleep while the semaphores are there. -/
def NotLate (sems : Nat → Int) : Frame → Prop
  | .wait (.sems l) (.deq _) => semsOk sems l = false
  | .wait (.sems l) .nap => semsOk sems l = false
  | .wait (.sems l) .asleep => semsOk sems l = false
  | _ => True

theorem notLate_woken (sems) (f f' : Frame) (h : Woken f f') (hf : NotLate sems f) : NotLate sems f' := by
  rcases h with rfl | ⟨c, rfl, rfl⟩
  · exact hf
  · cases c <;> trivial

/-- After a notification, with no thread that holds the mutex, nobody is late. -/
theorem notLate_notify (sems) (f : Frame) (h : inCS f = 0) : NotLate sems f.wakeWorker.wakeHelper := by
  cases f with
  | work => trivial
  | wait c pc => cases c <;> cases pc <;> first | trivial | (simp [inCS] at h)

theorem semsOk_mono {f g : Nat → Int} (h : ∀ s, g s ≤ f s) (l) (hf : semsOk f l = false) : semsOk g l = false := by
  rw [← Bool.not_eq_true] at *
  intro hg
  apply hf
  simp only [semsOk, List.all_eq_true, Bool.not_eq_true', decide_eq_false_iff_not, not_lt] at *
  intro x hx
  exact le_trans (hg x hx) (h _)

theorem notLate_mono {sems sems' : Nat → Int} (h : ∀ s, sems' s ≤ sems s) (f : Frame) (hf : NotLate sems f) : NotLate sems' f := by
  cases f with
  | work => trivial
  | wait c pc => cases c <;> cases pc <;> first | trivial | exact semsOk_mono h _ hf

/-- The invariant. -/
structure SemInv (p : Pool) : Prop where
  mx : MutexInv p
  nn : ∀ s, 0 ≤ p.sems s
  gd : AllF GoodSems p.threads
  nl : AllF (NotLate p.sems) p.threads

theorem semInv_step {p q : Pool} {a : Act} (hi : SemInv p) (hu : SemUse a) (h : LStep p a q) : SemInv q := by
  have hm := mutex_step hi.mx h
  have free : p.locked = false → AllF (fun f => inCS f = 0) p.threads := by
    intro h
    have := hi.mx
    unfold MutexInv at this
    rw [h] at this
    exact (tot_zero_iff _ _).1 this
  have notify : AllF GoodSems p.notifyAll.threads :=
    hi.gd.notifyAll fun f hf => goodSems_woken _ _ (woken_helper _) (goodSems_woken _ _ (woken_worker _) hf)
  cases h with
  | enqueue => exact ⟨hm, hi.nn, hi.gd.enqueue goodSems_woken _ _ _ _, hi.nl.enqueue (notLate_woken _) _ _ _ _⟩
  | parallelFor k n mw wk hk stk h0 =>
    refine ⟨hm, hi.nn, (hi.gd.enqueue goodSems_woken _ _ _ _).set ?_, (hi.nl.enqueue (notLate_woken _) _ _ _ _).set ?_⟩
    · simp only [List.mem_cons, forall_eq_or_imp]; exact ⟨trivial, hi.gd.get h0⟩
    · simp only [List.mem_cons, forall_eq_or_imp]; exact ⟨trivial, hi.nl.get h0⟩
  | semSignal k l h0 =>
    refine ⟨hm, ?_, notify, (free h0).notifyAll (p := p) (notLate_notify _)⟩
    intro s
    show 0 ≤ semsAdd 1 l p.sems s
    rw [semsAdd_eq]
    have := hi.nn s
    have := countOf_nonneg hu s
    omega
  | semInit k s v h0 =>
    refine ⟨hm, ?_, notify, (free h0).notifyAll (p := p) (notLate_notify _)⟩
    intro s'
    show 0 ≤ if s' = s then v else p.sems s'
    split
    · exact hu
    · exact hi.nn _
  | setStop k h0 => exact ⟨hm, hi.nn, notify, (free h0).notifyAll (p := p) (notLate_notify _)⟩
  | lockNotify k c rest h0 h1 =>
    refine ⟨hm, hi.nn, ?_, ?_⟩
    · refine AllF.set (hi.gd.map fun f hf => goodSems_woken _ _ (woken_helper _) hf) ?_
      have := hi.gd.get h1
      simp only [List.mem_cons, forall_eq_or_imp, List.mem_map, forall_exists_index, and_imp, forall_apply_eq_imp_iff₂] at this ⊢
      exact ⟨goodSems_pc this.1, fun f hf => goodSems_woken _ _ (woken_helper _) (this.2 f hf)⟩
    · refine AllF.set (hi.nl.map fun f hf => notLate_woken _ _ _ (woken_helper _) hf) ?_
      have := hi.nl.get h1
      simp only [List.mem_cons, forall_eq_or_imp, List.mem_map, forall_exists_index, and_imp, forall_apply_eq_imp_iff₂] at this ⊢
      exact ⟨by cases c <;> trivial, fun f hf => notLate_woken _ _ _ (woken_helper _) (this.2 f hf)⟩
  | deqStarted => exact ⟨hm, hi.nn, hi.gd, hi.nl⟩
  | deqFull => exact ⟨hm, hi.nn, hi.gd, hi.nl⟩
  | semsDone k l rest h0 h1 =>
    have g := hi.gd.get h0
    simp only [List.mem_cons, forall_eq_or_imp] at g
    have ok : ∀ x ∈ l, x.2 ≤ p.sems x.1 := by
      intro x hx
      simp only [semsOk, List.all_eq_true] at h1
      have := h1 x hx
      simp at this; exact this
    have le : ∀ s, semsAdd (-1) l p.sems s ≤ p.sems s := by
      intro s; rw [semsAdd_eq]; have := countOf_nonneg g.1.2 s; omega
    refine ⟨hm, ?_, hi.gd.set g.2, ?_⟩
    · intro s
      show 0 ≤ semsAdd (-1) l p.sems s
      rw [semsAdd_eq]
      have := countOf_le g.1.1 ok s (hi.nn s)
      omega
    · refine AllF.set (hi.nl.mono (notLate_mono le)) ?_
      intro f hf
      exact notLate_mono le f (hi.nl.get h0 f (by simp [hf]))
  | semWait k l stk h0 h1 =>
    refine ⟨hm, hi.nn, hi.gd.set ?_, hi.nl.set ?_⟩
    · simp only [List.mem_cons, forall_eq_or_imp]; exact ⟨hu, hi.gd.get h0⟩
    · simp only [List.mem_cons, forall_eq_or_imp]; exact ⟨trivial, hi.nl.get h0⟩
  | semsNot k l rest h0 h1 =>
    have g := hi.gd.get h0
    have nl := hi.nl.get h0
    simp only [List.mem_cons, forall_eq_or_imp] at g nl
    refine ⟨hm, hi.nn, hi.gd.set ?_, hi.nl.set ?_⟩
    · simp only [List.mem_cons, forall_eq_or_imp]; exact ⟨g.1, g.2⟩
    · simp only [List.mem_cons, forall_eq_or_imp]; exact ⟨h1, nl.2⟩
  | _ =>
    rename p.threads[(_ : Nat)]? = some _ => h0
    have g := hi.gd.get h0
    have nl := hi.nl.get h0
    refine ⟨hm, hi.nn, hi.gd.set ?_, hi.nl.set ?_⟩
    · simp only [List.mem_cons, forall_eq_or_imp, List.not_mem_nil, false_implies, implies_true, and_true] at g ⊢
      first
        | exact g.2
        | exact g.2.2
        | exact ⟨trivial, g⟩
        | exact ⟨trivial, g.2⟩
        | exact ⟨g.1, g.2⟩
        | exact ⟨g.2.1, g.2.2⟩
        | exact ⟨trivial, g.1, g.2⟩
        | exact ⟨goodSems_pc g.1, g.2⟩
        | exact ⟨goodSems_pc g.2.1, g.2.2⟩
        | exact ⟨trivial, goodSems_pc g.1, g.2⟩
        | trivial
    · simp only [List.mem_cons, forall_eq_or_imp, List.not_mem_nil, false_implies, implies_true, and_true] at nl ⊢
      first
        | exact nl.2
        | exact nl.2.2
        | exact ⟨trivial, nl⟩
        | exact ⟨trivial, nl.2⟩
        | exact ⟨nl.1, nl.2⟩
        | exact ⟨nl.2.1, nl.2.2⟩
        | exact ⟨trivial, trivial, nl.2⟩
        | (rename Cond => c
           cases c <;> first
            | exact ⟨trivial, nl.2⟩
            | exact ⟨nl.1, nl.2⟩
            | exact ⟨trivial, nl.2.2⟩
            | exact ⟨trivial, trivial, nl.2⟩)
        | trivial

theorem semInv_reachable {p : Pool} (h : SemReachable p) : SemInv p := by
  obtain ⟨threads, sems, as, h0, hu, h⟩ := h
  have : ∀ (as : List Act) (p q : Pool), (∀ a ∈ as, SemUse a) → SemInv p → run p as = some q → SemInv q := by
    intro as
    induction as with
    | nil => intro p q _ hi h; simp [run] at h; subst h; exact hi
    | cons a as ih =>
      intro p q hu hi h
      rw [run] at h
      split at h
      · rename_i p' hp
        exact ih p' q (fun a ha => hu a (by simp [ha])) (semInv_step hi (hu a (by simp)) (step_cases hp)) h
      · cases h
  refine this as _ p hu ⟨by simp [MutexInv, Pool.initial, tot], h0, ?_, ?_⟩ h
  all_goals
    intro s hs f hf
    obtain rfl := List.eq_of_mem_replicate hs
    cases hf

/-- **C30.** If every wait names each semaphore at most once and no count is negative, no semaphore is ever negative. -/
theorem semaphore_nonneg {p : Pool} (h : SemReachable p) (s : Nat) : 0 ≤ p.sems s := (semInv_reachable h).nn s

/-- **C30.** No wakeup is lost: a thread that is asleep in a wait for semaphores waits for one that is not there. -/
theorem semaphore_no_lost_wakeup {p : Pool} (h : SemReachable p) (stk : List Frame) (hs : stk ∈ p.threads) (l : List (Nat × Int))
    (hf : Frame.wait (.sems l) .asleep ∈ stk) : ∃ x ∈ l, p.sems x.1 < x.2 := by
  have := (semInv_reachable h).nl stk hs _ hf
  simp only [NotLate, semsOk] at this
  simpa using this

/-- A run that meets the hypotheses: one thread waits for two semaphores and goes to sleep, another signals them, and the first
one wakes up and acquires both. -/
def semExample : List Act :=
  [.semWait 0 [(0, 1), (1, 2)], .lock 0, .check 0, .dequeue 0, .sleep 0, .semSignal 1 [(0, 1)], .lock 0, .check 0, .dequeue 0,
   .sleep 0, .semSignal 1 [(1, 3)], .lock 0, .check 0]

example : (∀ a ∈ semExample, SemUse a) ∧
    ((run (Pool.initial 2 fun _ => 0) semExample).map fun p => (p.threads, p.sems 0, p.sems 1)) = some ([[], []], 0, 1) := by
  refine ⟨?_, by decide⟩
  simp only [semExample, List.mem_cons, forall_eq_or_imp, SemUse]
  simp

/-- In the middle of it, the first thread is asleep. -/
example : ((run (Pool.initial 2 fun _ => 0) (semExample.take 10)).map fun p => (p.threads, p.sems 0, p.sems 1)) =
    some ([[.wait (.sems [(0, 1), (1, 2)]) .asleep], []], 1, 0) := by decide

/-- **C30, counterexample.** If a wait names the same semaphore twice, it checks each count on its own: with the value 1, a wait for
1 and 1 succeeds and leaves the semaphore at -1. (evaluate.cc:263-269) -/
theorem semaphore_wait_twice_negative :
    ((run (Pool.initial 1 fun _ => 1) [.semWait 0 [(0, 1), (0, 1)], .lock 0, .check 0]).map fun p => (p.threads, p.sems 0)) =
      some ([[]], -1) := by decide

end Slinky.TP
