import Verif.ThreadPoolSteps

/-!
# Thread pool: work that can still be started stays in the queue
-/

namespace Slinky.TP

/-- A task with iterations that nobody has started and room for another worker is in the queue. -/
def QI (p : Pool) : Prop := ∀ (t : Nat) (tk : Task), p.tasks[t]? = some tk → 0 < tk.left → 0 < tk.maxW → t ∈ p.queue

theorem mem_eraseIdx_ne {l : List Nat} {pos x y : Nat} (h : l[pos]? = some x) (hy : y ∈ l) (hne : y ≠ x) : y ∈ l.eraseIdx pos := by
  induction l generalizing pos with
  | nil => cases hy
  | cons a l ih =>
    cases pos with
    | zero =>
      simp only [List.getElem?_cons_zero, Option.some.injEq] at h
      subst h
      rcases List.mem_cons.1 hy with rfl | hy
      · exact absurd rfl hne
      · simpa using hy
    | succ pos =>
      simp only [List.getElem?_cons_succ] at h
      rw [List.eraseIdx_cons_succ]
      rcases List.mem_cons.1 hy with rfl | hy
      · exact List.mem_cons_self
      · exact List.mem_cons_of_mem _ (ih h hy)

theorem left_set {tk : Task} {s i e : Nat} (h : tk.shards[s]? = some (i, e)) :
    ({ tk with shards := tk.shards.set s (i + 1, e) } : Task).left ≤ tk.left := by
  have := sum_set (fun s => s.2 - s.1) tk.shards s (i, e) (i + 1, e) h
  simp only [Task.left] at *
  omega

theorem left_of_started {p : Pool} (hi : Inv p) {t : Nat} {tk : Task} (h : p.tasks[t]? = some tk) (hs : tk.allStarted = true) : tk.left = 0 := by
  simp only [Task.allStarted, Bool.or_eq_true, decide_eq_true_eq] at hs
  rcases hs with hs | hs
  · have := hi.sum t tk h
    omega
  · apply left_zero
    intro s i e hg
    have := List.all_eq_true.1 hs (i, e) (List.mem_of_getElem? hg)
    simpa using this

theorem QI.set {p : Pool} (hq : QI p) {t : Nat} {tk tk' : Task} (ht : p.tasks[t]? = some tk) (hl : tk'.left ≤ tk.left) (hm : tk'.maxW ≤ tk.maxW) :
    ∀ (t' : Nat) (x : Task), (p.tasks.set t tk')[t']? = some x → 0 < x.left → 0 < x.maxW → t' ∈ p.queue := by
  intro t' x hx h1 h2
  rcases get_set ht hx with ⟨rfl, rfl⟩ | ⟨_, hx⟩
  · exact hq _ _ ht (by omega) (by omega)
  · exact hq _ _ hx h1 h2

theorem qi_step {p q : Pool} {a : Act} (hi : Inv p) (hq : QI p) (h : LStep p a q) : QI q := by
  have app : ∀ (x : Task), ∀ (t : Nat) (tk : Task), (p.tasks ++ [x])[t]? = some tk → 0 < tk.left → 0 < tk.maxW → t ∈ p.queue ++ [p.tasks.length] := by
    intro x t tk ht h1 h2
    rcases get_append ht with h | ⟨h, _⟩
    · exact List.mem_append_left _ (hq t tk h h1 h2)
    · exact List.mem_append_right _ (by simp [h])
  cases h with
  | enqueue => exact app _
  | parallelFor => exact app _
  | enterOk k t tk rest h0 h1 => exact hq.set h1 (Nat.le_refl _) (by show tk.maxW - 1 ≤ _; omega)
  | enterNo k t tk rest h0 h1 => exact hq.set h1 (Nat.le_refl _) (by show tk.maxW - 1 ≤ _; omega)
  | start k t s i e done rem tk rest h0 h1 h2 => exact hq.set h1 (left_set h2) (Int.le_refl _)
  | skip k t s i e done rem tk rest h0 h1 h2 => exact hq.set h1 (left_set h2) (Int.le_refl _)
  | finishDirect k t done c tk rest h0 h1 => exact hq.set h1 (Nat.le_refl _) (Int.le_refl _)
  | finishSpin k t done c tk rest h0 h1 => exact hq.set h1 (Nat.le_refl _) (Int.le_refl _)
  | finishNotify k t done c tk rest h0 h1 => exact hq.set h1 (Nat.le_refl _) (Int.le_refl _)
  | finishLock k t done c tk rest h0 h1 => exact hq.set h1 (Nat.le_refl _) (Int.le_refl _)
  | deqStarted k pos t c tk rest h0 h1 h2 h3 =>
    intro t' x hx hl hm
    by_cases e : t' = t
    · subst e
      have hx : p.tasks[t']? = some x := hx
      rw [h2] at hx; cases hx
      rw [left_of_started hi h2 h3] at hl
      exact absurd hl (by omega)
    · exact mem_eraseIdx_ne h1 (hq t' x hx hl hm) e
  | deqFull k pos t c tk rest h0 h1 h2 h3 =>
    intro t' x hx hl hm
    rcases get_set h2 hx with ⟨rfl, rfl⟩ | ⟨e, hx⟩
    · have : 0 < tk.maxW - 1 := hm
      omega
    · exact mem_eraseIdx_ne h1 (hq t' x hx hl hm) e
  | deqWork k pos t c tk rest h0 h1 h2 h3 =>
    intro t' x hx hl hm
    show t' ∈ (if tk.maxW - 1 = 0 then p.queue.eraseIdx pos else p.queue)
    rcases get_set h2 hx with ⟨rfl, rfl⟩ | ⟨e, hx⟩
    · have hm : 0 < tk.maxW - 1 := hm
      rw [if_neg (by omega)]
      exact List.mem_of_getElem? h1
    · split
      · exact mem_eraseIdx_ne h1 (hq t' x hx hl hm) e
      · exact hq t' x hx hl hm
  | _ => exact hq

/-- **C29.** Work is never lost: in every reachable state, a task that has iterations that no thread has started, and that another worker
may join, is in the queue where idle threads look for work. -/
theorem work_stays_queued {p : Pool} (h : Reachable p) (t : Nat) (tk : Task) (ht : p.tasks[t]? = some tk)
    (hl : ∃ s i e : Nat, tk.shards[s]? = some (i, e) ∧ i < e) (hm : 0 < tk.maxW) : t ∈ p.queue := by
  have main : ∀ (as : List Act) (p q : Pool), (Inv p ∧ QI p) → run p as = some q → (Inv q ∧ QI q) := by
    intro as
    induction as with
    | nil => intro p q hp hr; simp [run] at hr; exact hr ▸ hp
    | cons a as ih =>
      intro p q hp hr
      simp only [run] at hr
      cases hs : step p a with
      | none => rw [hs] at hr; cases hr
      | some p' =>
        rw [hs] at hr
        exact ih p' q ⟨inv_step hp.1 hs, qi_step hp.1 hp.2 (step_cases hs)⟩ hr
  obtain ⟨threads, sems, as, h⟩ := h
  refine (main as _ _ ⟨inv_initial threads sems, ?_⟩ h).2 t tk ht ?_ hm
  · intro t tk ht
    simp [Pool.initial] at ht
  · obtain ⟨s, i, e, hs, hie⟩ := hl
    by_contra h0
    have := left_zero_iff (by omega : tk.left = 0) s i e hs
    omega

/-- The shards, worker slots and queue after some steps. -/
def queueView (n : Nat) (as : List Act) : Option (List (List (Nat × Nat) × Int) × List Nat) :=
  (run (Pool.initial n fun _ => 0) as).map fun p => (p.tasks.map fun t => (t.shards, t.maxW), p.queue)

/-- The hypotheses are met after one iteration of a loop of 3 iterations has been started. -/
example : queueView 2 [.parallelFor 0 3 intMax 1 1, .enter 0, .fetch 0] = some ([([(0, 1), (1, 2), (3, 3)], 2)], [0]) := by
  decide +kernel

end Slinky.TP
