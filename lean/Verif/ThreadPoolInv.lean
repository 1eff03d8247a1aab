import Verif.ThreadPool
import Mathlib.Algebra.BigOperators.Group.List.Basic
import Mathlib.Algebra.Order.BigOperators.Group.List
import Mathlib.Tactic.Ring
import Mathlib.Tactic.Linarith

/-!
# Steps of the thread pool, classified by their effect on the work
-/

namespace Slinky.TP

/-- The sum of `g` over all frames. -/
def tot (g : Frame → Nat) (ths : List (List Frame)) : Nat := (ths.map fun st => (st.map g).sum).sum

theorem tot_set (g : Frame → Nat) : ∀ (ths : List (List Frame)) (k : Nat) (stk stk' : List Frame), ths[k]? = some stk →
    tot g (ths.set k stk') + (stk.map g).sum = tot g ths + (stk'.map g).sum
  | [], _, _, _, h => by simp at h
  | a :: l, 0, stk, stk', h => by
    simp at h; subst h
    simp [tot]; omega
  | a :: l, k + 1, stk, stk', h => by
    have := tot_set g l k stk stk' (by simpa using h)
    simp [tot] at *; omega

theorem tot_map (g : Frame → Nat) (φ : Frame → Frame) (h : ∀ f, g (φ f) = g f) (ths : List (List Frame)) :
    tot g (ths.map (List.map φ)) = tot g ths := by
  have : g ∘ φ = g := funext h
  simp [tot, Function.comp_def, this, h]

theorem tot_wakeOne (g : Frame → Nat) (φ : Frame → Frame) (h : ∀ f, g (φ f) = g f) (k : Nat) (ths : List (List Frame)) :
    tot g (wakeOne φ k ths) = tot g ths := by
  unfold wakeOne
  cases hk : ths[k]? with
  | none => rw [List.set_eq_of_length_le (by simpa using hk)]
  | some stk =>
    have := tot_set g ths k stk (stk.map φ) hk
    simp [Function.comp_def, h] at this ⊢
    omega

theorem tot_pos_iff (g : Frame → Nat) (ths : List (List Frame)) :
    0 < tot g ths ↔ ∃ stk ∈ ths, ∃ f ∈ stk, 0 < g f := by
  unfold tot
  constructor
  · intro h
    by_contra hc
    have : (ths.map fun st => (st.map g).sum).sum = 0 := by
      apply List.sum_eq_zero
      intro x hx
      simp at hx
      obtain ⟨st, hst, rfl⟩ := hx
      apply List.sum_eq_zero
      intro y hy
      simp at hy
      obtain ⟨f, hf, rfl⟩ := hy
      by_contra h0
      exact hc ⟨st, hst, f, hf, by omega⟩
    omega
  · rintro ⟨stk, hs, f, hf, h⟩
    have h1 : g f ≤ (stk.map g).sum := List.single_le_sum (by simp) _ (List.mem_map_of_mem hf)
    have h2 : (stk.map g).sum ≤ (ths.map fun st => (st.map g).sum).sum :=
      List.single_le_sum (by simp) _ (List.mem_map_of_mem (f := fun st => (st.map g).sum) hs)
    omega

/-- `g` only counts work. -/
def WorkOnly (g : Frame → Nat) : Prop := ∀ c pc, g (.wait c pc) = 0

theorem WorkOnly.wakeHelper {g} (h : WorkOnly g) (f : Frame) : g f.wakeHelper = g f := by
  unfold Frame.wakeHelper
  split <;> simp [h _ _]

theorem WorkOnly.wakeWorker {g} (h : WorkOnly g) (f : Frame) : g f.wakeWorker = g f := by
  unfold Frame.wakeWorker
  split <;> simp [h _ _]

/-- The effect of a step on the tasks, the records and the work frames. -/
inductive Effect (p q : Pool) : Prop where
  | none (ht : q.tasks = p.tasks) (hs : q.started = p.started) (hr : q.returned = p.returned) (hc : q.completed = p.completed)
      (hf : ∀ g, WorkOnly g → tot g q.threads = tot g p.threads)
  | new (n : Nat) (mw : Int) (hn : 0 < n) (ht : q.tasks = p.tasks ++ [mkTask n mw]) (hs : q.started = p.started)
      (hr : q.returned = p.returned) (hc : q.completed = p.completed)
      (hf : ∀ g, WorkOnly g → tot g q.threads = tot g p.threads)
  | alloc (t : Nat) (tk : Task) (h : p.tasks[t]? = some tk) (ht : q.tasks = p.tasks.set t { tk with maxW := tk.maxW - 1 })
      (hs : q.started = p.started) (hr : q.returned = p.returned) (hc : q.completed = p.completed)
      (hf : ∀ g, WorkOnly g → tot g q.threads = tot g p.threads +
        if 0 ≤ tk.maxW - 1 then g (.work t (shardOrder (tk.maxW - 1) tk.shards.length) 0 none) else 0)
  | start (t : Nat) (tk : Task) (s i e : Nat) (rem : List Nat) (done : Nat) (h : p.tasks[t]? = some tk)
      (hsh : tk.shards[s]? = some (i, e)) (hie : i < e)
      (ht : q.tasks = p.tasks.set t { tk with shards := tk.shards.set s (i + 1, e) })
      (hs : q.started = (t, i) :: p.started) (hr : q.returned = p.returned) (hc : q.completed = p.completed)
      (hf : ∀ g, WorkOnly g → tot g q.threads + g (.work t (s :: rem) done none) =
        tot g p.threads + g (.work t (s :: rem) done (some i)))
  | skip (t : Nat) (tk : Task) (s i e : Nat) (rem : List Nat) (done : Nat) (h : p.tasks[t]? = some tk)
      (hsh : tk.shards[s]? = some (i, e)) (hie : e ≤ i)
      (ht : q.tasks = p.tasks.set t { tk with shards := tk.shards.set s (i + 1, e) })
      (hs : q.started = p.started) (hr : q.returned = p.returned) (hc : q.completed = p.completed)
      (hf : ∀ g, WorkOnly g → tot g q.threads + g (.work t (s :: rem) done none) =
        tot g p.threads + g (.work t rem done none))
  | ret (t : Nat) (i : Nat) (rem : List Nat) (done : Nat) (ht : q.tasks = p.tasks)
      (hs : q.started = p.started) (hr : q.returned = (t, i) :: p.returned) (hc : q.completed = p.completed)
      (hf : ∀ g, WorkOnly g → tot g q.threads + g (.work t rem done (some i)) =
        tot g p.threads + g (.work t rem (done + 1) none))
  | finish (t : Nat) (tk : Task) (done : Nat) (h : p.tasks[t]? = some tk)
      (ht : q.tasks = p.tasks.set t { tk with todo := tk.todo - done })
      (hs : q.started = p.started) (hr : q.returned = p.returned)
      (hc : q.completed = if 0 < done ∧ tk.todo - done = 0 then t :: p.completed else p.completed)
      (hf : ∀ g, WorkOnly g → tot g q.threads + g (.work t [] done none) = tot g p.threads)

theorem tot_notifyAll (p : Pool) (g) (hg : WorkOnly g) : tot g p.notifyAll.threads = tot g p.threads := by
  show tot g (wakeHelpers (wakeWorkers p.threads)) = _
  rw [wakeHelpers, wakeWorkers, tot_map g _ hg.wakeHelper, tot_map g _ hg.wakeWorker]

theorem tot_enqueue (p : Pool) (n mw wk hk) (g) (hg : WorkOnly g) : tot g (p.enqueue n mw wk hk).threads = tot g p.threads := by
  simp only [Pool.enqueue]
  split
  · rw [tot_wakeOne g _ hg.wakeHelper, tot_wakeOne g _ hg.wakeWorker]
  · rw [wakeHelpers, wakeWorkers, tot_map g _ hg.wakeHelper, tot_map g _ hg.wakeWorker]

/-- The stack of a thread after notifications: only `asleep` changes. -/
theorem enqueue_getElem (p : Pool) (n mw wk hk) (k : Nat) (stk) (h : p.threads[k]? = some stk) :
    ∃ stk', (p.enqueue n mw wk hk).threads[k]? = some stk' ∧ ∀ g, WorkOnly g → (stk'.map g).sum = (stk.map g).sum := by
  have w1 : ∀ (φ : Frame → Frame) (ths : List (List Frame)) (stk), ths[k]? = some stk → (∀ g, WorkOnly g → ∀ f, g (φ f) = g f) →
      ∃ stk', (ths.map (List.map φ))[k]? = some stk' ∧ ∀ g, WorkOnly g → (stk'.map g).sum = (stk.map g).sum := by
    intro φ ths stk h hφ
    refine ⟨stk.map φ, by simp [h], fun g hg => ?_⟩
    simp [Function.comp_def, hφ g hg]
  have w2 : ∀ (φ : Frame → Frame) (j : Nat) (ths : List (List Frame)) (stk), ths[k]? = some stk → (∀ g, WorkOnly g → ∀ f, g (φ f) = g f) →
      ∃ stk', (wakeOne φ j ths)[k]? = some stk' ∧ ∀ g, WorkOnly g → (stk'.map g).sum = (stk.map g).sum := by
    intro φ j ths stk h hφ
    unfold wakeOne
    by_cases hj : j = k
    · subst hj
      refine ⟨stk.map φ, ?_, fun g hg => by simp [Function.comp_def, hφ g hg]⟩
      have : j < ths.length := by
        by_contra hh; rw [List.getElem?_eq_none (by omega)] at h; cases h
      rw [h, List.getElem?_set, if_pos rfl, if_pos this]; rfl
    · exact ⟨stk, by simp [List.getElem?_set, hj, h], fun _ _ => rfl⟩
  simp only [Pool.enqueue]
  split
  · obtain ⟨s1, e1, f1⟩ := w2 _ wk _ _ h (fun g hg => hg.wakeWorker)
    obtain ⟨s2, e2, f2⟩ := w2 _ hk _ _ e1 (fun g hg => hg.wakeHelper)
    exact ⟨s2, e2, fun g hg => (f2 g hg).trans (f1 g hg)⟩
  · obtain ⟨s1, e1, f1⟩ := w1 _ _ _ h (fun g hg => hg.wakeWorker)
    obtain ⟨s2, e2, f2⟩ := w1 _ _ _ e1 (fun g hg => hg.wakeHelper)
    exact ⟨s2, e2, fun g hg => (f2 g hg).trans (f1 g hg)⟩

theorem tot_setStk (p : Pool) (k : Nat) (stk stk' : List Frame) (h : p.threads[k]? = some stk) (g : Frame → Nat) :
    tot g (p.setStk k stk').threads + (stk.map g).sum = tot g p.threads + (stk'.map g).sum :=
  tot_set g p.threads k stk stk' h

theorem step_effect (p q : Pool) (a : Act) (h : step p a = some q) : Effect p q := by
  cases a with
  | enqueue k n mw wk hk =>
    simp only [step] at h
    split at h
    · split at h
      · rename_i hc
        simp only [Option.some.injEq] at h; subst h
        simp at hc
        exact .new n mw hc.2 rfl rfl rfl rfl (fun g hg => tot_enqueue p n mw wk hk g hg)
      · cases h
    · cases h
  | parallelFor k n mw wk hk =>
    simp only [step] at h
    split at h
    · rename_i stk hstk
      split at h
      · rename_i hc
        simp only [Option.some.injEq] at h; subst h
        simp at hc
        refine .new n mw hc.2 rfl rfl rfl rfl (fun g hg => ?_)
        obtain ⟨stk', e1, f1⟩ := enqueue_getElem p n mw wk hk k stk hstk
        have := tot_setStk (p.enqueue n mw wk hk) k stk' (.wait (.task p.tasks.length) .entry :: stk) e1 g
        have h2 := tot_enqueue p n mw wk hk g hg
        have h3 := f1 g hg
        simp only [List.map_cons, List.sum_cons, hg _ _] at this
        omega
      · cases h
    · cases h
  | waitTask k t =>
    simp only [step] at h
    split at h
    · rename_i stk hstk
      split at h
      · simp only [Option.some.injEq] at h; subst h
        refine .none rfl rfl rfl rfl (fun g hg => ?_)
        have := tot_setStk p k stk (.wait (.task t) .entry :: stk) hstk g
        simp only [List.map_cons, List.sum_cons, hg _ _] at this
        omega
      · cases h
    · cases h
  | semWait k l =>
    simp only [step] at h
    split at h
    · rename_i stk hstk
      split at h
      · simp only [Option.some.injEq] at h; subst h
        refine .none rfl rfl rfl rfl (fun g hg => ?_)
        have := tot_setStk p k stk (.wait (.sems l) .lock :: stk) hstk g
        simp only [List.map_cons, List.sum_cons, hg _ _] at this
        omega
      · cases h
    · cases h
  | semSignal k l =>
    simp only [step] at h
    split at h
    · split at h
      · simp only [Option.some.injEq] at h; subst h
        exact .none rfl rfl rfl rfl (fun g hg => tot_notifyAll _ g hg)
      · cases h
    · cases h
  | semInit k s v =>
    simp only [step] at h
    split at h
    · split at h
      · simp only [Option.some.injEq] at h; subst h
        exact .none rfl rfl rfl rfl (fun g hg => tot_notifyAll _ g hg)
      · cases h
    · cases h
  | setStop k =>
    simp only [step] at h
    split at h
    · split at h
      · simp only [Option.some.injEq] at h; subst h
        exact .none rfl rfl rfl rfl (fun g hg => tot_notifyAll _ g hg)
      · cases h
    · cases h
  | runWorker k =>
    simp only [step] at h
    split at h
    · rename_i hstk
      simp only [Option.some.injEq] at h; subst h
      refine .none rfl rfl rfl rfl (fun g hg => ?_)
      have := tot_setStk p k _ [.wait .stop .lock] hstk g
      simp only [List.map_cons, List.map_nil, List.sum_cons, List.sum_nil, hg _ _] at this
      omega
    · cases h
  | enter k =>
    simp only [step] at h
    split at h
    · rename_i t rest hstk
      split at h
      · rename_i tk htk
        split at h
        · rename_i hw
          simp only [Option.some.injEq] at h; subst h
          refine .alloc t tk htk rfl rfl rfl rfl (fun g hg => ?_)
          have := tot_setStk { p with tasks := p.tasks.set t { tk with maxW := tk.maxW - 1 } } k _
            (.work t (shardOrder (tk.maxW - 1) tk.shards.length) 0 none :: .wait (.task t) .direct :: rest) hstk g
          simp only [List.map_cons, List.sum_cons, hg _ _] at this
          rw [if_pos hw]
          omega
        · rename_i hw
          simp only [Option.some.injEq] at h; subst h
          refine .alloc t tk htk rfl rfl rfl rfl (fun g hg => ?_)
          have := tot_setStk { p with tasks := p.tasks.set t { tk with maxW := tk.maxW - 1 } } k _
            (.wait (.task t) .spin :: rest) hstk g
          simp only [List.map_cons, List.sum_cons, hg _ _] at this
          rw [if_neg hw]
          omega
      · cases h
    · cases h
  | fetch k =>
    simp only [step] at h
    split at h
    · rename_i t s rem done rest hstk
      split at h
      · rename_i tk htk
        split at h
        · rename_i i e hsh
          split at h
          · rename_i hie
            simp only [Option.some.injEq] at h; subst h
            refine .start t tk s i e rem done htk hsh hie rfl rfl rfl rfl (fun g hg => ?_)
            have := tot_setStk { p with tasks := p.tasks.set t { tk with shards := tk.shards.set s (i + 1, e) }, started := (t, i) :: p.started }
              k _ (.work t (s :: rem) done (some i) :: rest) hstk g
            simp only [List.map_cons, List.sum_cons] at this
            omega
          · rename_i hie
            simp only [Option.some.injEq] at h; subst h
            refine .skip t tk s i e rem done htk hsh (by omega) rfl rfl rfl rfl (fun g hg => ?_)
            have := tot_setStk { p with tasks := p.tasks.set t { tk with shards := tk.shards.set s (i + 1, e) } }
              k _ (.work t rem done none :: rest) hstk g
            simp only [List.map_cons, List.sum_cons] at this
            omega
        · cases h
      · cases h
    · cases h
  | ret k =>
    simp only [step] at h
    split at h
    · rename_i t rem done i rest hstk
      simp only [Option.some.injEq] at h; subst h
      refine .ret t i rem done rfl rfl rfl rfl (fun g hg => ?_)
      have := tot_setStk { p with returned := (t, i) :: p.returned } k _ (.work t rem (done + 1) none :: rest) hstk g
      simp only [List.map_cons, List.sum_cons] at this
      omega
    · cases h
  | finish k =>
    simp only [step] at h
    split at h
    · rename_i t done c pc rest hstk
      split at h
      · rename_i tk htk
        have e1 : (if 0 < done then tk.todo - done else tk.todo) = tk.todo - done := by
          split
          · rfl
          · rename_i hh; have : done = 0 := by omega
            subst this; simp
        rw [e1] at h
        have e2 : (if (decide (0 < done) && decide (tk.todo - done = 0)) = true then t :: p.completed else p.completed) =
            if 0 < done ∧ tk.todo - done = 0 then t :: p.completed else p.completed := by simp
        rw [e2] at h
        have key : ∀ stk', q = ({ p with tasks := p.tasks.set t { tk with todo := tk.todo - done }, completed := if 0 < done ∧ tk.todo - done = 0 then t :: p.completed else p.completed } : Pool).setStk k stk' →
            (∀ g, WorkOnly g → (stk'.map g).sum = (rest.map g).sum) → Effect p q := by
          intro stk' hq hs
          subst hq
          refine .finish t tk done htk rfl rfl rfl rfl (fun g hg => ?_)
          have := tot_setStk { p with tasks := p.tasks.set t { tk with todo := tk.todo - done }, completed := if 0 < done ∧ tk.todo - done = 0 then t :: p.completed else p.completed } k _ stk' hstk g
          have h2 := hs g hg
          simp only [List.map_cons, List.sum_cons, hg _ _] at this
          omega
        split at h
        · split at h
          · simp only [Option.some.injEq] at h
            exact key rest h.symm (fun _ _ => rfl)
          · simp only [Option.some.injEq] at h
            exact key _ h.symm (fun g hg => by simp [hg _ _])
        · simp only [Option.some.injEq] at h
          exact key _ h.symm (fun g hg => by simp [hg _ _])
        · cases h
      · cases h
    · cases h
  | spinDone k =>
    simp only [step] at h
    split at h
    · rename_i t rest hstk
      split at h
      · split at h
        · simp only [Option.some.injEq] at h; subst h
          refine .none rfl rfl rfl rfl (fun g hg => ?_)
          have := tot_setStk p k _ rest hstk g
          simp only [List.map_cons, List.sum_cons, hg _ _] at this
          omega
        · cases h
      · cases h
    · cases h
  | spinEnd k =>
    simp only [step] at h
    split at h
    · rename_i t rest hstk
      simp only [Option.some.injEq] at h; subst h
      refine .none rfl rfl rfl rfl (fun g hg => ?_)
      have := tot_setStk p k _ (.wait (.task t) .lock :: rest) hstk g
      simp only [List.map_cons, List.sum_cons, hg _ _] at this
      omega
    · cases h
  | lock k =>
    simp only [step] at h
    split at h
    · cases h
    · split at h
      · rename_i c rest hstk
        simp only [Option.some.injEq] at h; subst h
        refine .none rfl rfl rfl rfl (fun g hg => ?_)
        have := tot_setStk { p with locked := true } k _ (.wait c .check :: rest) hstk g
        simp only [List.map_cons, List.sum_cons, hg _ _] at this
        omega
      · rename_i c rest hstk
        simp only [Option.some.injEq] at h; subst h
        refine .none rfl rfl rfl rfl (fun g hg => ?_)
        have h1 : (wakeHelpers p.threads)[k]? = some ((.wait c .lockNotify :: rest).map Frame.wakeHelper) := by
          simp [wakeHelpers, hstk]
        have := tot_setStk { p with locked := true, threads := wakeHelpers p.threads } k _
          (.wait c .check :: rest.map Frame.wakeHelper) h1 g
        have h2 : tot g (wakeHelpers p.threads) = tot g p.threads := tot_map g _ hg.wakeHelper _
        have h3 : g (Frame.wakeHelper (.wait c .lockNotify)) = 0 := by rw [hg.wakeHelper, hg _ _]
        simp only [List.map_cons, List.sum_cons, hg _ _, h3] at this
        omega
      · cases h
  | check k =>
    simp only [step] at h
    split at h
    · rename_i t rest hstk
      split at h
      · split at h
        · simp only [Option.some.injEq] at h; subst h
          refine .none rfl rfl rfl rfl (fun g hg => ?_)
          have := tot_setStk { p with locked := false } k _ rest hstk g
          simp only [List.map_cons, List.sum_cons, hg _ _] at this
          omega
        · simp only [Option.some.injEq] at h; subst h
          refine .none rfl rfl rfl rfl (fun g hg => ?_)
          have := tot_setStk p k _ (.wait (.task t) (.deq 0) :: rest) hstk g
          simp only [List.map_cons, List.sum_cons, hg _ _] at this
          omega
      · cases h
    · rename_i l rest hstk
      split at h
      · simp only [Option.some.injEq] at h; subst h
        refine .none rfl rfl rfl rfl (fun g hg => ?_)
        have := tot_setStk { p with locked := false, sems := semsAdd (-1) l p.sems, semAcq := semsAdd 1 l p.semAcq } k _ rest hstk g
        simp only [List.map_cons, List.sum_cons, hg _ _] at this
        omega
      · simp only [Option.some.injEq] at h; subst h
        refine .none rfl rfl rfl rfl (fun g hg => ?_)
        have := tot_setStk p k _ (.wait (.sems l) (.deq 0) :: rest) hstk g
        simp only [List.map_cons, List.sum_cons, hg _ _] at this
        omega
    · rename_i rest hstk
      split at h
      · simp only [Option.some.injEq] at h; subst h
        refine .none rfl rfl rfl rfl (fun g hg => ?_)
        have := tot_setStk { p with locked := false } k _ rest hstk g
        simp only [List.map_cons, List.sum_cons, hg _ _] at this
        omega
      · simp only [Option.some.injEq] at h; subst h
        refine .none rfl rfl rfl rfl (fun g hg => ?_)
        have := tot_setStk p k _ (.wait .stop (.deq 0) :: rest) hstk g
        simp only [List.map_cons, List.sum_cons, hg _ _] at this
        omega
    · cases h
  | dequeue k =>
    simp only [step] at h
    split at h
    · rename_i c pos rest hstk
      split at h
      · simp only [Option.some.injEq] at h; subst h
        refine .none rfl rfl rfl rfl (fun g hg => ?_)
        have := tot_setStk p k _ (.wait c .nap :: rest) hstk g
        simp only [List.map_cons, List.sum_cons, hg _ _] at this
        omega
      · rename_i t ht
        split at h
        · cases h
        · rename_i tk htk
          split at h
          · simp only [Option.some.injEq] at h; subst h
            exact .none rfl rfl rfl rfl (fun g hg => rfl)
          · split at h
            · simp only [Option.some.injEq] at h; subst h
              refine .none rfl rfl rfl rfl (fun g hg => ?_)
              have := tot_setStk p k _ (.wait c (.deq (pos + 1)) :: rest) hstk g
              simp only [List.map_cons, List.sum_cons, hg _ _] at this
              omega
            · split at h
              · rename_i hw
                simp only [Option.some.injEq] at h; subst h
                refine .alloc t tk htk rfl rfl rfl rfl (fun g hg => ?_)
                rw [if_neg (by omega)]; rfl
              · rename_i hw
                simp only [Option.some.injEq] at h; subst h
                refine .alloc t tk htk rfl rfl rfl rfl (fun g hg => ?_)
                have := tot_setStk { p with tasks := p.tasks.set t { tk with maxW := tk.maxW - 1 }, locked := false, queue := if tk.maxW - 1 = 0 then p.queue.eraseIdx pos else p.queue }
                  k _ (.work t (shardOrder (tk.maxW - 1) tk.shards.length) 0 none :: .wait c .working :: rest) hstk g
                simp only [List.map_cons, List.sum_cons, hg _ _] at this
                rw [if_pos (c := 0 ≤ tk.maxW - 1) (by omega)]
                exact Nat.add_right_cancel (m := (rest.map g).sum) (by rw [Nat.add_assoc]; simpa only [Nat.zero_add, Nat.add_zero] using this)
    · cases h
  | yield k =>
    simp only [step] at h
    split at h
    · rename_i c rest hstk
      simp only [Option.some.injEq] at h; subst h
      refine .none rfl rfl rfl rfl (fun g hg => ?_)
      have := tot_setStk { p with locked := false } k _ (.wait c .lock :: rest) hstk g
      simp only [List.map_cons, List.sum_cons, hg _ _] at this
      omega
    · cases h
  | sleep k =>
    simp only [step] at h
    split at h
    · rename_i c rest hstk
      simp only [Option.some.injEq] at h; subst h
      refine .none rfl rfl rfl rfl (fun g hg => ?_)
      have := tot_setStk { p with locked := false } k _ (.wait c .asleep :: rest) hstk g
      simp only [List.map_cons, List.sum_cons, hg _ _] at this
      omega
    · cases h
  | wake k =>
    simp only [step] at h
    split at h
    · rename_i c rest hstk
      simp only [Option.some.injEq] at h; subst h
      refine .none rfl rfl rfl rfl (fun g hg => ?_)
      have := tot_setStk p k _ (.wait c .lock :: rest) hstk g
      simp only [List.map_cons, List.sum_cons, hg _ _] at this
      omega
    · cases h

end Slinky.TP
