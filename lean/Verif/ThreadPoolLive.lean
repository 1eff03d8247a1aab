import Verif.ThreadPoolTerm

/-!
# C29: parallel loops do not deadlock

Programs that use the pool through `parallel_for` only (nested in any way, from any number of threads, with any workers) cannot get
stuck: when no thread can take a step, every `parallel_for` has returned.
-/

namespace Slinky.TP

/-- The calls of such programs. `max_workers = 0` is excluded (see `max_workers_zero_hangs`). -/
def ForkJoin : Act → Prop
  | .parallelFor _ _ mw _ _ => mw ≠ 0
  | .enqueue _ _ _ _ _ => False
  | .waitTask _ _ => False
  | .semWait _ _ => False
  | .semSignal _ _ => False
  | .semInit _ _ _ => False
  | _ => True

def FJReachable (p : Pool) : Prop :=
  ∃ threads sems as, (∀ a ∈ as, ForkJoin a) ∧ run (Pool.initial threads sems) as = some p

theorem FJReachable.reachable {p : Pool} (h : FJReachable p) : Reachable p := by
  obtain ⟨a, b, c, _, h⟩ := h
  exact ⟨a, b, c, h⟩

/-- How tasks change. -/
def Ext (ts ts' : List Task) : Prop := ∀ (t : Nat) (tk : Task), ts[t]? = some tk →
  ∃ tk' : Task, ts'[t]? = some tk' ∧ tk'.shards.length = tk.shards.length ∧ tk'.init = tk.init ∧ tk'.maxW ≤ tk.maxW

theorem Ext.refl (ts) : Ext ts ts := fun _ tk h => ⟨tk, h, rfl, rfl, le_refl _⟩

theorem Ext.append (ts : List Task) (x : Task) : Ext ts (ts ++ [x]) := fun t tk h => by
  have ht : t < ts.length := by
    by_contra hh; rw [List.getElem?_eq_none (by omega)] at h; cases h
  exact ⟨tk, by rw [List.getElem?_append_left ht]; exact h, rfl, rfl, le_refl _⟩

theorem Ext.set {ts : List Task} {t : Nat} {tk tk' : Task} (h : ts[t]? = some tk) (h1 : tk'.shards.length = tk.shards.length)
    (h2 : tk'.init = tk.init) (h3 : tk'.maxW ≤ tk.maxW) : Ext ts (ts.set t tk') := fun t' tk0 h0 => by
  by_cases e : t' = t
  · subst e
    rw [h] at h0
    cases h0
    exact ⟨tk', get_set_eq h, h1, h2, h3⟩
  · exact ⟨tk0, by rw [get_set_ne e]; exact h0, rfl, rfl, le_refl _⟩

/-- What holds of each frame. -/
def FOk (ts : List Task) : Frame → Prop
  | .work t rem _ _ => ∃ tk : Task, ts[t]? = some tk ∧ ∀ s ∈ rem, s < tk.shards.length
  | .wait (.task t) pc => ∃ tk : Task, ts[t]? = some tk ∧ (pc ≠ .entry → tk.maxW < tk.init)
  | .wait (.sems _) _ => False
  | .wait .stop pc => pc ≠ .entry ∧ pc ≠ .spin

theorem FOk.ext {ts ts' : List Task} (h : Ext ts ts') (f : Frame) (hf : FOk ts f) : FOk ts' f := by
  cases f with
  | work t rem done run =>
    obtain ⟨tk, h1, h2⟩ := hf
    obtain ⟨tk', h3, h4, _, _⟩ := h t tk h1
    exact ⟨tk', h3, fun s hs => by rw [h4]; exact h2 s hs⟩
  | wait c pc =>
    cases c with
    | task t =>
      obtain ⟨tk, h1, h2⟩ := hf
      obtain ⟨tk', h3, _, h4, h5⟩ := h t tk h1
      exact ⟨tk', h3, fun hp => by have := h2 hp; omega⟩
    | sems => exact hf
    | stop => exact hf

theorem FOk.pc {ts : List Task} {c : Cond} {pc pc' : WPC} (h : FOk ts (.wait c pc)) (hp : pc ≠ .entry) (hq : pc' ≠ .entry ∧ pc' ≠ .spin) :
    FOk ts (.wait c pc') := by
  cases c with
  | task t =>
    obtain ⟨tk, h1, h2⟩ := h
    exact ⟨tk, h1, fun _ => h2 hp⟩
  | sems => exact h
  | stop => exact hq

theorem FOk.woken (ts : List Task) (f f' : Frame) (h : Woken f f') (hf : FOk ts f) : FOk ts f' := by
  rcases h with rfl | ⟨c, rfl, rfl⟩
  · exact hf
  · exact hf.pc (by simp) (by simp)

/-- Does the frame work on `t`, or wait for `t`? -/
def About (t : Nat) : Frame → Prop
  | .work t' _ _ _ => t' = t
  | .wait (.task t') _ => t' = t
  | _ => False

/-- A wait that is called later waits for a newer task. -/
def Above (f g : Frame) : Prop := ∀ c pc t, f = .wait c pc → About t g → ∃ t', c = .task t' ∧ t < t'

theorem above_work (t rem done run) (g : Frame) : Above (.work t rem done run) g := by intro c pc _ h; cases h

theorem about_woken (t) (f f' : Frame) (h : Woken f f') (hf : About t f') : About t f := by
  rcases h with rfl | ⟨c, rfl, rfl⟩
  · exact hf
  · cases c <;> exact hf

def Ord (stk : List Frame) : Prop := stk.Pairwise Above

theorem Ord.pc {c pc pc' rest} (h : Ord (.wait c pc :: rest)) : Ord (.wait c pc' :: rest) := by
  unfold Ord at *
  rw [List.pairwise_cons] at *
  refine ⟨?_, h.2⟩
  intro g hg c' _ t e1 e2
  cases e1
  exact h.1 g hg _ pc t rfl e2

theorem Ord.work {t rem done run rest} (h : Ord rest) : Ord (.work t rem done run :: rest) :=
  List.pairwise_cons.2 ⟨fun g _ => above_work _ _ _ _ g, h⟩

theorem Ord.tail {f rest} (h : Ord (f :: rest)) : Ord rest := (List.pairwise_cons.1 h).2

theorem ord_map (s : List Frame) (φ : Frame → Frame) (hφ : ∀ f, Woken f (φ f)) (h : Ord s) : Ord (s.map φ) := by
  unfold Ord at *
  rw [List.pairwise_map]
  refine h.imp ?_
  intro f g hfg c pc t e1 e2
  have e3 := about_woken t _ _ (hφ g) e2
  rcases hφ f with h | ⟨c', h, h'⟩
  · rw [h] at e1; exact hfg c pc t e1 e3
  · rw [h'] at e1; cases e1; exact hfg _ _ t h e3

/-- Does the frame wait for task `t`? -/
def isWaitT (t : Nat) : Frame → Nat
  | .wait (.task t') _ => if t' = t then 1 else 0
  | _ => 0

theorem isWaitT_woken (t) (f f' : Frame) (h : Woken f f') : isWaitT t f' = isWaitT t f := by
  rcases h with rfl | ⟨c, rfl, rfl⟩
  · rfl
  · cases c <;> rfl

theorem isWaitT_wake (t) : WakeInv (isWaitT t) := fun f => ⟨isWaitT_woken _ _ _ (woken_helper f), isWaitT_woken _ _ _ (woken_worker f)⟩

theorem isWaitT_pc (t c pc pc') : isWaitT t (.wait c pc) = isWaitT t (.wait c pc') := by cases c <;> rfl

/-- The frame found its task not done, and the task is still not done. -/
def Fresh (ts : List Task) : Frame → Prop
  | .wait (.task t) (.deq _) => ∀ tk : Task, ts[t]? = some tk → tk.todo ≠ 0
  | .wait (.task t) .nap => ∀ tk : Task, ts[t]? = some tk → tk.todo ≠ 0
  | .wait (.task t) .asleep => ∀ tk : Task, ts[t]? = some tk → tk.todo ≠ 0
  | _ => True

theorem Fresh.woken (ts : List Task) (f f' : Frame) (h : Woken f f') (hf : Fresh ts f) : Fresh ts f' := by
  rcases h with rfl | ⟨c, rfl, rfl⟩
  · exact hf
  · cases c <;> trivial

/-- The todo counters that change to zero are only those of tasks that nobody waits for. -/
theorem Fresh.ext {ts ts' : List Task} (f : Frame) (h : ∀ (t : Nat) (tk' : Task), isWaitT t f ≠ 0 → ts'[t]? = some tk' → tk'.todo = 0 → ∃ tk : Task, ts[t]? = some tk ∧ tk.todo = 0)
    (hf : Fresh ts f) : Fresh ts' f := by
  cases f with
  | work => trivial
  | wait c pc =>
    cases c with
    | task t =>
      have : ∀ tk' : Task, ts'[t]? = some tk' → (∀ tk : Task, ts[t]? = some tk → tk.todo ≠ 0) → tk'.todo ≠ 0 := by
        intro tk' h1 h2 h3
        obtain ⟨tk, h4, h5⟩ := h t tk' (by simp [isWaitT]) h1 h3
        exact h2 tk h4 h5
      cases pc <;> first | trivial | exact fun tk' h1 => this tk' h1 hf
    | _ => trivial

/-- The invariant. -/
structure FJ (p : Pool) : Prop where
  inv : Inv p
  mx : MutexInv p
  stk : AllS Stk p.threads
  ord : AllS Ord p.threads
  ok : AllF (FOk p.tasks) p.threads
  qv : ∀ t ∈ p.queue, t < p.tasks.length
  ip : ∀ (t : Nat) (tk : Task), p.tasks[t]? = some tk → 0 < tk.init
  un : ∀ t, tot (isWaitT t) p.threads ≤ 1
  fr : AllF (Fresh p.tasks) p.threads ∨ 0 < tot isLN p.threads

theorem lt_of_get {α} {l : List α} {k : Nat} {x : α} (h : l[k]? = some x) : k < l.length := by
  by_contra hh; rw [List.getElem?_eq_none (by omega)] at h; cases h

theorem ip_set {ts : List Task} (h : ∀ (t : Nat) (tk : Task), ts[t]? = some tk → 0 < tk.init) {t : Nat} {tk tk' : Task} (ht : ts[t]? = some tk) (hi : tk'.init = tk.init) :
    ∀ (t' : Nat) (x : Task), (ts.set t tk')[t']? = some x → 0 < x.init := by
  intro t' x hx
  rcases get_set ht hx with ⟨_, rfl⟩ | ⟨_, hx⟩
  · rw [hi]; exact h t tk ht
  · exact h t' x hx

theorem isLN_wake : ∀ f f', Woken f f' → isLN f' = isLN f := by
  rintro f f' (rfl | ⟨c, rfl, rfl⟩) <;> rfl

theorem isLN_wakeInv : WakeInv isLN := fun f => ⟨isLN_wake _ _ (woken_helper f), isLN_wake _ _ (woken_worker f)⟩

theorem todo_set {ts : List Task} {t : Nat} {tk tk' : Task} (ht : ts[t]? = some tk) (hz : tk'.todo = 0 → tk.todo = 0) (t' : Nat) (x : Task)
    (hx : (ts.set t tk')[t']? = some x) (h0 : x.todo = 0) : ∃ tk0 : Task, ts[t']? = some tk0 ∧ tk0.todo = 0 := by
  rcases get_set ht hx with ⟨rfl, rfl⟩ | ⟨_, hx⟩
  · exact ⟨tk, ht, hz h0⟩
  · exact ⟨x, hx, h0⟩

theorem ord_step {p q : Pool} {a : Act} (ho : AllS Ord p.threads) (hok : AllF (FOk p.tasks) p.threads) (ha : ForkJoin a) (h : LStep p a q) : AllS Ord q.threads := by
  cases h with
  | enqueue => exact ha.elim
  | waitTask => exact ha.elim
  | semWait => exact ha.elim
  | semSignal => exact ha.elim
  | semInit => exact ha.elim
  | parallelFor k n mw wk hk stk h0 h1 =>
    refine (ho.enqueue ord_map _ _ _ _).set (List.pairwise_cons.2 ⟨?_, ho.get h0⟩)
    intro g hg c pc t e1 e2
    cases e1
    have hg := hok.get h0 _ hg
    cases g with
    | work t' rem done run =>
      obtain ⟨tk, h2, _⟩ := hg
      cases e2
      exact ⟨_, rfl, lt_of_get h2⟩
    | wait c pc =>
      cases c with
      | task t' =>
        obtain ⟨tk, h2, _⟩ := hg
        cases e2
        exact ⟨_, rfl, lt_of_get h2⟩
      | _ => exact e2.elim
  | setStop => exact ho.notifyAll ord_map
  | runWorker => exact ho.set (List.pairwise_singleton _ _)
  | enterOk k t tk rest h0 => exact ho.set ((ho.get h0).pc).work
  | enterNo k t tk rest h0 => exact ho.set (ho.get h0).pc
  | start k t s i e done rem tk rest h0 => exact ho.set (ho.get h0).tail.work
  | skip k t s i e done rem tk rest h0 => exact ho.set (ho.get h0).tail.work
  | ret k t i done rem rest h0 => exact ho.set (ho.get h0).tail.work
  | finishDirect k t done c tk rest h0 => exact ho.set (ho.get h0).tail.tail
  | finishSpin k t done c tk rest h0 => exact ho.set (ho.get h0).tail.pc
  | finishNotify k t done c tk rest h0 => exact ho.set (ho.get h0).tail.pc
  | finishLock k t done c tk rest h0 => exact ho.set (ho.get h0).tail.pc
  | lockNotify k c rest h0 h1 =>
    refine AllS.set (ho.map fun s hs => ord_map s _ woken_helper hs) ?_
    have := ord_map _ _ woken_helper (ho.get h1)
    rw [List.map_cons] at this
    have e : Frame.wakeHelper (.wait c .lockNotify) = .wait c .lockNotify := by cases c <;> rfl
    rw [e] at this
    exact this.pc
  | deqStarted => exact ho
  | deqFull => exact ho
  | deqWork k pos t c tk rest h0 => exact ho.set ((ho.get h0).pc).work
  | _ =>
    rename p.threads[(_ : Nat)]? = some _ => h0
    first
      | exact ho.set (ho.get h0).pc
      | exact ho.set (ho.get h0).tail

theorem shardOrder_lt (w : Int) (count s : Nat) (hc : 0 < count) (h : s ∈ shardOrder w count) : s < count := by
  unfold shardOrder at h
  simp only [List.mem_append, List.mem_range', List.mem_range] at h
  have := Nat.mod_lt w.toNat (show count > 0 by omega)
  rcases h with ⟨i, h1, h2⟩ | h <;> omega

theorem ok_step {p q : Pool} {a : Act} (hi : Inv p) (hst : AllS Stk p.threads) (hok : AllF (FOk p.tasks) p.threads) (ha : ForkJoin a) (h : LStep p a q) : AllF (FOk q.tasks) q.threads := by
  cases h with
  | enqueue => exact ha.elim
  | waitTask => exact ha.elim
  | semWait => exact ha.elim
  | semSignal => exact ha.elim
  | semInit => exact ha.elim
  | parallelFor k n mw wk hk stk h0 h1 =>
    have e : Ext p.tasks (p.tasks ++ [mkTask n mw]) := Ext.append _ _
    refine AllF.set ((hok.enqueue (FOk.woken _) _ _ _ _).mono (FOk.ext e)) ?_
    simp only [List.mem_cons, forall_eq_or_imp]
    exact ⟨⟨mkTask n mw, by simp [Pool.enqueue, Pool.setStk], by simp⟩, fun f hf => FOk.ext e f (hok.get h0 f hf)⟩
  | setStop => exact hok.notifyAll fun f hf => FOk.woken _ _ _ (woken_helper _) (FOk.woken _ _ _ (woken_worker _) hf)
  | runWorker => exact hok.set (by simp [FOk])
  | enterOk k t tk rest h0 h1 h2 =>
    have e : Ext p.tasks (p.tasks.set t { tk with maxW := tk.maxW - 1 }) := Ext.set h1 rfl rfl (by simp)
    have hl := hi.le t tk h1
    refine AllF.set (hok.mono (FOk.ext e)) ?_
    have g := hok.get h0
    simp only [List.mem_cons, forall_eq_or_imp] at g ⊢
    refine ⟨⟨_, get_set_eq h1, fun s hs => shardOrder_lt _ _ _ (hi.shape t tk h1).2.1 hs⟩, ⟨_, get_set_eq h1, fun _ => by simp only; omega⟩, fun f hf => FOk.ext e f (g.2 f hf)⟩
  | enterNo k t tk rest h0 h1 h2 =>
    have e : Ext p.tasks (p.tasks.set t { tk with maxW := tk.maxW - 1 }) := Ext.set h1 rfl rfl (by simp)
    have hl := hi.le t tk h1
    refine AllF.set (hok.mono (FOk.ext e)) ?_
    have g := hok.get h0
    simp only [List.mem_cons, forall_eq_or_imp] at g ⊢
    refine ⟨⟨_, get_set_eq h1, fun _ => by simp only; omega⟩, fun f hf => FOk.ext e f (g.2 f hf)⟩
  | start k t s i e done rem tk rest h0 h1 h2 h3 =>
    have e : Ext p.tasks (p.tasks.set t { tk with shards := tk.shards.set s (i + 1, e) }) := Ext.set h1 (by simp) rfl (by simp)
    refine AllF.set (hok.mono (FOk.ext e)) ?_
    have g := hok.get h0
    simp only [List.mem_cons, forall_eq_or_imp] at g ⊢
    have g1 := FOk.ext e _ g.1
    exact ⟨g1, fun f hf => FOk.ext e f (g.2 f hf)⟩
  | skip k t s i e done rem tk rest h0 h1 h2 h3 =>
    have e : Ext p.tasks (p.tasks.set t { tk with shards := tk.shards.set s (i + 1, e) }) := Ext.set h1 (by simp) rfl (by simp)
    refine AllF.set (hok.mono (FOk.ext e)) ?_
    have g := hok.get h0
    simp only [List.mem_cons, forall_eq_or_imp] at g ⊢
    obtain ⟨tk', g1, g2⟩ := FOk.ext e _ g.1
    exact ⟨⟨tk', g1, fun s' hs' => g2 s' (by simp [hs'])⟩, fun f hf => FOk.ext e f (g.2 f hf)⟩
  | ret k t i done rem rest h0 =>
    have g := hok.get h0
    refine hok.set ?_
    simp only [List.mem_cons, forall_eq_or_imp] at g ⊢
    exact ⟨g.1, g.2⟩
  | finishDirect k t done c tk rest h0 h1 h2 =>
    have e : Ext p.tasks (p.tasks.set t { tk with todo := (if 0 < done then tk.todo - done else tk.todo) }) := Ext.set h1 rfl rfl (by simp)
    have g := hok.get h0
    simp only [List.mem_cons, forall_eq_or_imp] at g
    exact AllF.set (hok.mono (FOk.ext e)) fun f hf => FOk.ext e f (g.2.2 f hf)
  | finishSpin k t done c tk rest h0 h1 h2 =>
    have e : Ext p.tasks (p.tasks.set t { tk with todo := (if 0 < done then tk.todo - done else tk.todo) }) := Ext.set h1 rfl rfl (by simp)
    have g := hok.get h0
    obtain ⟨c', pc', rest'', h3, h4, -⟩ := (hst.get h0).work_below
    cases h3
    simp only [reduceCtorEq, or_false, true_and] at h4
    subst h4
    refine AllF.set (hok.mono (FOk.ext e)) ?_
    simp only [List.mem_cons, forall_eq_or_imp] at g ⊢
    exact ⟨FOk.ext e _ (show FOk p.tasks (.wait (.task t) .spin) from ⟨g.2.1.choose, g.2.1.choose_spec.1, fun _ => g.2.1.choose_spec.2 (by simp)⟩), fun f hf => FOk.ext e f (g.2.2 f hf)⟩
  | finishNotify k t done c tk rest h0 h1 h2 =>
    have e : Ext p.tasks (p.tasks.set t { tk with todo := (if 0 < done then tk.todo - done else tk.todo) }) := Ext.set h1 rfl rfl (by simp)
    have g := hok.get h0
    refine AllF.set (hok.mono (FOk.ext e)) ?_
    simp only [List.mem_cons, forall_eq_or_imp] at g ⊢
    exact ⟨FOk.ext e _ (g.2.1.pc (by simp) (by simp)), fun f hf => FOk.ext e f (g.2.2 f hf)⟩
  | finishLock k t done c tk rest h0 h1 h2 =>
    have e : Ext p.tasks (p.tasks.set t { tk with todo := (if 0 < done then tk.todo - done else tk.todo) }) := Ext.set h1 rfl rfl (by simp)
    have g := hok.get h0
    refine AllF.set (hok.mono (FOk.ext e)) ?_
    simp only [List.mem_cons, forall_eq_or_imp] at g ⊢
    exact ⟨FOk.ext e _ (g.2.1.pc (by simp) (by simp)), fun f hf => FOk.ext e f (g.2.2 f hf)⟩
  | lockNotify k c rest h0 h1 =>
    refine AllF.set (hok.map fun f hf => FOk.woken _ _ _ (woken_helper _) hf) ?_
    have g := hok.get h1
    simp only [List.mem_cons, forall_eq_or_imp, List.mem_map, forall_exists_index, and_imp, forall_apply_eq_imp_iff₂] at g ⊢
    exact ⟨g.1.pc (by simp) (by simp), fun f hf => FOk.woken _ _ _ (woken_helper _) (g.2 f hf)⟩
  | deqStarted => exact hok
  | deqFull k pos t c tk rest h0 h1 h2 h3 =>
    have e : Ext p.tasks (p.tasks.set t { tk with maxW := tk.maxW - 1 }) := Ext.set h2 rfl rfl (by simp)
    exact hok.mono (FOk.ext e)
  | deqWork k pos t c tk rest h0 h1 h2 h3 =>
    have e : Ext p.tasks (p.tasks.set t { tk with maxW := tk.maxW - 1 }) := Ext.set h2 rfl rfl (by simp)
    refine AllF.set (hok.mono (FOk.ext e)) ?_
    have g := hok.get h0
    simp only [List.mem_cons, forall_eq_or_imp] at g ⊢
    refine ⟨⟨_, get_set_eq h2, fun s hs => shardOrder_lt _ _ _ (hi.shape t tk h2).2.1 hs⟩, FOk.ext e _ (g.1.pc (by simp) (by simp)), fun f hf => FOk.ext e f (g.2 f hf)⟩
  | _ =>
    rename p.threads[(_ : Nat)]? = some _ => h0
    have g := hok.get h0
    refine hok.set ?_
    simp only [List.mem_cons, forall_eq_or_imp] at g ⊢
    first
      | exact g.2
      | exact ⟨g.1.pc (by simp) (by simp), g.2⟩

theorem qv_step {p q : Pool} {a : Act} (hq : ∀ t ∈ p.queue, t < p.tasks.length) (h : LStep p a q) : ∀ t ∈ q.queue, t < q.tasks.length := by
  have app : ∀ (x : Task), ∀ t ∈ p.queue ++ [p.tasks.length], t < (p.tasks ++ [x]).length := by
    intro x t ht
    simp only [List.mem_append, List.mem_singleton, List.length_append, List.length_cons, List.length_nil] at *
    rcases ht with ht | ht
    · have := hq t ht; omega
    · omega
  have er : ∀ pos : Nat, ∀ t ∈ p.queue.eraseIdx pos, t < p.tasks.length := fun pos t ht => hq t (List.mem_of_mem_eraseIdx ht)
  have se : ∀ (t0 : Nat) (tk : Task), (p.tasks.set t0 tk).length = p.tasks.length := fun _ _ => List.length_set ..
  cases h with
  | enqueue => exact app _
  | parallelFor => exact app _
  | deqStarted k pos => exact er pos
  | deqFull k pos t c tk => intro t ht; simp only [se]; exact er pos t ht
  | deqWork k pos t c tk =>
    intro t' ht
    simp only [Pool.setStk] at ht ⊢
    simp only [se]
    split at ht
    · exact er pos t' ht
    · exact hq t' ht
  | _ =>
    intro t ht
    have := hq t ht
    simp only [Pool.setStk, Pool.notifyAll]
    first
      | exact this
      | (simp only [se]; exact this)

theorem mkTask_init_pos (n : Nat) (mw : Int) (hn : 0 < n) (hm : mw ≠ 0) : 0 < (mkTask n mw).init := by
  simp only [mkTask]
  split <;> omega

theorem ip_step {p q : Pool} {a : Act} (hp : ∀ (t : Nat) (tk : Task), p.tasks[t]? = some tk → 0 < tk.init) (ha : ForkJoin a) (h : LStep p a q) :
    ∀ (t : Nat) (tk : Task), q.tasks[t]? = some tk → 0 < tk.init := by
  cases h with
  | enqueue => exact ha.elim
  | parallelFor k n mw wk hk stk h0 h1 h2 h3 =>
    intro t tk ht
    rcases get_append (ht : (p.tasks ++ [mkTask n mw])[t]? = some tk) with h | ⟨_, rfl⟩
    · exact hp t tk h
    · exact mkTask_init_pos n mw h3 ha
  | enterOk k t tk rest h0 h1 => exact ip_set hp h1 rfl
  | enterNo k t tk rest h0 h1 => exact ip_set hp h1 rfl
  | start k t s i e done rem tk rest h0 h1 => exact ip_set hp h1 rfl
  | skip k t s i e done rem tk rest h0 h1 => exact ip_set hp h1 rfl
  | finishDirect k t done c tk rest h0 h1 => exact ip_set hp h1 rfl
  | finishSpin k t done c tk rest h0 h1 => exact ip_set hp h1 rfl
  | finishNotify k t done c tk rest h0 h1 => exact ip_set hp h1 rfl
  | finishLock k t done c tk rest h0 h1 => exact ip_set hp h1 rfl
  | deqFull k pos t c tk rest h0 h1 h2 => exact ip_set hp h2 rfl
  | deqWork k pos t c tk rest h0 h1 h2 => exact ip_set hp h2 rfl
  | _ => exact hp

theorem un_step {p q : Pool} {a : Act} (hu : ∀ t, tot (isWaitT t) p.threads ≤ 1) (hok : AllF (FOk p.tasks) p.threads) (ha : ForkJoin a) (h : LStep p a q) :
    ∀ t, tot (isWaitT t) q.threads ≤ 1 := by
  intro t0
  have hu0 := hu t0
  cases h with
  | enqueue => exact ha.elim
  | waitTask => exact ha.elim
  | semWait => exact ha.elim
  | semSignal => exact ha.elim
  | semInit => exact ha.elim
  | parallelFor k n mw wk hk stk h0 h1 =>
    rw [tot_parallelFor (isWaitT_wake t0) (isWaitT_woken t0) _ _ _ _ _ _ _ _ h0]
    by_cases e : p.tasks.length = t0
    · have : tot (isWaitT t0) p.threads = 0 := by
        rw [tot_zero_iff]
        refine hok.mono ?_
        intro f hf
        cases f with
        | work => rfl
        | wait c pc =>
          cases c with
          | task t =>
            obtain ⟨tk, h2, _⟩ := hf
            have := lt_of_get h2
            simp only [isWaitT]
            rw [if_neg (by omega)]
          | _ => rfl
      simp only [isWaitT]
      split <;> omega
    · simp only [isWaitT, e, if_false]; omega
  | setStop => rw [(isWaitT_wake t0).notifyAll]; exact hu0
  | deqStarted => exact hu0
  | deqFull => exact hu0
  | lockNotify k c rest h0 h1 =>
    have e0 : tot (isWaitT t0) (wakeHelpers p.threads) = tot (isWaitT t0) p.threads := tot_map _ _ (fun f => (isWaitT_wake t0 f).1) _
    have e1 : (wakeHelpers p.threads)[k]? = some ((.wait c .lockNotify :: rest).map Frame.wakeHelper) := by simp [wakeHelpers, h1]
    have e2 := tot_change (isWaitT t0) e1 (.wait c .check :: rest.map Frame.wakeHelper)
    have e3 : Frame.wakeHelper (.wait c .lockNotify) = .wait c .lockNotify := by cases c <;> rfl
    have e4 := isWaitT_pc t0 c .lockNotify .check
    simp only [List.map_cons, List.sum_cons, e3] at e2
    simp only [Pool.setStk]
    omega
  | finishSpin k t done c tk rest h0 h1 h2 =>
    have e2 := tot_change (isWaitT t0) h0 (.wait c .spin :: rest)
    have e4 := isWaitT_pc t0 c .direct .spin
    simp only [List.map_cons, List.sum_cons] at e2
    simp only [Pool.setStk]
    omega
  | finishNotify k t done c tk rest h0 h1 h2 =>
    have e2 := tot_change (isWaitT t0) h0 (.wait c .lockNotify :: rest)
    have e4 := isWaitT_pc t0 c .working .lockNotify
    simp only [List.map_cons, List.sum_cons] at e2
    simp only [Pool.setStk]
    omega
  | finishLock k t done c tk rest h0 h1 h2 =>
    have e2 := tot_change (isWaitT t0) h0 (.wait c .lock :: rest)
    have e4 := isWaitT_pc t0 c .working .lock
    simp only [List.map_cons, List.sum_cons] at e2
    simp only [Pool.setStk]
    omega
  | lock k c rest h0 h1 =>
    have e2 := tot_change (isWaitT t0) h1 (.wait c .check :: rest)
    have e4 := isWaitT_pc t0 c .lock .check
    simp only [List.map_cons, List.sum_cons] at e2
    simp only [Pool.setStk]
    omega
  | deqNone k pos c rest h0 =>
    have e2 := tot_change (isWaitT t0) h0 (.wait c .nap :: rest)
    have e4 := isWaitT_pc t0 c (.deq pos) .nap
    simp only [List.map_cons, List.sum_cons] at e2
    simp only [Pool.setStk]
    omega
  | deqOn k pos t c tk rest h0 =>
    have e2 := tot_change (isWaitT t0) h0 (.wait c (.deq (pos + 1)) :: rest)
    have e4 := isWaitT_pc t0 c (.deq pos) (.deq (pos + 1))
    simp only [List.map_cons, List.sum_cons] at e2
    simp only [Pool.setStk]
    omega
  | deqWork k pos t c tk rest h0 =>
    have e2 := tot_change (isWaitT t0) h0 (.work t (shardOrder (tk.maxW - 1) tk.shards.length) 0 none :: .wait c .working :: rest)
    have e4 := isWaitT_pc t0 c (.deq pos) .working
    have e5 : isWaitT t0 (.work t (shardOrder (tk.maxW - 1) tk.shards.length) 0 none) = 0 := rfl
    simp only [List.map_cons, List.sum_cons] at e2
    simp only [Pool.setStk]
    omega
  | yield k c rest h0 =>
    have e2 := tot_change (isWaitT t0) h0 (.wait c .lock :: rest)
    have e4 := isWaitT_pc t0 c .nap .lock
    simp only [List.map_cons, List.sum_cons] at e2
    simp only [Pool.setStk]
    omega
  | sleep k c rest h0 =>
    have e2 := tot_change (isWaitT t0) h0 (.wait c .asleep :: rest)
    have e4 := isWaitT_pc t0 c .nap .asleep
    simp only [List.map_cons, List.sum_cons] at e2
    simp only [Pool.setStk]
    omega
  | wake k c rest h0 =>
    have e2 := tot_change (isWaitT t0) h0 (.wait c .lock :: rest)
    have e4 := isWaitT_pc t0 c .asleep .lock
    simp only [List.map_cons, List.sum_cons] at e2
    simp only [Pool.setStk]
    omega
  | _ =>
    rename p.threads[(_ : Nat)]? = some _ => h0
    simp only [Pool.setStk]
    rw [tot_set_eq _ h0]
    have := sum_le_tot (isWaitT t0) h0
    simp only [List.map_cons, List.map_nil, List.sum_cons, List.sum_nil, isWaitT] at *
    omega

theorem free_of {p : Pool} (hm : MutexInv p) (h : p.locked = false) : AllF (fun f => inCS f = 0) p.threads := by
  unfold MutexInv at hm
  rw [h] at hm
  exact (tot_zero_iff _ _).1 hm

/-- After `cv_helper_.notify_all()`, with no thread that holds the mutex, nobody is late. -/
theorem fresh_notify (ts : List Task) (f : Frame) (h : inCS f = 0) : Fresh ts f.wakeHelper := by
  cases f with
  | work => trivial
  | wait c pc => cases c <;> cases pc <;> first | trivial | (simp [inCS] at h)

theorem Fresh.pc {ts : List Task} {c : Cond} {pc pc' : WPC} (h : Fresh ts (.wait c pc)) (h1 : pc = .nap ∨ ∃ n, pc = .deq n) : Fresh ts (.wait c pc') := by
  cases c with
  | task t =>
    have : ∀ tk : Task, ts[t]? = some tk → tk.todo ≠ 0 := by
      rcases h1 with rfl | ⟨n, rfl⟩ <;> exact h
    cases pc' <;> first | trivial | exact this
  | _ => trivial

theorem Fresh.triv {ts : List Task} {c : Cond} {pc : WPC} (h : pc = .spin ∨ pc = .lock ∨ pc = .lockNotify ∨ pc = .check ∨ pc = .working ∨ pc = .direct) : Fresh ts (.wait c pc) := by
  rcases h with rfl | rfl | rfl | rfl | rfl | rfl <;> cases c <;> trivial

theorem fr_step {p q : Pool} {a : Act} (hi : FJ p) (ha : ForkJoin a) (h : LStep p a q) : AllF (Fresh q.tasks) q.threads ∨ 0 < tot isLN q.threads := by
  cases h with
  | enqueue => exact ha.elim
  | waitTask => exact ha.elim
  | semWait => exact ha.elim
  | semSignal => exact ha.elim
  | semInit => exact ha.elim
  | lockNotify k c rest h0 h1 =>
    left
    have fr := free_of hi.mx h0
    refine AllF.set (fr.map fun f hf => fresh_notify _ f hf) ?_
    have := fr.get h1
    simp only [List.mem_cons, forall_eq_or_imp, List.mem_map, forall_exists_index, and_imp, forall_apply_eq_imp_iff₂] at this ⊢
    exact ⟨.triv (by simp), fun f hf => fresh_notify _ f (this.2 f hf)⟩
  | finishNotify k t done c tk rest h0 h1 h2 =>
    right
    have e1 := tot_change isLN h0 (.wait c .lockNotify :: rest)
    simp only [List.map_cons, List.sum_cons, isLN] at e1
    simp only [Pool.setStk]
    omega
  | parallelFor k n mw wk hk stk h0 h1 h2 h3 =>
    have ex : ∀ (f : Frame), Fresh p.tasks f → Fresh (p.tasks ++ [mkTask n mw]) f := by
      intro f
      refine Fresh.ext f ?_
      intro t tk' _ ht hz
      rcases get_append ht with h | ⟨_, rfl⟩
      · exact ⟨tk', h, hz⟩
      · simp [mkTask] at hz; omega
    rcases hi.fr with hf | hf
    · left
      refine AllF.set ((hf.enqueue (Fresh.woken _) _ _ _ _).mono ex) ?_
      simp only [List.mem_cons, forall_eq_or_imp]
      exact ⟨trivial, fun f hf' => ex f (hf.get h0 f hf')⟩
    · right
      rw [tot_parallelFor isLN_wakeInv isLN_wake _ _ _ _ _ _ _ _ h0]
      omega
  | setStop =>
    rcases hi.fr with hf | hf
    · left; exact hf.notifyAll fun f hf => Fresh.woken _ _ _ (woken_helper _) (Fresh.woken _ _ _ (woken_worker _) hf)
    · right; rw [isLN_wakeInv.notifyAll]; exact hf
  | finishDirect k t done c tk rest h0 h1 h2 =>
    have hs := hi.stk.get h0
    obtain ⟨c', pc', rest'', h3, h4, -⟩ := hs.work_below
    cases h3
    simp only [reduceCtorEq, or_false, true_and] at h4
    subst h4
    rcases hi.fr with hf | hf
    · left
      have e1 := tot_change (isWaitT t) h0 rest
      have e2 := hi.un t
      simp only [List.map_cons, List.sum_cons, isWaitT, if_true] at e1
      have e3 : tot (isWaitT t) (p.threads.set k rest) = 0 := by omega
      rw [tot_zero_iff] at e3
      have e4 : AllF (Fresh p.tasks) (p.threads.set k rest) := AllF.set hf fun f hf' => hf.get h0 f (by simp [hf'])
      intro s hs f hf'
      refine Fresh.ext f ?_ (e4 s hs f hf')
      intro t' tk' hw ht' hz
      have : t' ≠ t := by
        rintro rfl
        exact hw (e3 s hs f hf')
      have ht'' : (p.tasks.set t { tk with todo := (if 0 < done then tk.todo - done else tk.todo) })[t']? = some tk' := ht'
      rw [get_set_ne this] at ht''
      exact ⟨tk', ht'', hz⟩
    · right
      have e1 := tot_change isLN h0 rest
      simp only [List.map_cons, List.sum_cons, isLN] at e1
      simp only [Pool.setStk]
      omega
  | finishSpin k t done c tk rest h0 h1 h2 =>
    have e0 := contrib_le hi.inv h0 h1
    have ex : ∀ (f : Frame), Fresh p.tasks f → Fresh (p.tasks.set t { tk with todo := (if 0 < done then tk.todo - done else tk.todo) }) f := by
      intro f
      refine Fresh.ext f fun t' tk' _ => todo_set h1 ?_ t' tk'
      intro hz
      simp only at hz
      by_cases hd : 0 < done
      · exact absurd ⟨hd, hz⟩ h2
      · rw [if_neg hd] at hz; exact hz
    rcases hi.fr with hf | hf
    · left
      have g := hf.get h0
      refine AllF.set (hf.mono ex) ?_
      simp only [List.mem_cons, forall_eq_or_imp] at g ⊢
      exact ⟨.triv (by simp), fun f hf' => ex f (g.2.2 f hf')⟩
    · right
      have e1 := tot_change isLN h0 (.wait c .spin :: rest)
      simp only [List.map_cons, List.sum_cons, isLN] at e1
      simp only [Pool.setStk]
      omega
  | finishLock k t done c tk rest h0 h1 h2 =>
    have e0 := contrib_le hi.inv h0 h1
    have ex : ∀ (f : Frame), Fresh p.tasks f → Fresh (p.tasks.set t { tk with todo := (if 0 < done then tk.todo - done else tk.todo) }) f := by
      intro f
      refine Fresh.ext f fun t' tk' _ => todo_set h1 ?_ t' tk'
      intro hz
      simp only at hz
      by_cases hd : 0 < done
      · exact absurd ⟨hd, hz⟩ h2
      · rw [if_neg hd] at hz; exact hz
    rcases hi.fr with hf | hf
    · left
      have g := hf.get h0
      refine AllF.set (hf.mono ex) ?_
      simp only [List.mem_cons, forall_eq_or_imp] at g ⊢
      exact ⟨.triv (by simp), fun f hf' => ex f (g.2.2 f hf')⟩
    · right
      have e1 := tot_change isLN h0 (.wait c .lock :: rest)
      simp only [List.map_cons, List.sum_cons, isLN] at e1
      simp only [Pool.setStk]
      omega
  | enterOk k t tk rest h0 h1 h2 =>
    have ex : ∀ (f : Frame), Fresh p.tasks f → Fresh (p.tasks.set t { tk with maxW := tk.maxW - 1 }) f :=
      fun f => Fresh.ext f fun t' tk' _ => todo_set h1 (by intro h; exact h) t' tk'
    rcases hi.fr with hf | hf
    · left
      have g := hf.get h0
      refine AllF.set (hf.mono ex) ?_
      simp only [List.mem_cons, forall_eq_or_imp] at g ⊢
      exact ⟨trivial, .triv (by simp), fun f hf' => ex f (g.2 f hf')⟩
    · right
      have e1 := tot_change isLN h0 (.work t (shardOrder (tk.maxW - 1) tk.shards.length) 0 none :: .wait (.task t) .direct :: rest)
      simp only [List.map_cons, List.sum_cons, isLN] at e1
      simp only [Pool.setStk]
      omega
  | enterNo k t tk rest h0 h1 h2 =>
    have ex : ∀ (f : Frame), Fresh p.tasks f → Fresh (p.tasks.set t { tk with maxW := tk.maxW - 1 }) f :=
      fun f => Fresh.ext f fun t' tk' _ => todo_set h1 (by intro h; exact h) t' tk'
    rcases hi.fr with hf | hf
    · left
      have g := hf.get h0
      refine AllF.set (hf.mono ex) ?_
      simp only [List.mem_cons, forall_eq_or_imp] at g ⊢
      exact ⟨trivial, fun f hf' => ex f (g.2 f hf')⟩
    · right
      have e1 := tot_change isLN h0 (.wait (.task t) .spin :: rest)
      simp only [List.map_cons, List.sum_cons, isLN] at e1
      simp only [Pool.setStk]
      omega
  | start k t s i e done rem tk rest h0 h1 h2 h3 =>
    have ex : ∀ (f : Frame), Fresh p.tasks f → Fresh (p.tasks.set t { tk with shards := tk.shards.set s (i + 1, e) }) f :=
      fun f => Fresh.ext f fun t' tk' _ => todo_set h1 (by intro h; exact h) t' tk'
    rcases hi.fr with hf | hf
    · left
      have g := hf.get h0
      refine AllF.set (hf.mono ex) ?_
      simp only [List.mem_cons, forall_eq_or_imp] at g ⊢
      exact ⟨trivial, fun f hf' => ex f (g.2 f hf')⟩
    · right
      have e1 := tot_change isLN h0 (.work t (s :: rem) done (some i) :: rest)
      simp only [List.map_cons, List.sum_cons, isLN] at e1
      simp only [Pool.setStk]
      omega
  | skip k t s i e done rem tk rest h0 h1 h2 h3 =>
    have ex : ∀ (f : Frame), Fresh p.tasks f → Fresh (p.tasks.set t { tk with shards := tk.shards.set s (i + 1, e) }) f :=
      fun f => Fresh.ext f fun t' tk' _ => todo_set h1 (by intro h; exact h) t' tk'
    rcases hi.fr with hf | hf
    · left
      have g := hf.get h0
      refine AllF.set (hf.mono ex) ?_
      simp only [List.mem_cons, forall_eq_or_imp] at g ⊢
      exact ⟨trivial, fun f hf' => ex f (g.2 f hf')⟩
    · right
      have e1 := tot_change isLN h0 (.work t rem done none :: rest)
      simp only [List.map_cons, List.sum_cons, isLN] at e1
      simp only [Pool.setStk]
      omega
  | deqStarted => exact hi.fr
  | deqFull k pos t c tk rest h0 h1 h2 h3 =>
    rcases hi.fr with hf | hf
    · left
      exact hf.mono fun f => Fresh.ext f fun t' tk' _ => todo_set h2 (by intro h; exact h) t' tk'
    · exact Or.inr hf
  | deqWork k pos t c tk rest h0 h1 h2 h3 =>
    have ex : ∀ (f : Frame), Fresh p.tasks f → Fresh (p.tasks.set t { tk with maxW := tk.maxW - 1 }) f :=
      fun f => Fresh.ext f fun t' tk' _ => todo_set h2 (by intro h; exact h) t' tk'
    rcases hi.fr with hf | hf
    · left
      have g := hf.get h0
      refine AllF.set (hf.mono ex) ?_
      simp only [List.mem_cons, forall_eq_or_imp] at g ⊢
      exact ⟨trivial, .triv (by simp), fun f hf' => ex f (g.2 f hf')⟩
    · right
      have e1 := tot_change isLN h0 (.work t (shardOrder (tk.maxW - 1) tk.shards.length) 0 none :: .wait c .working :: rest)
      simp only [List.map_cons, List.sum_cons, isLN] at e1
      simp only [Pool.setStk]
      omega
  | checkNot k t tk rest h0 h1 h2 =>
    rcases hi.fr with hf | hf
    · left
      have g := hf.get h0
      refine AllF.set hf ?_
      simp only [List.mem_cons, forall_eq_or_imp] at g ⊢
      refine ⟨?_, g.2⟩
      intro tk' h'
      have h'' : p.tasks[t]? = some tk' := h'
      rw [h1] at h''
      cases h''
      exact h2
    · right
      have e1 := tot_change isLN h0 (.wait (.task t) (.deq 0) :: rest)
      simp only [List.map_cons, List.sum_cons, isLN] at e1
      simp only [Pool.setStk]
      omega
  | _ =>
    rename p.threads[(_ : Nat)]? = some _ => h0
    rcases hi.fr with hf | hf
    · left
      have g := hf.get h0
      refine AllF.set hf ?_
      simp only [List.mem_cons, forall_eq_or_imp, List.not_mem_nil, false_implies, implies_true, and_true] at g ⊢
      first
        | exact g.2
        | exact ⟨trivial, g.2⟩
        | exact ⟨Fresh.pc g.1 (Or.inl rfl), g.2⟩
        | exact ⟨Fresh.pc g.1 (Or.inr ⟨_, rfl⟩), g.2⟩
        | exact ⟨.triv (Or.inr (Or.inl rfl)), g.2⟩
        | exact ⟨.triv (Or.inr (Or.inr (Or.inr (Or.inl rfl)))), g.2⟩
        | trivial
    · right
      have e1 := sum_le_tot isLN h0
      simp only [Pool.setStk]
      rw [tot_set_eq _ h0]
      simp only [List.map_cons, List.map_nil, List.sum_cons, List.sum_nil, isLN] at *
      omega

theorem fj_step {p q : Pool} {a : Act} (hi : FJ p) (ha : ForkJoin a) (h : step p a = some q) : FJ q := by
  have hs := step_cases h
  exact ⟨inv_step hi.inv h, mutex_step hi.mx hs, stk_step hi.stk hs, ord_step hi.ord hi.ok ha hs, ok_step hi.inv hi.stk hi.ok ha hs, qv_step hi.qv hs,
    ip_step hi.ip ha hs, un_step hi.un hi.ok ha hs, fr_step hi ha hs⟩

theorem fj_reachable {p : Pool} (h : FJReachable p) : FJ p := by
  obtain ⟨threads, sems, as, hu, h⟩ := h
  have : ∀ (as : List Act) (p q : Pool), (∀ a ∈ as, ForkJoin a) → FJ p → run p as = some q → FJ q := by
    intro as
    induction as with
    | nil => intro p q _ hi h; simp [run] at h; subst h; exact hi
    | cons a as ih =>
      intro p q hu hi h
      rw [run] at h
      split at h
      · rename_i p' hp
        exact ih p' q (fun a ha => hu a (by simp [ha])) (fj_step hi (hu a (by simp)) hp) h
      · cases h
  have t0 : ∀ g, tot g (Pool.initial threads sems).threads = 0 := by intro g; simp [tot, Pool.initial]
  have s0 : ∀ stk ∈ (Pool.initial threads sems).threads, stk = [] := fun s hs => List.eq_of_mem_replicate hs
  refine this as _ p hu ⟨inv_initial _ _, by unfold MutexInv; rw [t0]; rfl, ?_, ?_, ?_, ?_, ?_, ?_, Or.inl ?_⟩ h
  · intro s hs; rw [s0 s hs]; exact .nil
  · intro s hs; rw [s0 s hs]; exact List.Pairwise.nil
  · intro s hs; rw [s0 s hs]; simp
  · simp [Pool.initial]
  · simp [Pool.initial]
  · intro t; rw [t0]; omega
  · intro s hs; rw [s0 s hs]; simp

/-- No thread can take an internal step. -/
def Stuck (p : Pool) : Prop := ∀ a : Act, a.internal = true → step p a = none

/-- In a stuck state every thread is outside of the pool, in user code in no task, or asleep. -/
theorem stuck_tops {p : Pool} (hi : FJ p) (hs : Stuck p) {k : Nat} {stk : List Frame} (hk : p.threads[k]? = some stk) :
    stk = [] ∨ ∃ c rest, stk = .wait c .asleep :: rest := by
  have S := hi.stk.get hk
  have O := hi.ok.get hk
  -- the mutex is free
  have hcs : ∀ (k' : Nat) (c : Cond) (pc : WPC) (rest' : List Frame), p.threads[k']? = some (.wait c pc :: rest') → inCS (.wait c pc) = 0 := by
    intro k' c pc rest' hk'
    have O' := hi.ok.get hk' (.wait c pc) (by simp)
    cases pc with
    | check =>
      exfalso
      have := hs (.check k') rfl
      cases c with
      | task t =>
        obtain ⟨tk, h1, _⟩ := O'
        simp only [step, hk', h1] at this
        split at this <;> cases this
      | sems => exact O'
      | stop =>
        simp only [step, hk'] at this
        split at this <;> cases this
    | deq pos =>
      exfalso
      have := hs (.dequeue k') rfl
      simp only [step, hk'] at this
      split at this
      · cases this
      · rename_i t hq
        have hl := hi.qv t (List.mem_of_getElem? hq)
        have h1 : p.tasks[t]? = some p.tasks[t] := List.getElem?_eq_getElem hl
        rw [h1] at this
        simp only at this
        split at this
        · cases this
        · split at this
          · cases this
          · split at this <;> cases this
    | nap =>
      exfalso
      have := hs (.sleep k') rfl
      simp only [step, hk'] at this
      cases this
    | _ => rfl
  have hl : p.locked = false := by
    by_contra hl
    have hl : p.locked = true := by simpa using hl
    have hm := hi.mx
    unfold MutexInv at hm
    rw [hl] at hm
    obtain ⟨stk', h1, f, h2, h3⟩ := (tot_pos_iff inCS p.threads).1 (by rw [hm]; decide)
    obtain ⟨k', h4⟩ := List.getElem?_of_mem h1
    have : ∀ {s : List Frame}, Stk s → ∀ f ∈ s, 0 < inCS f → ∃ c pc rest, s = .wait c pc :: rest ∧ f = .wait c pc := by
      have low : ∀ {s : List Frame}, Stk s → (∀ f ∈ s, 0 < inCS f → ∃ c pc rest, s = .wait c pc :: rest ∧ f = .wait c pc) := by
        intro s hs
        induction hs with
        | nil => simp
        | wait c pc rest h1 h2 h3 ih =>
          intro f hf hpos
          rcases List.mem_cons.1 hf with rfl | hf
          · exact ⟨_, _, _, rfl, rfl⟩
          · obtain ⟨c', pc', rest', e, _⟩ := ih f hf hpos
            subst e
            simp [userCode] at h2
        | direct t rem done run rest h ih =>
          intro f hf hpos
          rcases List.mem_cons.1 hf with rfl | hf
          · simp [inCS] at hpos
          · rcases List.mem_cons.1 hf with rfl | hf
            · simp [inCS] at hpos
            · obtain ⟨c', pc', rest', e, e'⟩ := ih f (by simp [hf]) hpos
              simp only [List.cons.injEq, Frame.wait.injEq] at e
              obtain ⟨⟨rfl, rfl⟩, rfl⟩ := e
              subst e'
              simp [inCS] at hpos
        | working t rem done run c rest h ih =>
          intro f hf hpos
          rcases List.mem_cons.1 hf with rfl | hf
          · simp [inCS] at hpos
          · rcases List.mem_cons.1 hf with rfl | hf
            · simp [inCS] at hpos
            · obtain ⟨c', pc', rest', e, e'⟩ := ih f (by simp [hf]) hpos
              simp only [List.cons.injEq, Frame.wait.injEq] at e
              obtain ⟨⟨rfl, rfl⟩, rfl⟩ := e
              subst e'
              simp [inCS] at hpos
      intro s hs; exact low hs
    obtain ⟨c, pc, rest, rfl, rfl⟩ := this (hi.stk stk' h1) f h2 h3
    have := hcs k' c pc rest h4
    omega
  cases S with
  | nil => exact Or.inl rfl
  | wait c pc rest h1 h2 h3 =>
    right
    cases pc with
    | asleep => exact ⟨c, rest, rfl⟩
    | entry =>
      exfalso
      have O' := O (.wait c .entry) (by simp)
      have := hs (.enter k) rfl
      cases c with
      | task t =>
        obtain ⟨tk, h1, _⟩ := O'
        simp only [step, hk, h1] at this
        split at this <;> cases this
      | sems => exact O'
      | stop => exact absurd rfl O'.1
    | direct => exact h1.elim
    | working => exact h1.elim
    | spin =>
      exfalso
      have O' := O (.wait c .spin) (by simp)
      have := hs (.spinEnd k) rfl
      cases c with
      | task t =>
        simp only [step, hk] at this
        cases this
      | sems => exact O'
      | stop => exact absurd rfl O'.2
    | lock =>
      exfalso
      have := hs (.lock k) rfl
      simp only [step, hl, hk, Bool.false_eq_true, if_false] at this
      cases this
    | lockNotify =>
      exfalso
      have := hs (.lock k) rfl
      simp only [step, hl, hk, Bool.false_eq_true, if_false] at this
      cases this
    | check => have := hcs k _ _ _ hk; simp [inCS] at this
    | deq pos => have := hcs k _ _ _ hk; simp [inCS] at this
    | nap => have := hcs k _ _ _ hk; simp [inCS] at this
  | direct t rem done run rest h =>
    exfalso
    obtain ⟨tk, h1, h2⟩ := O (.work t rem done run) (by simp)
    cases run with
    | some i =>
      have := hs (.ret k) rfl
      simp only [step, hk] at this
      cases this
    | none =>
      cases rem with
      | cons s rem =>
        have := hs (.fetch k) rfl
        have h3 := h2 s (by simp)
        have h4 : tk.shards[s]? = some tk.shards[s] := List.getElem?_eq_getElem h3
        simp only [step, hk, h1, h4] at this
        split at this <;> cases this
      | nil =>
        have := hs (.finish k) rfl
        simp only [step, hk, h1] at this
        split at this <;> split at this <;> cases this
  | working t rem done run c rest h =>
    exfalso
    obtain ⟨tk, h1, h2⟩ := O (.work t rem done run) (by simp)
    cases run with
    | some i =>
      have := hs (.ret k) rfl
      simp only [step, hk] at this
      cases this
    | none =>
      cases rem with
      | cons s rem =>
        have := hs (.fetch k) rfl
        have h3 := h2 s (by simp)
        have h4 : tk.shards[s]? = some tk.shards[s] := List.getElem?_eq_getElem h3
        simp only [step, hk, h1, h4] at this
        split at this <;> cases this
      | nil =>
        have := hs (.finish k) rfl
        simp only [step, hk, h1] at this
        cases this

/-- The work frames of a stack that ends a chain of waits. -/
theorem no_waits_of_stuck {p : Pool} (hi : FJ p) (hs : Stuck p) : ∀ (d t : Nat), p.tasks.length - t ≤ d → tot (isWaitT t) p.threads = 0 := by
  have tops := fun {k : Nat} {stk : List Frame} (hk : p.threads[k]? = some stk) => stuck_tops hi hs hk
  -- nobody is about to notify
  have noLN : tot isLN p.threads = 0 := by
    by_contra hne
    obtain ⟨stk, h1, f, h2, h3⟩ := (tot_pos_iff isLN p.threads).1 (by omega)
    have low : ∀ {s : List Frame}, Stk s → ∀ f ∈ s, 0 < isLN f → ∃ c rest, s = .wait c .lockNotify :: rest := by
      intro s hs
      induction hs with
      | nil => simp
      | wait c pc rest h1 h2 h3 ih =>
        intro f hf hpos
        rcases List.mem_cons.1 hf with rfl | hf
        · cases pc <;> first | (exact ⟨c, rest, rfl⟩) | (simp [isLN] at hpos)
        · obtain ⟨c', rest', e⟩ := ih f hf hpos
          subst e
          simp [userCode] at h2
      | direct t rem done run rest h ih =>
        intro f hf hpos
        rcases List.mem_cons.1 hf with rfl | hf
        · simp [isLN] at hpos
        · rcases List.mem_cons.1 hf with rfl | hf
          · simp [isLN] at hpos
          · obtain ⟨c', rest', e⟩ := ih f (by simp [hf]) hpos
            simp at e
      | working t rem done run c rest h ih =>
        intro f hf hpos
        rcases List.mem_cons.1 hf with rfl | hf
        · simp [isLN] at hpos
        · rcases List.mem_cons.1 hf with rfl | hf
          · simp [isLN] at hpos
          · obtain ⟨c', rest', e⟩ := ih f (by simp [hf]) hpos
            simp at e
    obtain ⟨c, rest, rfl⟩ := low (hi.stk stk h1) f h2 h3
    obtain ⟨k, hk⟩ := List.getElem?_of_mem h1
    rcases tops hk with h | ⟨_, _, h⟩ <;> simp at h
  have fresh : AllF (Fresh p.tasks) p.threads := by
    rcases hi.fr with h | h
    · exact h
    · omega
  intro d
  induction d with
  | zero =>
    intro t ht
    rw [tot_zero_iff]
    refine hi.ok.mono ?_
    intro f hf
    cases f with
    | work => rfl
    | wait c pc =>
      cases c with
      | task t' =>
        obtain ⟨tk, h2, _⟩ := hf
        have := lt_of_get h2
        simp only [isWaitT]
        rw [if_neg (by omega)]
      | _ => rfl
  | succ d ih =>
    intro t ht
    by_contra hne
    obtain ⟨stk, h1, f, h2, h3⟩ := (tot_pos_iff (isWaitT t) p.threads).1 (by omega)
    obtain ⟨k, hk⟩ := List.getElem?_of_mem h1
    -- the frame at the top is a wait for `t` or for a newer task
    obtain ⟨pc, rfl⟩ : ∃ pc, f = .wait (.task t) pc := by
      cases f with
      | work => simp [isWaitT] at h3
      | wait c pc =>
        cases c with
        | task t' =>
          simp only [isWaitT] at h3
          split at h3
          · rename_i e; subst e; exact ⟨pc, rfl⟩
          · omega
        | _ => simp [isWaitT] at h3
    -- every work frame for a task is below an asleep wait for a newer task
    have key : ∀ u, t ≤ u → 0 < tot (isWork u) p.threads → False := by
      intro u hu hw
      obtain ⟨stk', g1, g, g2, g3⟩ := (tot_pos_iff (isWork u) p.threads).1 hw
      obtain ⟨k', hk'⟩ := List.getElem?_of_mem g1
      obtain ⟨rem, done, run, rfl⟩ : ∃ rem done run, g = .work u rem done run := by
        cases g with
        | wait => simp [isWork] at g3
        | work u' rem done run =>
          simp only [isWork] at g3
          split at g3
          · rename_i e; subst e; exact ⟨_, _, _, rfl⟩
          · omega
      rcases tops hk' with rfl | ⟨c, rest, rfl⟩
      · simp at g2
      · rcases List.mem_cons.1 g2 with h | g2
        · cases h
        · have := (List.pairwise_cons.1 (hi.ord _ g1)).1 _ g2 c .asleep u rfl rfl
          obtain ⟨t', rfl, hlt⟩ := this
          have h0 := ih t' (by omega)
          have h5 := sum_le_tot (isWaitT t') hk'
          simp only [List.map_cons, List.sum_cons, isWaitT, if_true] at h5
          omega
    -- the wait for `t` is asleep: otherwise it is below a work frame of the same thread
    rcases tops hk with rfl | ⟨c, rest, rfl⟩
    · simp at h2
    · have hstk := hi.stk _ h1
      by_cases hc : c = .task t
      · subst hc
        have F := fresh _ h1 (.wait (.task t) .asleep) (by simp)
        obtain ⟨tk, h4, h5⟩ := hi.ok _ h1 (.wait (.task t) .asleep) (by simp)
        have h6 := F tk h4
        have h7 := hi.inv.sum t tk h4
        have h8 := hi.inv.en t tk h4 (hi.ip t tk h4) (h5 (by simp))
        apply key t (le_refl _)
        rcases h8 with h8 | h8
        · have h9 : 0 < tot (contrib t) p.threads := by omega
          obtain ⟨s', a1, g, a2, a3⟩ := (tot_pos_iff _ _).1 h9
          refine (tot_pos_iff _ _).2 ⟨s', a1, g, a2, ?_⟩
          cases g with
          | wait => simp [contrib] at a3
          | work u rem done run =>
            simp only [contrib] at a3
            simp only [isWork]
            split at a3
            · rename_i e; rw [if_pos e]; omega
            · omega
        · exact h8
      · rcases List.mem_cons.1 h2 with h | h2
        · cases h; exact hc rfl
        · have := (List.pairwise_cons.1 (hi.ord _ h1)).1 _ h2 c .asleep t rfl rfl
          obtain ⟨t', rfl, hlt⟩ := this
          have h0 := ih t' (by omega)
          have h5 := sum_le_tot (isWaitT t') hk
          simp only [List.map_cons, List.sum_cons, isWaitT, if_true] at h5
          omega

/-- **C29.** No deadlock: if no thread can take a step of its own, then no `parallel_for` is left that has not returned. Every thread
is outside of the pool, or a worker that sleeps. -/
theorem no_deadlock {p : Pool} (h : FJReachable p) (hs : Stuck p) : ∀ stk ∈ p.threads, stk = [] ∨ stk = [.wait .stop .asleep] := by
  intro stk hm
  have hi := fj_reachable h
  obtain ⟨k, hk⟩ := List.getElem?_of_mem hm
  have nw := fun t => no_waits_of_stuck hi hs (p.tasks.length - t) t (le_refl _)
  rcases stuck_tops hi hs hk with rfl | ⟨c, rest, rfl⟩
  · exact Or.inl rfl
  · right
    cases c with
    | task t =>
      have h5 := sum_le_tot (isWaitT t) hk
      simp only [List.map_cons, List.sum_cons, isWaitT, if_true] at h5
      have := nw t
      omega
    | sems l => exact (hi.ok _ hm (.wait (.sems l) .asleep) (by simp)).elim
    | stop =>
      have hst := (hi.stk _ hm).pop
      rcases userCode_cases hst.2 with rfl | ⟨t, rem, done, i, rest', rfl⟩
      · rfl
      · obtain ⟨_, h1, _⟩ := (List.pairwise_cons.1 (hi.ord _ hm)).1 (.work t rem done (some i)) (by simp) .stop .asleep t rfl rfl
        cases h1

/-- **C29.** A sleeping `parallel_for` waits for a task that is not done, or some thread is about to wake it up. -/
theorem no_lost_wakeup {p : Pool} (h : FJReachable p) (stk : List Frame) (hs : stk ∈ p.threads) (t : Nat) (hf : Frame.wait (.task t) .asleep ∈ stk) :
    (∀ tk : Task, p.tasks[t]? = some tk → tk.todo ≠ 0) ∨ 0 < tot isLN p.threads := by
  rcases (fj_reachable h).fr with h1 | h1
  · exact Or.inl (h1 stk hs _ hf)
  · exact Or.inr h1

/-- **C29.** Every `parallel_for` can return: from any state that such a program reaches, however the threads are scheduled, after
finitely many steps (without new calls, spurious wakeups and yields) no thread can move, and then every `parallel_for` has
returned. Stated as: there is such a schedule, and by `no_infinite_internal_run` every schedule ends, by `no_deadlock` always in
such a state. -/
theorem parallel_for_completes {p : Pool} (h : FJReachable p) :
    ∃ (as : List Act) (q : Pool), (∀ a ∈ as, a.internal = true) ∧ run p as = some q ∧ ∀ stk ∈ q.threads, stk = [] ∨ stk = [.wait .stop .asleep] := by
  induction p using dec_wf.induction with
  | _ p ih =>
    by_cases hs : Stuck p
    · exact ⟨[], p, by simp, rfl, no_deadlock h hs⟩
    · unfold Stuck at hs
      push Not at hs
      obtain ⟨a, ha, hne⟩ := hs
      obtain ⟨q, hq⟩ := Option.ne_none_iff_exists'.1 hne
      have hfj : ForkJoin a := by cases a <;> first | trivial | (simp [Act.internal] at ha)
      have hr : FJReachable q := by
        obtain ⟨threads, sems, as, hu, hrun⟩ := h
        refine ⟨threads, sems, as ++ [a], ?_, ?_⟩
        · intro b hb
          rcases List.mem_append.1 hb with hb | hb
          · exact hu b hb
          · rw [List.mem_singleton.1 hb]; exact hfj
        · have : ∀ (as : List Act) (p0 : Pool), run p0 as = some p → run p0 (as ++ [a]) = some q := by
            intro as
            induction as with
            | nil => intro p0 h; simp [run] at h; subst h; simp [run, hq]
            | cons b as ih =>
              intro p0 h
              rw [run] at h
              rw [List.cons_append, run]
              split at h
              · exact ih _ h
              · cases h
          exact this as _ hrun
      obtain ⟨as, r, h1, h2, h3⟩ := ih q (dec_step (fj_reachable h).inv ha (step_cases hq)) hr
      refine ⟨a :: as, r, ?_, ?_, h3⟩
      · intro b hb
        rcases List.mem_cons.1 hb with rfl | hb
        · exact ha
        · exact h1 b hb
      · rw [run, hq]; exact h2

end Slinky.TP
