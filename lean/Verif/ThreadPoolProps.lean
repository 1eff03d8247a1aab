import Verif.ThreadPoolInv

/-!
# C27 and C28: every iteration runs exactly once, and a task is done only when all bodies returned
-/

namespace Slinky.TP

/-- The states that can be reached, from a pool without tasks. -/
def Reachable (p : Pool) : Prop := ∃ threads sems as, run (Pool.initial threads sems) as = some p

/-! ## Counting work frames -/

/-- The iterations of task `t` that a frame has started and not yet subtracted from `todo`. -/
def contrib (t : Nat) : Frame → Nat
  | .work t' _ done run => if t' = t then done + (if run.isSome then 1 else 0) else 0
  | .wait _ _ => 0

/-- Is the frame running iteration `i` of task `t`? -/
def isRun (t i : Nat) : Frame → Nat
  | .work t' _ _ (some j) => if t' = t ∧ j = i then 1 else 0
  | _ => 0

/-- Is the frame working on task `t`? -/
def isWork (t : Nat) : Frame → Nat
  | .work t' _ _ _ => if t' = t then 1 else 0
  | .wait _ _ => 0

/-- Is the frame working on task `t`, and done with shard `s`? -/
def notIn (t s : Nat) : Frame → Nat
  | .work t' rem _ _ => if t' = t ∧ s ∉ rem then 1 else 0
  | .wait _ _ => 0

/-- Is the frame working on a task with a number from `m`? -/
def bad (m : Nat) : Frame → Nat
  | .work t' _ _ _ => if m ≤ t' then 1 else 0
  | .wait _ _ => 0

theorem contrib_wo (t) : WorkOnly (contrib t) := fun _ _ => rfl
theorem isRun_wo (t i) : WorkOnly (isRun t i) := fun _ _ => rfl
theorem isWork_wo (t) : WorkOnly (isWork t) := fun _ _ => rfl
theorem notIn_wo (t s) : WorkOnly (notIn t s) := fun _ _ => rfl
theorem bad_wo (m) : WorkOnly (bad m) := fun _ _ => rfl

/-- The iterations of a task that no worker has started. -/
def Task.left (tk : Task) : Nat := (tk.shards.map fun s => s.2 - s.1).sum

/-- Iteration `i` was started. -/
def Task.begun (tk : Task) (i : Nat) : Prop :=
  ∃ s c e, tk.shards[s]? = some (c, e) ∧ s * tk.n / tk.shards.length ≤ i ∧ i < c ∧ i < e

open Classical in
/-- The invariant. -/
structure Inv (p : Pool) : Prop where
  shape : ∀ (t : Nat) (tk : Task), p.tasks[t]? = some tk → 0 < tk.n ∧ 0 < tk.shards.length ∧ 0 ≤ tk.init ∧
    ∀ s i e : Nat, tk.shards[s]? = some (i, e) → e = (s + 1) * tk.n / tk.shards.length ∧ s * tk.n / tk.shards.length ≤ i
  sum : ∀ (t : Nat) (tk : Task), p.tasks[t]? = some tk → tk.todo = (tot (contrib t) p.threads : Int) + (tk.left : Int)
  st : ∀ t i : Nat, p.started.count (t, i) = if ∃ tk : Task, p.tasks[t]? = some tk ∧ tk.begun i then 1 else 0
  rt : ∀ t i : Nat, p.returned.count (t, i) + tot (isRun t i) p.threads = p.started.count (t, i)
  cp : ∀ t : Nat, p.completed.count t = if ∃ tk : Task, p.tasks[t]? = some tk ∧ tk.todo = 0 then 1 else 0
  wk : ∀ (t : Nat) (tk : Task), p.tasks[t]? = some tk → (tot (isWork t) p.threads : Int) + max tk.maxW 0 ≤ tk.init
  valid : tot (bad p.tasks.length) p.threads = 0
  ex : ∀ (t : Nat) (tk : Task) (s i e : Nat), p.tasks[t]? = some tk → tk.shards[s]? = some (i, e) → i < e → tot (notIn t s) p.threads = 0
  en : ∀ (t : Nat) (tk : Task), p.tasks[t]? = some tk → 0 < tk.init → tk.maxW < tk.init → tk.left = 0 ∨ 0 < tot (isWork t) p.threads
  le : ∀ (t : Nat) (tk : Task), p.tasks[t]? = some tk → tk.maxW ≤ tk.init

theorem sum_set (f : Nat × Nat → Nat) : ∀ (l : List (Nat × Nat)) (s : Nat) (x y : Nat × Nat), l[s]? = some x →
    ((l.set s y).map f).sum + f x = (l.map f).sum + f y
  | [], _, _, _, h => by simp at h
  | a :: l, 0, x, y, h => by simp at h; subst h; simp; omega
  | a :: l, s + 1, x, y, h => by
    have := sum_set f l s x y (by simpa using h)
    simp at *; omega

theorem tot_mono {g g' : Frame → Nat} (h : ∀ f, g f ≤ g' f) (ths : List (List Frame)) : tot g ths ≤ tot g' ths := by
  unfold tot
  apply List.sum_le_sum
  intro st _
  apply List.sum_le_sum
  intro f _
  exact h f

theorem mem_shardOrder (w : Int) (count s : Nat) (h : s < count) : s ∈ shardOrder w count := by
  unfold shardOrder
  simp only [List.mem_append, List.mem_range', List.mem_range]
  have := Nat.mod_lt w.toNat (show count > 0 by omega)
  by_cases hs : s < w.toNat % count
  · exact Or.inr hs
  · left; exact ⟨s - w.toNat % count, by omega, by omega⟩

theorem mkShards_getElem (count n s i e : Nat) (h : (mkShards count n)[s]? = some (i, e)) :
    s < count ∧ i = s * n / count ∧ e = (s + 1) * n / count := by
  unfold mkShards at h
  rw [List.getElem?_map] at h
  by_cases hs : s < count
  · rw [List.getElem?_range hs] at h
    simp at h
    exact ⟨hs, h.1.symm, h.2.symm⟩
  · rw [List.getElem?_eq_none (by simp; omega)] at h
    simp at h

theorem mkShards_length (count n : Nat) : (mkShards count n).length = count := by simp [mkShards]

theorem mkShards_left (count n : Nat) (hc : 0 < count) : ((mkShards count n).map fun s => s.2 - s.1).sum = n := by
  have : ∀ m, m ≤ count → ((List.range m).map fun i => (i + 1) * n / count - i * n / count).sum = m * n / count := by
    intro m
    induction m with
    | zero => simp
    | succ m ih =>
      intro hm
      rw [List.range_succ, List.map_append, List.sum_append, ih (by omega)]
      have h1 : m * n / count ≤ (m + 1) * n / count := Nat.div_le_div_right (Nat.mul_le_mul_right _ (by omega))
      simp; omega
  have h := this count le_rfl
  rw [Nat.mul_div_cancel_left _ hc] at h
  simpa [mkShards, Function.comp_def] using h

theorem mkTask_count (n : Nat) (mw : Int) (hn : 0 < n) : 0 < (mkTask n mw).shards.length := by
  unfold mkTask
  simp only [mkShards_length, decide_eq_true_eq, intMax]
  by_cases h : mw < 2 ^ 31 - 1
  · simp only [h, decide_true, if_true]; omega
  · simp only [h, decide_false, Bool.false_eq_true, if_false, if_neg (show ¬ mw < 0 by omega)]
    omega

theorem div_disjoint {n len s s' i : Nat} (h1 : s * n / len ≤ i) (h2 : i < (s + 1) * n / len) (h1' : s' * n / len ≤ i)
    (h2' : i < (s' + 1) * n / len) : s = s' := by
  rcases lt_trichotomy s s' with h | h | h
  · have : (s + 1) * n / len ≤ s' * n / len := Nat.div_le_div_right (Nat.mul_le_mul_right _ h)
    omega
  · exact h
  · have : (s' + 1) * n / len ≤ s * n / len := Nat.div_le_div_right (Nat.mul_le_mul_right _ h)
    omega

theorem div_cover {n len i : Nat} (hl : 0 < len) (hi : i < n) : ∃ s < len, s * n / len ≤ i ∧ i < (s + 1) * n / len := by
  have ex : ∃ s, i < (s + 1) * n / len := ⟨len - 1, by
    rw [show len - 1 + 1 = len by omega, Nat.mul_div_cancel_left _ hl]; exact hi⟩
  refine ⟨Nat.find ex, ?_, ?_, Nat.find_spec ex⟩
  · have := Nat.find_min' ex (m := len - 1) (by rw [show len - 1 + 1 = len by omega, Nat.mul_div_cancel_left _ hl]; exact hi)
    omega
  · by_cases h0 : Nat.find ex = 0
    · rw [h0]; simp
    · have := Nat.find_min ex (m := Nat.find ex - 1) (by omega)
      rw [show Nat.find ex - 1 + 1 = Nat.find ex by omega] at this
      omega

theorem inv_initial (threads : Nat) (sems : Nat → Int) : Inv (Pool.initial threads sems) := by
  have t0 : ∀ g, tot g (Pool.initial threads sems).threads = 0 := by
    intro g; simp [tot, Pool.initial]
  constructor <;> simp [t0, Pool.initial] <;> simp [Pool.initial] at t0 <;> simp [t0]

theorem get_append {α} {l : List α} {x y : α} {t : Nat} (h : (l ++ [x])[t]? = some y) :
    l[t]? = some y ∨ (t = l.length ∧ y = x) := by
  rcases lt_trichotomy t l.length with h' | h' | h'
  · rw [List.getElem?_append_left h'] at h; exact Or.inl h
  · subst h'; simp at h; exact Or.inr ⟨rfl, h.symm⟩
  · rw [List.getElem?_eq_none (by simp; omega)] at h; cases h

theorem get_set {α} {l : List α} {x y z : α} {t t' : Nat} (hx : l[t]? = some x) (h : (l.set t z)[t']? = some y) :
    (t' = t ∧ y = z) ∨ (t' ≠ t ∧ l[t']? = some y) := by
  rw [List.getElem?_set] at h
  split at h
  · rename_i he
    subst he
    split at h
    · left; simp at h; exact ⟨rfl, h.symm⟩
    · cases h
  · rename_i he
    exact Or.inr ⟨fun h => he h.symm, h⟩

theorem get_set_eq {α} {l : List α} {x z : α} {t : Nat} (hx : l[t]? = some x) : (l.set t z)[t]? = some z := by
  have : t < l.length := by
    by_contra hh; rw [List.getElem?_eq_none (by omega)] at hx; cases hx
  simp [List.getElem?_set, this]

theorem get_set_ne {α} {l : List α} {z : α} {t t' : Nat} (h : t' ≠ t) : (l.set t z)[t']? = l[t']? := by
  rw [List.getElem?_set, if_neg (fun e => h e.symm)]

theorem begun_congr {tk tk' : Task} (h : tk'.shards = tk.shards) (hn : tk'.n = tk.n) (i : Nat) : tk'.begun i ↔ tk.begun i := by
  unfold Task.begun; rw [h, hn]

theorem ex_set {tasks : List Task} {t : Nat} {tk tk' : Task} (h : tasks[t]? = some tk) (P : Task → Prop) (t' : Nat)
    (hP : P tk' ↔ P tk) : (∃ x : Task, (tasks.set t tk')[t']? = some x ∧ P x) ↔ (∃ x : Task, tasks[t']? = some x ∧ P x) := by
  by_cases he : t' = t
  · subst he
    rw [get_set_eq h, h]
    simp [hP]
  · rw [get_set_ne he]

theorem bad_step {m : Nat} {ths : List (List Frame)} (h : tot (bad m) ths = 0) {f : Frame} (hf : tot (fun x => if x = f then 1 else 0) ths ≠ 0) :
    bad m f = 0 := by
  have : 0 < tot (fun x => if x = f then 1 else 0) ths := by omega
  rw [tot_pos_iff] at this
  obtain ⟨stk, hs, x, hx, hx'⟩ := this
  have hxf : x = f := by by_contra hh; simp [hh] at hx'
  subst hxf
  by_contra hb
  have : 0 < tot (bad m) ths := (tot_pos_iff _ _).2 ⟨stk, hs, x, hx, by omega⟩
  omega

theorem tot_le_of {g g' : Frame → Nat} {ths} (h : tot g' ths = 0) (hle : ∀ f, g f ≤ g' f) : tot g ths = 0 := by
  have := tot_mono hle ths; omega

/-- A new task. -/
theorem inv_new {p q : Pool} (hi : Inv p) {n : Nat} {mw : Int} (hn : 0 < n) (ht : q.tasks = p.tasks ++ [mkTask n mw])
    (hs : q.started = p.started) (hr : q.returned = p.returned) (hc : q.completed = p.completed)
    (hf : ∀ g, WorkOnly g → tot g q.threads = tot g p.threads) : Inv q := by
  have hcnt := mkTask_count n mw hn
  have h0 : ∀ g, (∀ f, g f ≤ bad p.tasks.length f) → WorkOnly g → tot g q.threads = 0 := by
    intro g hle hg; rw [hf g hg]; exact tot_le_of hi.valid hle
  have hc0 : ∀ f, contrib p.tasks.length f = 0 ∨ 0 < bad p.tasks.length f := by
    intro f; cases f <;> simp [contrib, bad]
    rename_i t rem d r
    by_cases h : t = p.tasks.length <;> simp [h]
  have hc1 : tot (contrib p.tasks.length) q.threads = 0 := by
    rw [hf _ (contrib_wo _)]
    by_contra hh
    obtain ⟨stk, h1, f, h2, h3⟩ := (tot_pos_iff (contrib p.tasks.length) p.threads).1 (by omega)
    rcases hc0 f with h | h
    · omega
    · have := (tot_pos_iff _ _).2 ⟨stk, h1, f, h2, h⟩
      have := hi.valid
      omega
  have nb : ∀ i, ¬ (mkTask n mw).begun i := by
    rintro i ⟨s, c, e, h1, h2, h3, _⟩
    simp only [mkTask] at h1 h2
    obtain ⟨a, b, c⟩ := mkShards_getElem _ _ _ _ _ h1
    rw [mkShards_length] at h2
    omega
  have hleft : (mkTask n mw).left = n := by
    have := mkTask_count n mw hn
    unfold Task.left
    simp only [mkTask] at this ⊢
    rw [mkShards_length] at this
    exact mkShards_left _ _ this
  have hinit : 0 ≤ (mkTask n mw).init := by
    simp only [mkTask]; split <;> omega
  have exn : ∀ (P : Task → Prop) (t : Nat), ¬ P (mkTask n mw) →
      ((∃ x : Task, q.tasks[t]? = some x ∧ P x) ↔ (∃ x : Task, p.tasks[t]? = some x ∧ P x)) := by
    intro P t hP
    rw [ht]
    constructor
    · rintro ⟨x, h, hx⟩
      rcases get_append h with h | ⟨_, rfl⟩
      · exact ⟨x, h, hx⟩
      · exact absurd hx hP
    · rintro ⟨x, h, hx⟩
      refine ⟨x, ?_, hx⟩
      rw [List.getElem?_append_left]
      · exact h
      · by_contra hh; rw [List.getElem?_eq_none (by omega)] at h; cases h
  constructor
  · intro t tk h
    rw [ht] at h
    rcases get_append h with h | ⟨rfl, rfl⟩
    · exact hi.shape t tk h
    · refine ⟨hn, hcnt, hinit, ?_⟩
      intro s i e hse
      simp only [mkTask] at hse ⊢
      obtain ⟨a, b, c⟩ := mkShards_getElem _ _ _ _ _ hse
      rw [mkShards_length]
      exact ⟨c, by omega⟩
  · intro t tk h
    rw [ht] at h
    rcases get_append h with h | ⟨rfl, rfl⟩
    · rw [hf _ (contrib_wo _)]; exact hi.sum t tk h
    · rw [hc1, hleft]; simp [mkTask]
  · intro t i
    rw [hs, hi.st]
    congr 1
    exact (propext (exn (fun x => x.begun i) t (nb i))).symm
  · intro t i; rw [hr, hs, hf _ (isRun_wo _ _)]; exact hi.rt t i
  · intro t
    rw [hc, hi.cp]
    congr 1
    exact (propext (exn (fun x => x.todo = 0) t (by simp [mkTask]; omega))).symm
  · intro t tk h
    rw [ht] at h
    rcases get_append h with h | ⟨rfl, rfl⟩
    · rw [hf _ (isWork_wo _)]; exact hi.wk t tk h
    · rw [h0 _ (by intro f; cases f <;> simp [isWork, bad]; split <;> simp_all) (isWork_wo _)]
      simp only [mkTask] at hinit ⊢; omega
  · rw [ht]
    rw [hf _ (bad_wo _)]
    refine tot_le_of hi.valid ?_
    intro f; cases f <;> simp [bad]
    rename_i t _ _ _
    by_cases h : p.tasks.length + 1 ≤ t
    · simp [h, show p.tasks.length ≤ t by omega]
    · simp [h]
  · intro t tk s i e h h1 h2
    rw [ht] at h
    rw [hf _ (notIn_wo _ _)]
    rcases get_append h with h | ⟨rfl, rfl⟩
    · exact hi.ex t tk s i e h h1 h2
    · refine tot_le_of hi.valid ?_
      intro f; cases f <;> simp [bad, notIn]
      rename_i t rem _ _
      by_cases h : t = p.tasks.length <;> simp [h]
      split <;> omega
  · intro t tk h
    rw [ht] at h
    rcases get_append h with h | ⟨rfl, rfl⟩
    · rw [hf _ (isWork_wo _)]; exact hi.en t tk h
    · intro _ h; simp [mkTask] at h
  · intro t tk h
    rw [ht] at h
    rcases get_append h with h | ⟨rfl, rfl⟩
    · exact hi.le t tk h
    · simp [mkTask]

theorem inv_none {p q : Pool} (hi : Inv p) (ht : q.tasks = p.tasks) (hs : q.started = p.started) (hr : q.returned = p.returned)
    (hc : q.completed = p.completed) (hf : ∀ g, WorkOnly g → tot g q.threads = tot g p.threads) : Inv q := by
  constructor
  · rw [ht]; exact hi.shape
  · rw [ht]; intro t tk h; rw [hf _ (contrib_wo _)]; exact hi.sum t tk h
  · rw [ht, hs]; exact hi.st
  · rw [hs, hr]; intro t i; rw [hf _ (isRun_wo _ _)]; exact hi.rt t i
  · rw [ht, hc]; exact hi.cp
  · rw [ht]; intro t tk h; rw [hf _ (isWork_wo _)]; exact hi.wk t tk h
  · rw [ht, hf _ (bad_wo _)]; exact hi.valid
  · rw [ht]; intro t tk s i e h; rw [hf _ (notIn_wo _ _)]; exact hi.ex t tk s i e h
  · rw [ht]; intro t tk h; rw [hf _ (isWork_wo _)]; exact hi.en t tk h
  · rw [ht]; exact hi.le

theorem inv_alloc {p q : Pool} (hi : Inv p) {t : Nat} {tk : Task} (h : p.tasks[t]? = some tk)
    (ht : q.tasks = p.tasks.set t { tk with maxW := tk.maxW - 1 })
    (hs : q.started = p.started) (hr : q.returned = p.returned) (hc : q.completed = p.completed)
    (hf : ∀ g, WorkOnly g → tot g q.threads = tot g p.threads +
      if 0 ≤ tk.maxW - 1 then g (.work t (shardOrder (tk.maxW - 1) tk.shards.length) 0 none) else 0) : Inv q := by
  have htl : t < p.tasks.length := by
    by_contra hh; rw [List.getElem?_eq_none (by omega)] at h; cases h
  have z : ∀ g, WorkOnly g → g (.work t (shardOrder (tk.maxW - 1) tk.shards.length) 0 none) = 0 → tot g q.threads = tot g p.threads := by
    intro g hg h0; rw [hf g hg, h0]; simp
  constructor
  · intro t' tk' h'
    rw [ht] at h'
    rcases get_set h h' with ⟨rfl, rfl⟩ | ⟨_, h'⟩
    · exact hi.shape t' tk h
    · exact hi.shape t' tk' h'
  · intro t' tk' h'
    rw [z _ (contrib_wo _) (by simp [contrib])]
    rw [ht] at h'
    rcases get_set h h' with ⟨rfl, rfl⟩ | ⟨_, h'⟩
    · exact hi.sum t' tk h
    · exact hi.sum t' tk' h'
  · intro t' i
    rw [hs, hi.st, ht]
    congr 1
    refine (propext (ex_set h (fun x => x.begun i) t' ?_)).symm; exact (begun_congr rfl rfl i)
  · intro t' i
    rw [hs, hr, z _ (isRun_wo _ _) (by simp [isRun])]; exact hi.rt t' i
  · intro t'
    rw [hc, hi.cp, ht]
    congr 1
    refine (propext (ex_set h (fun x => x.todo = 0) t' ?_)).symm; exact Iff.rfl
  · intro t' tk' h'
    rw [ht] at h'
    rcases get_set h h' with ⟨rfl, rfl⟩ | ⟨hne, h'⟩
    · have := hi.wk t' tk h
      rw [hf _ (isWork_wo _)]
      simp only [isWork, if_true]
      split <;> push_cast <;> omega
    · rw [z _ (isWork_wo _) (by simp [isWork, Ne.symm hne])]
      exact hi.wk t' tk' h'
  · rw [ht, List.length_set, z _ (bad_wo _) (by simp [bad]; omega)]
    exact hi.valid
  · intro t' tk' s i e h' h1 h2
    have hlen : ∀ x : Task, x.shards[s]? = some (i, e) → s < x.shards.length := by
      intro x hx; by_contra hh; rw [List.getElem?_eq_none (by omega)] at hx; cases hx
    rw [ht] at h'
    rcases get_set h h' with ⟨rfl, rfl⟩ | ⟨hne, h'⟩
    · rw [z _ (notIn_wo _ _) (by simp [notIn]; exact mem_shardOrder _ _ _ (hlen tk h1))]
      exact hi.ex t' tk s i e h h1 h2
    · rw [z _ (notIn_wo _ _) (by simp [notIn]; intro h; exact absurd h.symm hne)]
      exact hi.ex t' tk' s i e h' h1 h2
  · intro t' tk' h' h1 h2
    rw [ht] at h'
    rcases get_set h h' with ⟨rfl, rfl⟩ | ⟨hne, h'⟩
    · rw [hf _ (isWork_wo _)]
      simp only [isWork, if_true]
      split
      · right; omega
      · rename_i hneg
        simp only at h1 h2
        have : tk.left = 0 ∨ 0 < tot (isWork t') p.threads := hi.en t' tk h h1 (by omega)
        rcases this with h | h
        · exact Or.inl h
        · right; omega
    · rw [z _ (isWork_wo _) (by simp [isWork, Ne.symm hne])]
      exact hi.en t' tk' h' h1 h2
  · intro t' tk' h'
    rw [ht] at h'
    rcases get_set h h' with ⟨rfl, rfl⟩ | ⟨_, h'⟩
    · have := hi.le t' tk h
      simp only; omega
    · exact hi.le t' tk' h'

theorem inv_start {p q : Pool} (hi : Inv p) {t : Nat} {tk : Task} {s i e : Nat} {rem : List Nat} {done : Nat}
    (h : p.tasks[t]? = some tk) (hsh : tk.shards[s]? = some (i, e)) (hie : i < e)
    (ht : q.tasks = p.tasks.set t { tk with shards := tk.shards.set s (i + 1, e) })
    (hs : q.started = (t, i) :: p.started) (hr : q.returned = p.returned) (hc : q.completed = p.completed)
    (hf : ∀ g, WorkOnly g → tot g q.threads + g (.work t (s :: rem) done none) =
        tot g p.threads + g (.work t (s :: rem) done (some i))) : Inv q := by
  obtain ⟨hn, hlen, hin, hshape⟩ := hi.shape t tk h
  have z : ∀ g, WorkOnly g → g (.work t (s :: rem) done none) = g (.work t (s :: rem) done (some i)) → tot g q.threads = tot g p.threads := by
    intro g hg h0; have := hf g hg; omega
  have hleft : Task.left { tk with shards := tk.shards.set s (i + 1, e) } + 1 = tk.left := by
    have := sum_set (fun s => s.2 - s.1) tk.shards s (i, e) (i + 1, e) hsh
    simp only [Task.left] at this ⊢
    omega
  obtain ⟨he, hb⟩ := hshape s i e hsh
  -- the iterations that were started
  have nbi : ¬ tk.begun i := by
    rintro ⟨s', c', e', h1, h2, h3, h4⟩
    obtain ⟨he', hb'⟩ := hshape s' c' e' h1
    have : s = s' := div_disjoint hb (by omega) h2 (by omega)
    subst this
    rw [hsh] at h1; simp at h1; omega
  have ybi : Task.begun { tk with shards := tk.shards.set s (i + 1, e) } i :=
    ⟨s, i + 1, e, get_set_eq hsh, by simpa using hb, by omega, hie⟩
  have obi : ∀ j, j ≠ i → (Task.begun { tk with shards := tk.shards.set s (i + 1, e) } j ↔ tk.begun j) := by
    intro j hj
    constructor
    · rintro ⟨s', c', e', h1, h2, h3, h4⟩
      simp only [List.length_set] at h1 h2
      rcases get_set hsh h1 with ⟨rfl, hx⟩ | ⟨hne, h1⟩
      · simp at hx; obtain ⟨rfl, rfl⟩ := hx
        exact ⟨s', i, e', hsh, h2, by omega, h4⟩
      · exact ⟨s', c', e', h1, h2, h3, h4⟩
    · rintro ⟨s', c', e', h1, h2, h3, h4⟩
      by_cases hss : s' = s
      · subst hss
        rw [hsh] at h1; simp at h1; obtain ⟨rfl, rfl⟩ := h1
        exact ⟨s', i + 1, e, get_set_eq hsh, by simpa using h2, by omega, h4⟩
      · exact ⟨s', c', e', by rw [get_set_ne hss]; exact h1, by simpa using h2, h3, h4⟩
  constructor
  · intro t' tk' h'
    rw [ht] at h'
    rcases get_set h h' with ⟨rfl, rfl⟩ | ⟨_, h'⟩
    · refine ⟨hn, by simpa using hlen, hin, ?_⟩
      intro s' i' e' h1
      simp only [List.length_set] at h1 ⊢
      rcases get_set hsh h1 with ⟨rfl, hx⟩ | ⟨hne, h1⟩
      · simp at hx; obtain ⟨rfl, rfl⟩ := hx
        exact ⟨he, by omega⟩
      · exact hshape s' i' e' h1
    · exact hi.shape t' tk' h'
  · intro t' tk' h'
    rw [ht] at h'
    rcases get_set h h' with ⟨rfl, rfl⟩ | ⟨hne, h'⟩
    · have h1 := hf _ (contrib_wo t')
      have h2 := hi.sum t' tk h
      simp [contrib] at h1
      simp only; omega
    · rw [z _ (contrib_wo _) (by simp [contrib, Ne.symm hne])]
      exact hi.sum t' tk' h'
  · intro t' j
    rw [hs, List.count_cons, hi.st, ht]
    by_cases hj : t' = t ∧ j = i
    · obtain ⟨rfl, rfl⟩ := hj
      have e1 : ¬ ∃ x : Task, p.tasks[t']? = some x ∧ x.begun j := by
        rintro ⟨x, hx, hb⟩; rw [h] at hx; cases hx; exact nbi hb
      have e2 : ∃ x : Task, (p.tasks.set t' { tk with shards := tk.shards.set s (j + 1, e) })[t']? = some x ∧ x.begun j :=
        ⟨_, get_set_eq h, ybi⟩
      rw [if_neg e1, if_pos e2]
      simp
    · have : ((t, i) == (t', j)) = false := by
        simp; intro h1 h2; exact hj ⟨h1.symm, h2.symm⟩
      rw [this]
      simp only [Bool.false_eq_true, if_false, add_zero]
      congr 1
      by_cases ht' : t' = t
      · subst ht'
        refine (propext (ex_set h (fun x => x.begun j) t' ?_)).symm; exact (obi j (fun hji => hj ⟨rfl, hji⟩))
      · rw [get_set_ne ht']
  · intro t' j
    have h1 := hf _ (isRun_wo t' j)
    have h2 := hi.rt t' j
    rw [hr, hs, List.count_cons]
    simp only [isRun] at h1
    by_cases hj : t' = t ∧ j = i
    · obtain ⟨rfl, rfl⟩ := hj
      simp at h1 ⊢; omega
    · have : ((t, i) == (t', j)) = false := by
        simp; intro h1 h2; exact hj ⟨h1.symm, h2.symm⟩
      rw [this]
      rw [if_neg (by rintro ⟨h1, h2⟩; exact hj ⟨h1.symm, h2.symm⟩)] at h1
      simp; omega
  · intro t'
    rw [hc, hi.cp, ht]
    congr 1
    refine (propext (ex_set h (fun x => x.todo = 0) t' ?_)).symm; exact Iff.rfl
  · intro t' tk' h'
    rw [z _ (isWork_wo _) rfl]
    rw [ht] at h'
    rcases get_set h h' with ⟨rfl, rfl⟩ | ⟨_, h'⟩
    · exact hi.wk t' tk h
    · exact hi.wk t' tk' h'
  · rw [ht, List.length_set, z _ (bad_wo _) rfl]; exact hi.valid
  · intro t' tk' s' i' e' h' h1 h2
    rw [z _ (notIn_wo _ _) rfl]
    rw [ht] at h'
    rcases get_set h h' with ⟨rfl, rfl⟩ | ⟨_, h'⟩
    · rcases get_set hsh h1 with ⟨rfl, hx⟩ | ⟨hne, h1⟩
      · exact hi.ex t' tk s' i e h hsh hie
      · exact hi.ex t' tk s' i' e' h h1 h2
    · exact hi.ex t' tk' s' i' e' h' h1 h2
  · intro t' tk' h' h1 h2
    rw [z _ (isWork_wo _) rfl]
    rw [ht] at h'
    rcases get_set h h' with ⟨rfl, rfl⟩ | ⟨_, h'⟩
    · rcases hi.en t' tk h h1 h2 with h3 | h3
      · omega
      · exact Or.inr h3
    · exact hi.en t' tk' h' h1 h2
  · intro t' tk' h'
    rw [ht] at h'
    rcases get_set h h' with ⟨rfl, rfl⟩ | ⟨_, h'⟩
    · exact hi.le t' tk h
    · exact hi.le t' tk' h'

theorem inv_skip {p q : Pool} (hi : Inv p) {t : Nat} {tk : Task} {s i e : Nat} {rem : List Nat} {done : Nat}
    (h : p.tasks[t]? = some tk) (hsh : tk.shards[s]? = some (i, e)) (hie : e ≤ i)
    (ht : q.tasks = p.tasks.set t { tk with shards := tk.shards.set s (i + 1, e) })
    (hs : q.started = p.started) (hr : q.returned = p.returned) (hc : q.completed = p.completed)
    (hf : ∀ g, WorkOnly g → tot g q.threads + g (.work t (s :: rem) done none) =
        tot g p.threads + g (.work t rem done none)) : Inv q := by
  obtain ⟨hn, hlen, hin, hshape⟩ := hi.shape t tk h
  have z : ∀ g, WorkOnly g → g (.work t (s :: rem) done none) = g (.work t rem done none) → tot g q.threads = tot g p.threads := by
    intro g hg h0; have := hf g hg; omega
  have hleft : Task.left { tk with shards := tk.shards.set s (i + 1, e) } = tk.left := by
    have := sum_set (fun s => s.2 - s.1) tk.shards s (i, e) (i + 1, e) hsh
    simp only [Task.left] at this ⊢
    omega
  obtain ⟨he, hb⟩ := hshape s i e hsh
  have obi : ∀ j, (Task.begun { tk with shards := tk.shards.set s (i + 1, e) } j ↔ tk.begun j) := by
    intro j
    constructor
    · rintro ⟨s', c', e', h1, h2, h3, h4⟩
      simp only [List.length_set] at h1 h2
      rcases get_set hsh h1 with ⟨rfl, hx⟩ | ⟨hne, h1⟩
      · simp at hx; obtain ⟨rfl, rfl⟩ := hx
        exact ⟨s', i, e', hsh, h2, by omega, h4⟩
      · exact ⟨s', c', e', h1, h2, h3, h4⟩
    · rintro ⟨s', c', e', h1, h2, h3, h4⟩
      by_cases hss : s' = s
      · subst hss
        rw [hsh] at h1; simp at h1; obtain ⟨rfl, rfl⟩ := h1
        exact ⟨s', i + 1, e, get_set_eq hsh, by simpa using h2, by omega, h4⟩
      · exact ⟨s', c', e', by rw [get_set_ne hss]; exact h1, by simpa using h2, h3, h4⟩
  constructor
  · intro t' tk' h'
    rw [ht] at h'
    rcases get_set h h' with ⟨rfl, rfl⟩ | ⟨_, h'⟩
    · refine ⟨hn, by simpa using hlen, hin, ?_⟩
      intro s' i' e' h1
      simp only [List.length_set] at h1 ⊢
      rcases get_set hsh h1 with ⟨rfl, hx⟩ | ⟨hne, h1⟩
      · simp at hx; obtain ⟨rfl, rfl⟩ := hx
        exact ⟨he, by omega⟩
      · exact hshape s' i' e' h1
    · exact hi.shape t' tk' h'
  · intro t' tk' h'
    rw [z _ (contrib_wo _) rfl]
    rw [ht] at h'
    rcases get_set h h' with ⟨rfl, rfl⟩ | ⟨hne, h'⟩
    · have h2 := hi.sum t' tk h
      simp only; omega
    · exact hi.sum t' tk' h'
  · intro t' j
    rw [hs, hi.st, ht]
    congr 1
    refine (propext (ex_set h (fun x => x.begun j) t' ?_)).symm; exact (obi j)
  · intro t' j
    rw [hr, hs, z _ (isRun_wo _ _) rfl]; exact hi.rt t' j
  · intro t'
    rw [hc, hi.cp, ht]
    congr 1
    refine (propext (ex_set h (fun x => x.todo = 0) t' ?_)).symm; exact Iff.rfl
  · intro t' tk' h'
    rw [z _ (isWork_wo _) rfl]
    rw [ht] at h'
    rcases get_set h h' with ⟨rfl, rfl⟩ | ⟨_, h'⟩
    · exact hi.wk t' tk h
    · exact hi.wk t' tk' h'
  · rw [ht, List.length_set, z _ (bad_wo _) rfl]; exact hi.valid
  · intro t' tk' s' i' e' h' h1 h2
    rw [ht] at h'
    rcases get_set h h' with ⟨rfl, rfl⟩ | ⟨hne, h'⟩
    · rcases get_set hsh h1 with ⟨rfl, hx⟩ | ⟨hne, h1⟩
      · simp at hx; omega
      · rw [z _ (notIn_wo _ _) (by simp [notIn, hne])]
        exact hi.ex t' tk s' i' e' h h1 h2
    · rw [z _ (notIn_wo _ _) (by simp only [notIn]; rw [if_neg (by rintro ⟨h, _⟩; exact hne h.symm), if_neg (by rintro ⟨h, _⟩; exact hne h.symm)])]
      exact hi.ex t' tk' s' i' e' h' h1 h2
  · intro t' tk' h' h1 h2
    rw [z _ (isWork_wo _) rfl]
    rw [ht] at h'
    rcases get_set h h' with ⟨rfl, rfl⟩ | ⟨_, h'⟩
    · rcases hi.en t' tk h h1 h2 with h3 | h3
      · left; omega
      · exact Or.inr h3
    · exact hi.en t' tk' h' h1 h2
  · intro t' tk' h'
    rw [ht] at h'
    rcases get_set h h' with ⟨rfl, rfl⟩ | ⟨_, h'⟩
    · exact hi.le t' tk h
    · exact hi.le t' tk' h'

theorem inv_ret {p q : Pool} (hi : Inv p) {t i : Nat} {rem : List Nat} {done : Nat} (ht : q.tasks = p.tasks)
    (hs : q.started = p.started) (hr : q.returned = (t, i) :: p.returned) (hc : q.completed = p.completed)
    (hf : ∀ g, WorkOnly g → tot g q.threads + g (.work t rem done (some i)) =
      tot g p.threads + g (.work t rem (done + 1) none)) : Inv q := by
  have z : ∀ g, WorkOnly g → g (.work t rem done (some i)) = g (.work t rem (done + 1) none) → tot g q.threads = tot g p.threads := by
    intro g hg h0; have := hf g hg; omega
  constructor
  · rw [ht]; exact hi.shape
  · rw [ht]; intro t' tk h; rw [z _ (contrib_wo _) (by simp [contrib])]; exact hi.sum t' tk h
  · rw [ht, hs]; exact hi.st
  · intro t' j
    have h1 := hf _ (isRun_wo t' j)
    have h2 := hi.rt t' j
    rw [hr, hs, List.count_cons]
    simp only [isRun] at h1
    by_cases hj : t = t' ∧ i = j
    · obtain ⟨rfl, rfl⟩ := hj
      simp at h1 ⊢; omega
    · have : ((t, i) == (t', j)) = false := by
        simp; intro h1 h2; exact hj ⟨h1, h2⟩
      rw [this]
      rw [if_neg hj] at h1
      simp; omega
  · rw [ht, hc]; exact hi.cp
  · rw [ht]; intro t' tk h; rw [z _ (isWork_wo _) rfl]; exact hi.wk t' tk h
  · rw [ht, z _ (bad_wo _) rfl]; exact hi.valid
  · rw [ht]; intro t' tk s i e h; rw [z _ (notIn_wo _ _) rfl]; exact hi.ex t' tk s i e h
  · rw [ht]; intro t' tk h; rw [z _ (isWork_wo _) rfl]; exact hi.en t' tk h
  · rw [ht]; exact hi.le

theorem left_zero {tk : Task} (h : ∀ s i e : Nat, tk.shards[s]? = some (i, e) → e ≤ i) : tk.left = 0 := by
  unfold Task.left
  apply List.sum_eq_zero
  intro x hx
  simp only [List.mem_map] at hx
  obtain ⟨⟨i, e⟩, h1, rfl⟩ := hx
  obtain ⟨s, hs⟩ := List.getElem?_of_mem h1
  have := h s i e hs
  simp; omega

theorem left_zero_iff {tk : Task} (h : tk.left = 0) (s i e : Nat) (hs : tk.shards[s]? = some (i, e)) : e ≤ i := by
  have : e - i ≤ tk.left := by
    apply List.single_le_sum (by simp)
    exact List.mem_map.2 ⟨(i, e), List.mem_of_getElem? hs, rfl⟩
  omega

theorem inv_finish {p q : Pool} (hi : Inv p) {t : Nat} {tk : Task} {done : Nat} (h : p.tasks[t]? = some tk)
    (ht : q.tasks = p.tasks.set t { tk with todo := tk.todo - done })
    (hs : q.started = p.started) (hr : q.returned = p.returned)
    (hc : q.completed = if 0 < done ∧ tk.todo - done = 0 then t :: p.completed else p.completed)
    (hf : ∀ g, WorkOnly g → tot g q.threads + g (.work t [] done none) = tot g p.threads) : Inv q := by
  have z : ∀ g, WorkOnly g → g (.work t [] done none) = 0 → tot g q.threads = tot g p.threads := by
    intro g hg h0; have := hf g hg; omega
  have h1 := hf _ (contrib_wo t)
  have h2 := hi.sum t tk h
  have hlz : tk.left = 0 := by
    apply left_zero
    intro s i e hse
    by_contra hh
    have h3 := hi.ex t tk s i e h hse (by omega)
    have h4 := hf _ (notIn_wo t s)
    simp [notIn] at h4
    omega
  constructor
  · intro t' tk' h'
    rw [ht] at h'
    rcases get_set h h' with ⟨rfl, rfl⟩ | ⟨_, h'⟩
    · exact hi.shape t' tk h
    · exact hi.shape t' tk' h'
  · intro t' tk' h'
    rw [ht] at h'
    rcases get_set h h' with ⟨rfl, rfl⟩ | ⟨hne, h'⟩
    · simp [contrib] at h1
      have : Task.left { tk with todo := tk.todo - (done : Int) } = tk.left := rfl
      simp only [this]; omega
    · rw [z _ (contrib_wo _) (by simp [contrib, Ne.symm hne])]
      exact hi.sum t' tk' h'
  · intro t' i
    rw [hs, hi.st, ht]
    congr 1
    refine (propext (ex_set h (fun x => x.begun i) t' ?_)).symm; exact (begun_congr rfl rfl i)
  · intro t' i
    rw [hs, hr, z _ (isRun_wo _ _) (by simp [isRun])]; exact hi.rt t' i
  · intro t'
    rw [hc, ht]
    have h3 := hi.cp t'
    by_cases htt : t' = t
    · subst htt
      simp only [get_set_eq h, Option.some.injEq, exists_eq_left'] at *
      simp only [h, Option.some.injEq, exists_eq_left'] at h3
      by_cases hd : 0 < done
      · have : ¬ (tk.todo = 0) := by simp [contrib] at h1; omega
        rw [if_neg this] at h3
        by_cases hz : tk.todo - done = 0
        · rw [if_pos ⟨hd, hz⟩, if_pos hz, List.count_cons, h3]; simp
        · rw [if_neg (by rintro ⟨_, hh⟩; exact hz hh), if_neg hz, h3]
      · rw [if_neg (by rintro ⟨hh, _⟩; exact hd hh), h3]
        have : done = 0 := by omega
        subst this; simp
    · rw [get_set_ne htt, ← h3]
      split
      · rw [List.count_cons]; simp; intro hh; exact absurd hh.symm htt
      · rfl
  · intro t' tk' h'
    rw [ht] at h'
    rcases get_set h h' with ⟨rfl, rfl⟩ | ⟨hne, h'⟩
    · have h3 := hi.wk t' tk h
      have h4 := hf _ (isWork_wo t')
      simp only; omega
    · rw [z _ (isWork_wo _) (by simp [isWork, Ne.symm hne])]
      exact hi.wk t' tk' h'
  · rw [ht, List.length_set]
    have h4 := hf _ (bad_wo p.tasks.length)
    have := hi.valid
    omega
  · intro t' tk' s i e h' hh1 hh2
    have h4 := hf _ (notIn_wo t' s)
    rw [ht] at h'
    rcases get_set h h' with ⟨rfl, rfl⟩ | ⟨_, h'⟩
    · have := hi.ex t' tk s i e h hh1 hh2
      omega
    · have := hi.ex t' tk' s i e h' hh1 hh2
      omega
  · intro t' tk' h' hh1 hh2
    rw [ht] at h'
    rcases get_set h h' with ⟨rfl, rfl⟩ | ⟨hne, h'⟩
    · exact Or.inl hlz
    · rw [z _ (isWork_wo _) (by simp [isWork, Ne.symm hne])]
      exact hi.en t' tk' h' hh1 hh2
  · intro t' tk' h'
    rw [ht] at h'
    rcases get_set h h' with ⟨rfl, rfl⟩ | ⟨_, h'⟩
    · exact hi.le t' tk h
    · exact hi.le t' tk' h'

theorem inv_step {p q : Pool} {a : Act} (hi : Inv p) (h : step p a = some q) : Inv q := by
  rcases step_effect p q a h with ⟨ht, hs, hr, hc, hf⟩ | ⟨n, mw, hn, ht, hs, hr, hc, hf⟩ | ⟨t, tk, h, ht, hs, hr, hc, hf⟩ |
    ⟨t, tk, s, i, e, rem, done, h, hsh, hie, ht, hs, hr, hc, hf⟩ | ⟨t, tk, s, i, e, rem, done, h, hsh, hie, ht, hs, hr, hc, hf⟩ |
    ⟨t, i, rem, done, ht, hs, hr, hc, hf⟩ | ⟨t, tk, done, h, ht, hs, hr, hc, hf⟩
  · exact inv_none hi ht hs hr hc hf
  · exact inv_new hi hn ht hs hr hc hf
  · exact inv_alloc hi h ht hs hr hc hf
  · exact inv_start hi h hsh hie ht hs hr hc hf
  · exact inv_skip hi h hsh hie ht hs hr hc hf
  · exact inv_ret hi ht hs hr hc hf
  · exact inv_finish hi h ht hs hr hc hf

theorem inv_run {p : Pool} (hi : Inv p) : ∀ {as : List Act} {q}, run p as = some q → Inv q
  | [], q, h => by simp [run] at h; subst h; exact hi
  | a :: as, q, h => by
    rw [run] at h
    split at h
    · rename_i p' hp
      exact inv_run (inv_step hi hp) h
    · cases h

theorem inv_reachable {p : Pool} (h : Reachable p) : Inv p := by
  obtain ⟨threads, sems, as, h⟩ := h
  exact inv_run (inv_initial threads sems) h

/-! ## The properties -/

/-- C27: no iteration is started or returns twice, and only iterations in `[0, n)` are started. -/
theorem at_most_once {p : Pool} (h : Reachable p) (t i : Nat) :
    p.started.count (t, i) ≤ 1 ∧ p.returned.count (t, i) ≤ 1 ∧
      ((t, i) ∈ p.started → ∃ tk : Task, p.tasks[t]? = some tk ∧ i < tk.n) := by
  have hi := inv_reachable h
  have h1 := hi.st t i
  have h2 := hi.rt t i
  have h3 : p.started.count (t, i) ≤ 1 := by rw [h1]; split <;> omega
  refine ⟨h3, by omega, fun hm => ?_⟩
  have : 0 < p.started.count (t, i) := List.count_pos_iff.2 hm
  rw [h1] at this
  split at this
  · rename_i hh
    obtain ⟨tk, ht, s, c, e, h4, _, _, h5⟩ := hh
    refine ⟨tk, ht, ?_⟩
    obtain ⟨hn, hl, _, hs⟩ := hi.shape t tk ht
    obtain ⟨he, _⟩ := hs s c e h4
    have hsl : s < tk.shards.length := by
      by_contra hh; rw [List.getElem?_eq_none (by omega)] at h4; cases h4
    have : (s + 1) * tk.n / tk.shards.length ≤ tk.shards.length * tk.n / tk.shards.length :=
      Nat.div_le_div_right (Nat.mul_le_mul_right _ hsl)
    rw [Nat.mul_div_cancel_left _ hl] at this
    omega
  · omega

/-- C27, C28: when `done()` is true, the body has been called and has returned exactly once for each iteration. -/
theorem done_exactly_once {p : Pool} (h : Reachable p) (t : Nat) (tk : Task) (ht : p.tasks[t]? = some tk) (hd : tk.todo = 0)
    (i : Nat) (hin : i < tk.n) : p.started.count (t, i) = 1 ∧ p.returned.count (t, i) = 1 := by
  have hi := inv_reachable h
  have h1 := hi.sum t tk ht
  obtain ⟨hn, hl, _, hs⟩ := hi.shape t tk ht
  have hb : tk.begun i := by
    obtain ⟨s, hsl, hs1, hs2⟩ := div_cover hl hin
    have hg : tk.shards[s]? = some tk.shards[s] := List.getElem?_eq_getElem hsl
    obtain ⟨c, e⟩ : Nat × Nat := tk.shards[s]
    obtain ⟨he, _⟩ := hs s _ _ hg
    have := left_zero_iff (by omega : tk.left = 0) s _ _ hg
    exact ⟨s, _, _, hg, hs1, by omega, by omega⟩
  have h2 := hi.st t i
  rw [if_pos ⟨tk, ht, hb⟩] at h2
  have h3 := hi.rt t i
  have h4 : tot (isRun t i) p.threads ≤ tot (contrib t) p.threads := by
    apply tot_mono
    intro f
    cases f with
    | wait => simp [isRun, contrib]
    | work t' rem d r =>
      cases r with
      | none => simp [isRun]
      | some j =>
        simp only [isRun, contrib]
        split
        · rename_i hh; rw [if_pos hh.1]; simp
        · omega
  exact ⟨h2, by omega⟩

/-- C28: `todo` never becomes negative, so the unsigned counter does not wrap. -/
theorem todo_nonneg {p : Pool} (h : Reachable p) (t : Nat) (tk : Task) (ht : p.tasks[t]? = some tk) :
    0 ≤ tk.todo ∧ tk.todo ≤ tk.n := by
  have hi := inv_reachable h
  have := hi.sum t tk ht
  refine ⟨by omega, ?_⟩
  obtain ⟨ths, sems, as, hr⟩ := h
  exact todo_le_run (p := Pool.initial ths sems) (by simp [Pool.initial]) hr t tk ht
where
  todo_le_run : ∀ {as : List Act} {p q : Pool}, (∀ (t : Nat) (tk : Task), p.tasks[t]? = some tk → tk.todo ≤ tk.n) → run p as = some q →
      ∀ (t : Nat) (tk : Task), q.tasks[t]? = some tk → tk.todo ≤ tk.n
    | [], p, q, h, hr => by simp [run] at hr; subst hr; exact h
    | a :: as, p, q, h, hr => by
      rw [run] at hr
      split at hr
      · rename_i p' hp
        refine todo_le_run (fun t tk ht' => ?_) hr
        rcases step_effect p p' a hp with ⟨ht, _⟩ | ⟨n, mw, hn, ht, _⟩ | ⟨u, uk, hu, ht, _⟩ |
          ⟨u, uk, s, i, e, rem, done, hu, hsh, hie, ht, _⟩ | ⟨u, uk, s, i, e, rem, done, hu, hsh, hie, ht, _⟩ |
          ⟨u, i, rem, done, ht, _⟩ | ⟨u, uk, done, hu, ht, _⟩
        · rw [ht] at ht'; exact h t tk ht'
        · rw [ht] at ht'
          rcases get_append ht' with h' | ⟨_, rfl⟩
          · exact h t tk h'
          · simp [mkTask]
        · rw [ht] at ht'
          rcases get_set hu ht' with ⟨rfl, rfl⟩ | ⟨_, h'⟩
          · exact h t uk hu
          · exact h t tk h'
        · rw [ht] at ht'
          rcases get_set hu ht' with ⟨rfl, rfl⟩ | ⟨_, h'⟩
          · exact h t uk hu
          · exact h t tk h'
        · rw [ht] at ht'
          rcases get_set hu ht' with ⟨rfl, rfl⟩ | ⟨_, h'⟩
          · exact h t uk hu
          · exact h t tk h'
        · rw [ht] at ht'; exact h t tk ht'
        · rw [ht] at ht'
          rcases get_set hu ht' with ⟨rfl, rfl⟩ | ⟨_, h'⟩
          · have := h t uk hu
            simp only; omega
          · exact h t tk h'
      · cases hr

/-- C28: exactly one call of `work` reports that it completed the task, and only when the task is done. -/
theorem completed_once {p : Pool} (h : Reachable p) (t : Nat) (tk : Task) (ht : p.tasks[t]? = some tk) :
    p.completed.count t = if tk.todo = 0 then 1 else 0 := by
  rw [(inv_reachable h).cp t]
  congr 1
  simp [ht]

/-- C28: at any time, at most `max_workers` threads work on a task (`init` is the limit given to `enqueue`, or the number of
iterations if that is less). -/
theorem worker_limit {p : Pool} (h : Reachable p) (t : Nat) (tk : Task) (ht : p.tasks[t]? = some tk) :
    (tot (isWork t) p.threads : Int) ≤ tk.init := by
  have := (inv_reachable h).wk t tk ht
  omega

end Slinky.TP
