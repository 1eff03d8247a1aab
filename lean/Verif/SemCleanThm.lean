import Verif.SemClean

/-!
# Removing semaphores that do nothing keeps the runs of a statement

See `SemClean.lean` for the code and the specification.
-/

namespace Slinky.SC

/-! ## Interleavings -/

theorem Shuf.filterMap {α β : Type} (h : α → Option β) {u v t : List α} (s : Shuf u v t) :
    Shuf (u.filterMap h) (v.filterMap h) (t.filterMap h) := by
  induction s with
  | nil => exact .nil
  | left a _ ih =>
    cases e : h a with
    | none => simpa [List.filterMap_cons, e] using ih
    | some b => simpa [List.filterMap_cons, e] using Shuf.left b ih
  | right a _ ih =>
    cases e : h a with
    | none => simpa [List.filterMap_cons, e] using ih
    | some b => simpa [List.filterMap_cons, e] using Shuf.right b ih

theorem Shuf.nil_left {α : Type} : ∀ (v : List α), Shuf [] v v
  | [] => .nil
  | a :: v => .right a (Shuf.nil_left v)

theorem Shuf.nil_right {α : Type} : ∀ (v : List α), Shuf v [] v
  | [] => .nil
  | a :: v => .left a (Shuf.nil_right v)

theorem Shuf.eq_nil {α : Type} {t : List α} (s : Shuf [] [] t) : t = [] := by
  cases s; rfl

theorem Shuf.lift {α β : Type} (h : α → Option β) : ∀ (u v : List α) (t' : List β),
    Shuf (u.filterMap h) (v.filterMap h) t' → ∃ t, Shuf u v t ∧ t.filterMap h = t'
  | [], v, t', s => by
    refine ⟨v, Shuf.nil_left v, ?_⟩
    have : ∀ (w t' : List β), Shuf [] w t' → w = t' := by
      intro w
      induction w with
      | nil => intro t' s; exact s.eq_nil.symm
      | cons a w ih => intro t' s; cases s with
        | right _ s => rw [ih _ s]
    exact this _ _ s
  | a :: u, [], t', s => by
    refine ⟨a :: u, Shuf.nil_right _, ?_⟩
    have : ∀ (w t' : List β), Shuf w [] t' → w = t' := by
      intro w
      induction w with
      | nil => intro t' s; exact s.eq_nil.symm
      | cons a w ih => intro t' s; cases s with
        | left _ s => rw [ih _ s]
    exact this _ _ s
  | a :: u, b :: v, t', s => by
    cases ea : h a with
    | none =>
      obtain ⟨t, h1, h2⟩ := Shuf.lift h u (b :: v) t' (by simpa [List.filterMap_cons, ea] using s)
      exact ⟨a :: t, .left a h1, by simp [List.filterMap_cons, ea, h2]⟩
    | some a' =>
      cases eb : h b with
      | none =>
        obtain ⟨t, h1, h2⟩ := Shuf.lift h (a :: u) v t' (by simpa [List.filterMap_cons, ea, eb] using s)
        exact ⟨b :: t, .right b h1, by simp [List.filterMap_cons, eb, h2]⟩
      | some b' =>
        simp only [List.filterMap_cons, ea, eb] at s
        cases s with
        | left _ s =>
          obtain ⟨t, h1, h2⟩ := Shuf.lift h u (b :: v) _ (by simpa [List.filterMap_cons, eb] using s)
          exact ⟨a :: t, .left a h1, by simp [List.filterMap_cons, ea, h2]⟩
        | right _ s =>
          obtain ⟨t, h1, h2⟩ := Shuf.lift h (a :: u) v _ (by simpa [List.filterMap_cons, ea] using s)
          exact ⟨b :: t, .right b h1, by simp [List.filterMap_cons, eb, h2]⟩
termination_by u v => u.length + v.length

/-! ## Events -/

theorem hide_op {x y : Nat} (h : y ≠ x) (e : Ev) : (hide x e).bind (op y) = op y e := by
  cases e with
  | work n => rfl
  | init z k =>
    by_cases hz : z = x
    · subst hz; simp [hide, op, Ne.symm h]
    · simp [hide, op, hz]
  | sync w xs =>
    by_cases hx : xs.filter (· ≠ x) = []
    · have : y ∉ xs := by
        intro hy
        have := List.filter_eq_nil_iff.mp hx y hy
        simp [h] at this
      simp only [hide, hx, if_true, Option.bind_none, op, this, if_false]
    · simp only [hide, hx, if_false, Option.bind_some, op, List.mem_filter, ne_eq, h, not_false_eq_true, decide_true, and_true]

theorem hide_op_self (x : Nat) (e : Ev) : (hide x e).bind (op x) = none := by
  cases e with
  | work n => rfl
  | init z k =>
    by_cases hz : z = x
    · simp [hide, hz]
    · simp [hide, op, hz]
  | sync w xs =>
    by_cases hx : xs.filter (· ≠ x) = []
    · simp only [hide, hx, if_true, Option.bind_none]
    · simp only [hide, hx, if_false, Option.bind_some, op, List.mem_filter, ne_eq, not_true, decide_false, and_false,
        Bool.false_eq_true]

theorem hide_comm (x y : Nat) (e : Ev) : (hide x e).bind (hide y) = (hide y e).bind (hide x) := by
  cases e with
  | work n => rfl
  | init z k =>
    by_cases hx : z = x <;> by_cases hy : z = y <;> simp [hide, hx, hy] 
    all_goals simp_all [hide]
  | sync w xs =>
    have hc : (xs.filter (· ≠ x)).filter (· ≠ y) = (xs.filter (· ≠ y)).filter (· ≠ x) := by
      simp only [List.filter_filter]
      congr 1; funext a; exact Bool.and_comm _ _
    have h1 : ∀ x y : Nat, xs.filter (· ≠ x) = [] → (xs.filter (· ≠ y)).filter (· ≠ x) = [] := by
      intro x y h
      rw [List.filter_eq_nil_iff] at h ⊢
      intro a ha; exact h a (List.mem_of_mem_filter ha)
    by_cases hx : xs.filter (· ≠ x) = [] <;> by_cases hy : xs.filter (· ≠ y) = []
    · simp only [hide, hx, hy, if_true, Option.bind_none]
    · simp only [hide, hx, hy, if_true, if_false, Option.bind_none, Option.bind_some, h1 x y hx]
    · simp only [hide, hx, hy, if_true, if_false, Option.bind_none, Option.bind_some, h1 y x hy]
    · simp only [hide, hx, hy, if_false, Option.bind_some, hc]

theorem hide_idem (x : Nat) (e : Ev) : (hide x e).bind (hide x) = hide x e := by
  cases e with
  | work n => rfl
  | init z k => by_cases hx : z = x <;> simp [hide, hx]
  | sync w xs =>
    have hc : (xs.filter (· ≠ x)).filter (· ≠ x) = xs.filter (· ≠ x) := by
      simp only [List.filter_filter, Bool.and_self]
    by_cases hx : xs.filter (· ≠ x) = []
    · simp only [hide, hx, if_true, Option.bind_none]
    · simp only [hide, hx, if_false, Option.bind_some, hc]

theorem op_hide_list {x y : Nat} (h : y ≠ x) (u : List Ev) : (u.filterMap (hide x)).filterMap (op y) = u.filterMap (op y) := by
  rw [List.filterMap_filterMap]; congr 1; funext e; exact hide_op h e

theorem op_hide_self (x : Nat) (u : List Ev) : (u.filterMap (hide x)).filterMap (op x) = [] := by
  rw [List.filterMap_filterMap, List.filterMap_eq_nil_iff]
  intro e _; exact hide_op_self x e

theorem hide_hide_comm (x y : Nat) (u : List Ev) :
    (u.filterMap (hide x)).filterMap (hide y) = (u.filterMap (hide y)).filterMap (hide x) := by
  rw [List.filterMap_filterMap, List.filterMap_filterMap]; congr 1; funext e; exact hide_comm x y e

theorem hide_hide_self (x : Nat) (u : List Ev) : (u.filterMap (hide x)).filterMap (hide x) = u.filterMap (hide x) := by
  rw [List.filterMap_filterMap]; congr 1; funext e; exact hide_idem x e

/-! ## The operations of a semaphore that one thread uses -/

theorem iter_nil {A : List Ev → Prop} {h : Ev → Option Op} (hA : ∀ u, A u → u.filterMap h = []) (p : Bool) :
    ∀ n t, Iter A p n t → t.filterMap h = []
  | 0, t, ht => by subst ht; rfl
  | n + 1, t, ⟨u, v, hu, hv, hs⟩ => by
    have iv := iter_nil hA p n v hv
    cases p with
    | false =>
      simp only [Bool.false_eq_true, if_false] at hs; subst hs
      rw [List.filterMap_append, hA u hu, iv]; rfl
    | true =>
      simp only [if_true] at hs
      have := hs.filterMap h
      rw [hA u hu, iv] at this
      exact this.eq_nil

theorem iter_serial {A : List Ev → Prop} {h : Ev → Option Op} {l : List Op} (hA : ∀ u, A u → u.filterMap h = l) :
    ∀ n t, Iter A false n t → t.filterMap h = (List.replicate n l).flatten
  | 0, t, ht => by subst ht; rfl
  | n + 1, t, ⟨u, v, hu, hv, hs⟩ => by
    have iv := iter_serial hA n v hv
    simp only [Bool.false_eq_true, if_false] at hs; subst hs
    rw [List.filterMap_append, hA u hu, iv]; rfl

/-- Deeper than the allocation, a semaphore that is not used asynchronously is not used. -/
theorem deep_nil {x d0 : Nat} : ∀ (s : S) (d : Nat), d0 < d → isSem x s = false → usedAsync x d0 d s = false →
    ∀ t, Runs s t → t.filterMap (op x) = [] := by
  intro s
  induction s with
  | skip => intro d _ _ _ t ht; simp only [Runs] at ht; subst ht; rfl
  | work n => intro d _ _ _ t ht; simp only [Runs] at ht; subst ht; rfl
  | init y k =>
    intro d _ hs _ t ht; simp only [Runs] at ht; subst ht
    simp only [isSem, decide_eq_false_iff_not] at hs
    simp [op, Ne.symm hs]
  | sync w xs =>
    intro d hd _ hu t ht
    simp only [Runs] at ht; subst ht
    simp only [usedAsync, Bool.and_eq_false_iff, decide_eq_false_iff_not] at hu
    have hx : x ∉ xs := by
      rcases hu with h | h
      · exact h
      · exact absurd (fun e => by omega) h
    split_ifs
    · rfl
    · simp [op, hx]
  | seq a b iha ihb =>
    intro d hd hs hu t ht
    simp only [isSem, Bool.or_eq_false_iff] at hs
    simp only [usedAsync, Bool.or_eq_false_iff] at hu
    obtain ⟨u, v, h1, h2, rfl⟩ := ht
    rw [List.filterMap_append, iha d hd hs.1 hu.1 u h1, ihb d hd hs.2 hu.2 v h2]; rfl
  | loop p n a ih =>
    intro d hd hs hu t ht
    simp only [isSem] at hs
    simp only [usedAsync] at hu
    exact iter_nil (fun u h => ih (if p then d + 1 else d) (by split_ifs <;> omega) hs hu u h) p n t ht
  | async a b iha ihb =>
    intro d hd hs hu t ht
    simp only [isSem, Bool.or_eq_false_iff] at hs
    simp only [usedAsync, Bool.or_eq_false_iff] at hu
    obtain ⟨u, v, h1, h2, h3⟩ := ht
    have := h3.filterMap (op x)
    rw [iha (d + 1) (by omega) hs.1 hu.1 u h1, ihb (d + 1) (by omega) hs.2 hu.2 v h2] at this
    exact this.eq_nil
  | alloc y a ih =>
    intro d hd hs hu t ht
    obtain ⟨u, h1, _, rfl⟩ := ht
    by_cases hy : y = x
    · subst hy; exact op_hide_self y u
    · simp only [isSem, hy, if_false] at hs
      simp only [usedAsync, hy, if_false] at hu
      rw [op_hide_list (Ne.symm hy)]
      exact ih d hd hs hu u h1

/-- A semaphore that is not used asynchronously has the operations of its thread, in order, in every run. -/
theorem serial_run {x d : Nat} : ∀ (s : S), isSem x s = false → usedAsync x d d s = false →
    ∀ t, Runs s t → t.filterMap (op x) = serial x s := by
  intro s
  induction s with
  | skip => intro _ _ t ht; simp only [Runs] at ht; subst ht; rfl
  | work n => intro _ _ t ht; simp only [Runs] at ht; subst ht; rfl
  | init y k =>
    intro hs _ t ht; simp only [Runs] at ht; subst ht
    simp only [isSem, decide_eq_false_iff_not] at hs
    simp [op, serial, Ne.symm hs]
  | sync w xs =>
    intro _ hu t ht
    simp only [Runs] at ht; subst ht
    by_cases hx : xs = []
    · subst hx; simp [serial]
    · by_cases hm : x ∈ xs <;> simp [hx, op, serial, hm]
  | seq a b iha ihb =>
    intro hs hu t ht
    simp only [isSem, Bool.or_eq_false_iff] at hs
    simp only [usedAsync, Bool.or_eq_false_iff] at hu
    obtain ⟨u, v, h1, h2, rfl⟩ := ht
    rw [List.filterMap_append, iha hs.1 hu.1 u h1, ihb hs.2 hu.2 v h2]; rfl
  | loop p n a ih =>
    intro hs hu t ht
    simp only [isSem] at hs
    simp only [usedAsync] at hu
    cases p with
    | false =>
      exact iter_serial (fun u h => ih hs (by simpa using hu) u h) n t ht
    | true =>
      exact iter_nil (fun u h => deep_nil (d0 := d) a (d + 1) (by omega) hs (by simpa using hu) u h) true n t ht
  | async a b iha ihb =>
    intro hs hu t ht
    simp only [isSem, Bool.or_eq_false_iff] at hs
    simp only [usedAsync, Bool.or_eq_false_iff] at hu
    obtain ⟨u, v, h1, h2, h3⟩ := ht
    have := h3.filterMap (op x)
    rw [deep_nil a (d + 1) (by omega) hs.1 hu.1 u h1, deep_nil b (d + 1) (by omega) hs.2 hu.2 v h2] at this
    exact this.eq_nil
  | alloc y a ih =>
    intro hs hu t ht
    obtain ⟨u, h1, _, rfl⟩ := ht
    by_cases hy : y = x
    · subst hy; simpa [serial] using op_hide_self y u
    · simp only [isSem, hy, if_false] at hs
      simp only [usedAsync, hy, if_false] at hu
      rw [op_hide_list (Ne.symm hy)]
      simpa [serial, hy] using ih hs hu u h1

/-! ## Removing a semaphore -/

theorem iter_map {A B : List Ev → Prop} {x : Nat} (hAB : ∀ t, B t ↔ ∃ u, A u ∧ u.filterMap (hide x) = t) (p : Bool) :
    ∀ n t, Iter B p n t ↔ ∃ u, Iter A p n u ∧ u.filterMap (hide x) = t
  | 0, t => by
    constructor
    · intro h; exact ⟨[], rfl, by rw [show t = [] from h]; rfl⟩
    · rintro ⟨u, h, rfl⟩; rw [show u = [] from h]; rfl
  | n + 1, t => by
    constructor
    · rintro ⟨u, v, hu, hv, hs⟩
      obtain ⟨u', hu', rfl⟩ := (hAB u).mp hu
      obtain ⟨v', hv', rfl⟩ := (iter_map hAB p n v).mp hv
      cases p with
      | false =>
        simp only [Bool.false_eq_true, if_false] at hs
        exact ⟨u' ++ v', ⟨u', v', hu', hv', by simp⟩, by rw [List.filterMap_append, hs]⟩
      | true =>
        simp only [if_true] at hs
        obtain ⟨t', h1, h2⟩ := Shuf.lift _ _ _ _ hs
        exact ⟨t', ⟨u', v', hu', hv', by simpa using h1⟩, h2⟩
    · rintro ⟨w, ⟨u, v, hu, hv, hs⟩, rfl⟩
      refine ⟨u.filterMap (hide x), v.filterMap (hide x), (hAB _).mpr ⟨u, hu, rfl⟩, (iter_map hAB p n _).mpr ⟨v, hv, rfl⟩, ?_⟩
      cases p with
      | false =>
        simp only [Bool.false_eq_true, if_false] at hs ⊢
        rw [hs, List.filterMap_append]
      | true =>
        simp only [if_true] at hs ⊢
        exact hs.filterMap _

/-- The statement without the semaphore `x` has the runs of the statement, without `x`. -/
theorem remove_runs {x : Nat} : ∀ (s : S), isSem x s = false → ∀ t, Runs (remove x s) t ↔ ∃ u, Runs s u ∧ u.filterMap (hide x) = t := by
  intro s
  induction s with
  | skip => intro _ t; simp only [remove, Runs, exists_eq_left, List.filterMap_nil]; exact eq_comm
  | work n => intro _ t; simp only [remove, Runs, exists_eq_left, List.filterMap_cons, hide, List.filterMap_nil]; exact eq_comm
  | init y k =>
    intro hs t
    simp only [isSem, decide_eq_false_iff_not] at hs
    simp only [remove, Runs, exists_eq_left, List.filterMap_cons, hide, Ne.symm hs, if_false, List.filterMap_nil]; exact eq_comm
  | sync w xs =>
    intro _ t
    simp only [remove, Runs, exists_eq_left]
    by_cases hx : xs = []
    · subst hx; simp [eq_comm]
    · by_cases hf : xs.filter (· ≠ x) = []
      · simp only [hx, hf, if_true, if_false, List.filterMap_cons, hide, List.filterMap_nil]; exact eq_comm
      · simp only [hx, hf, if_false, List.filterMap_cons, hide, List.filterMap_nil]; exact eq_comm
  | seq a b iha ihb =>
    intro hs t
    simp only [isSem, Bool.or_eq_false_iff] at hs
    constructor
    · rintro ⟨u, v, h1, h2, rfl⟩
      obtain ⟨u', h1', rfl⟩ := (iha hs.1 u).mp h1
      obtain ⟨v', h2', rfl⟩ := (ihb hs.2 v).mp h2
      exact ⟨u' ++ v', ⟨u', v', h1', h2', rfl⟩, List.filterMap_append⟩
    · rintro ⟨w, ⟨u, v, h1, h2, rfl⟩, rfl⟩
      exact ⟨_, _, (iha hs.1 _).mpr ⟨u, h1, rfl⟩, (ihb hs.2 _).mpr ⟨v, h2, rfl⟩, List.filterMap_append⟩
  | loop p n a ih =>
    intro hs t
    exact iter_map (ih hs) p n t
  | async a b iha ihb =>
    intro hs t
    simp only [isSem, Bool.or_eq_false_iff] at hs
    constructor
    · rintro ⟨u, v, h1, h2, h3⟩
      obtain ⟨u', h1', rfl⟩ := (iha hs.1 u).mp h1
      obtain ⟨v', h2', rfl⟩ := (ihb hs.2 v).mp h2
      obtain ⟨t', h4, h5⟩ := Shuf.lift _ _ _ _ h3
      exact ⟨t', ⟨u', v', h1', h2', h4⟩, h5⟩
    · rintro ⟨w, ⟨u, v, h1, h2, h3⟩, rfl⟩
      exact ⟨_, _, (iha hs.1 _).mpr ⟨u, h1, rfl⟩, (ihb hs.2 _).mpr ⟨v, h2, rfl⟩, h3.filterMap _⟩
  | alloc y a ih =>
    intro hs t
    by_cases hy : y = x
    · subst hy
      simp only [remove, if_true]
      constructor
      · rintro ⟨u, h1, h2, rfl⟩
        exact ⟨_, ⟨u, h1, h2, rfl⟩, hide_hide_self y u⟩
      · rintro ⟨w, ⟨u, h1, h2, rfl⟩, rfl⟩
        exact ⟨u, h1, h2, hide_hide_self y u⟩
    · simp only [isSem, hy, if_false] at hs
      simp only [remove, hy, if_false]
      constructor
      · rintro ⟨u, h1, h2, rfl⟩
        obtain ⟨u', h1', rfl⟩ := (ih hs u).mp h1
        rw [op_hide_list hy] at h2
        exact ⟨_, ⟨u', h1', h2, rfl⟩, hide_hide_comm y x u'⟩
      · rintro ⟨w, ⟨u, h1, h2, rfl⟩, rfl⟩
        exact ⟨_, (ih hs _).mpr ⟨u, h1, rfl⟩, by rw [op_hide_list hy]; exact h2, hide_hide_comm y x u⟩

/-! ## The first statement of a block -/

theorem first_runs {x k : Nat} : ∀ (b : S), isBlock b = true → first b = some (x, k) →
    ∀ t, Runs b t ↔ ∃ t', Runs (dropFirst b) t' ∧ t = .init x k :: t' := by
  intro b
  induction b with
  | seq a b iha _ =>
    intro _ hf t
    simp only [first] at hf
    by_cases ha : isBlock a = true
    · have e : dropFirst (.seq a b) = .seq (dropFirst a) b := by
        cases a <;> first | rfl | (simp [isBlock] at ha)
      rw [e]
      constructor
      · rintro ⟨u, v, h1, h2, rfl⟩
        obtain ⟨u', h3, rfl⟩ := (iha ha hf u).mp h1
        exact ⟨u' ++ v, ⟨u', v, h3, h2, rfl⟩, rfl⟩
      · rintro ⟨w, ⟨u, v, h1, h2, rfl⟩, rfl⟩
        exact ⟨_, v, (iha ha hf _).mpr ⟨u, h1, rfl⟩, h2, rfl⟩
    · cases a with
      | init y j =>
        simp only [first, Option.some.injEq, Prod.mk.injEq] at hf
        obtain ⟨rfl, rfl⟩ := hf
        constructor
        · rintro ⟨u, v, h1, h2, rfl⟩
          simp only [Runs] at h1; subst h1
          exact ⟨v, h2, rfl⟩
        · rintro ⟨v, h2, rfl⟩
          exact ⟨_, v, rfl, h2, rfl⟩
      | seq _ _ => exact absurd rfl ha
      | _ => simp [first] at hf
  | _ => intro h; simp [isBlock] at h

theorem first_clean {x k : Nat} (d : Nat) : ∀ (b : S), first b = some (x, k) →
    first (clean d b) = some (x, k) ∧ isBlock (clean d b) = isBlock b ∧ (isBlock b = true → dropFirst (clean d b) = clean d (dropFirst b)) := by
  intro b
  induction b with
  | seq a b iha _ =>
    intro hf
    simp only [first] at hf
    obtain ⟨h1, h2, h3⟩ := iha hf
    refine ⟨by simpa [clean, first] using h1, rfl, fun _ => ?_⟩
    cases a with
    | seq a1 a2 =>
      have := h3 rfl
      show dropFirst (.seq (clean d (.seq a1 a2)) (clean d b)) = clean d (.seq (dropFirst (.seq a1 a2)) b)
      rw [show clean d (.seq (dropFirst (.seq a1 a2)) b) = .seq (clean d (dropFirst (.seq a1 a2))) (clean d b) from rfl, ← this]
      rfl
    | init y j => rfl
    | _ => simp [first] at hf
  | init y j => intro hf; exact ⟨hf, rfl, fun h => by simp [isBlock] at h⟩
  | _ => intro hf; simp [first] at hf

theorem first_serial {x k : Nat} : ∀ (b : S), isBlock b = true → first b = some (x, k) →
    serial x b = .init k :: serial x (dropFirst b) := by
  intro b
  induction b with
  | seq a b iha _ =>
    intro _ hf
    simp only [first] at hf
    cases a with
    | seq a1 a2 =>
      have := iha rfl hf
      show serial x (.seq a1 a2) ++ serial x b = _ :: (serial x (dropFirst (.seq a1 a2)) ++ serial x b)
      rw [this]; rfl
    | init y j =>
      simp only [first, Option.some.injEq, Prod.mk.injEq] at hf
      obtain ⟨rfl, rfl⟩ := hf
      simp [serial, dropFirst]
    | _ => simp [first] at hf
  | _ => intro h; simp [isBlock] at h

theorem first_used {x d0 d : Nat} : ∀ (b : S), usedAsync x d0 d b = false → usedAsync x d0 d (dropFirst b) = false := by
  intro b
  induction b with
  | seq a b iha _ =>
    intro h
    simp only [usedAsync, Bool.or_eq_false_iff] at h
    cases a with
    | seq a1 a2 =>
      show (usedAsync x d0 d (dropFirst (.seq a1 a2)) || usedAsync x d0 d b) = false
      rw [iha h.1, h.2]; rfl
    | _ => exact h.2
  | _ => intro h; exact h

theorem isSem_dropFirst {x : Nat} : ∀ (b : S), isSem x b = false → isSem x (dropFirst b) = false := by
  intro b
  induction b with
  | seq a b iha _ =>
    intro h
    simp only [isSem, Bool.or_eq_false_iff] at h
    cases a with
    | seq a1 a2 =>
      show (isSem x (dropFirst (.seq a1 a2)) || isSem x b) = false
      rw [iha h.1, h.2]; rfl
    | _ => exact h.2
  | _ => intro h; exact h

theorem isSem_remove {x y : Nat} : ∀ (s : S), isSem x (remove y s) = isSem x s := by
  intro s
  induction s with
  | seq a b iha ihb => simp [remove, isSem, iha, ihb]
  | async a b iha ihb => simp [remove, isSem, iha, ihb]
  | loop p n a ih => simp [remove, isSem, ih]
  | alloc z a ih => by_cases h : z = y <;> simp [remove, h, isSem, ih]
  | _ => rfl

/-- What is known when a semaphore is removed. -/
theorem removed_iff {d x : Nat} {a : S} : Removed d x a → isSem x a = true ∧ usedAsync x d d a = false ∧ isBlock (clean d a) = true ∧
    clean d (.alloc x a) = remove x (dropFirst (clean d a)) := by
  intro h
  unfold Removed at h
  by_cases hc : (isSem x a && !usedAsync x d d a && isBlock (clean d a) && (first (clean d a)).isSome) = true
  · have e : clean d (.alloc x a) = remove x (dropFirst (clean d a)) := by simp only [clean, hc, if_true]
    simp only [Bool.and_eq_true, Bool.not_eq_true'] at hc
    exact ⟨hc.1.1.1, hc.1.1.2, hc.1.2, e⟩
  · exact absurd (by simp only [clean, hc]; rfl) h

theorem isSem_clean {live : Prop} {x : Nat} : ∀ (s : S) (d : Nat), Good live d s →
    (isSem x s = false → isSem x (clean d s) = false) ∧ (isSem x (dropFirst s) = false → isSem x (clean d (dropFirst s)) = false) := by
  intro s
  induction s with
  | seq a b iha ihb =>
    intro d hg
    have ia := iha d hg.1
    have ib := ihb d hg.2
    refine ⟨fun h => ?_, fun h => ?_⟩
    · simp only [isSem, Bool.or_eq_false_iff] at h
      simp only [clean, isSem, ia.1 h.1, ib.1 h.2, Bool.or_self]
    · cases a with
      | seq a1 a2 =>
        replace h : (isSem x (dropFirst (.seq a1 a2)) || isSem x b) = false := h
        rw [Bool.or_eq_false_iff] at h
        show (isSem x (clean d (dropFirst (.seq a1 a2))) || isSem x (clean d b)) = false
        rw [ia.2 h.1, ib.1 h.2]; rfl
      | _ => exact ib.1 h
  | async a b iha ihb =>
    intro d hg
    have key : isSem x (.async a b) = false → isSem x (clean d (.async a b)) = false := by
      intro h
      simp only [isSem, Bool.or_eq_false_iff] at h
      simp only [clean, isSem, (iha _ hg.1).1 h.1, (ihb _ hg.2).1 h.2, Bool.or_self]
    exact ⟨key, key⟩
  | loop p n a ih =>
    intro d hg
    exact ⟨(ih _ hg).1, (ih _ hg).1⟩
  | alloc y a ih =>
    intro d hg
    have key : isSem x (.alloc y a) = false → isSem x (clean d (.alloc y a)) = false := by
      intro h
      by_cases hr : Removed d y a
      · obtain ⟨h1, h2, h3, h4⟩ := removed_iff hr
        obtain ⟨⟨k, hk⟩, hb, _⟩ := hg.2 hr
        rw [h4, isSem_remove]
        by_cases hy : y = x
        · subst hy
          obtain ⟨hf, hbl, hdf⟩ := first_clean d a hk
          rw [hbl] at h3
          rw [hdf h3]
          exact (ih d hg.1).2 hb
        · simp only [isSem, hy, if_false] at h
          exact isSem_dropFirst _ ((ih d hg.1).1 h)
      · rw [show clean d (.alloc y a) = .alloc y (clean d a) from Classical.not_not.mp hr]
        by_cases hy : y = x
        · simp [isSem, hy]
        · simp only [isSem, hy, if_false] at h ⊢
          exact (ih d hg.1).1 h
    exact ⟨key, key⟩
  | _ => intro d _; exact ⟨fun h => h, fun h => h⟩

/-! ## The theorem -/

theorem iter_mono {A B : List Ev → Prop} (h : ∀ t, A t → B t) (p : Bool) : ∀ n t, Iter A p n t → Iter B p n t
  | 0, _, ht => ht
  | n + 1, _, ⟨u, v, hu, hv, hs⟩ => ⟨u, v, h u hu, iter_mono h p n v hv, hs⟩

theorem clean_runs {live : Prop} : ∀ (s : S) (d : Nat), Good live d s →
    (∀ t, Runs s t → Runs (clean d s) t) ∧ (live → ∀ t, Runs (clean d s) t → Runs s t) := by
  intro s
  induction s with
  | seq a b iha ihb =>
    intro d hg
    obtain ⟨a1, a2⟩ := iha d hg.1
    obtain ⟨b1, b2⟩ := ihb d hg.2
    refine ⟨fun t => ?_, fun hl t => ?_⟩
    · rintro ⟨u, v, h1, h2, h3⟩; exact ⟨u, v, a1 u h1, b1 v h2, h3⟩
    · rintro ⟨u, v, h1, h2, h3⟩; exact ⟨u, v, a2 hl u h1, b2 hl v h2, h3⟩
  | async a b iha ihb =>
    intro d hg
    obtain ⟨a1, a2⟩ := iha _ hg.1
    obtain ⟨b1, b2⟩ := ihb _ hg.2
    refine ⟨fun t => ?_, fun hl t => ?_⟩
    · rintro ⟨u, v, h1, h2, h3⟩; exact ⟨u, v, a1 u h1, b1 v h2, h3⟩
    · rintro ⟨u, v, h1, h2, h3⟩; exact ⟨u, v, a2 hl u h1, b2 hl v h2, h3⟩
  | loop p n a ih =>
    intro d hg
    obtain ⟨a1, a2⟩ := ih _ hg
    exact ⟨fun t => iter_mono a1 p n t, fun hl t => iter_mono (a2 hl) p n t⟩
  | alloc x a ih =>
    intro d hg
    obtain ⟨a1, a2⟩ := ih d hg.1
    by_cases hr : Removed d x a
    · obtain ⟨_, hu, hbl, hc⟩ := removed_iff hr
      obtain ⟨⟨k, hk⟩, hb, hal⟩ := hg.2 hr
      obtain ⟨hf, hbl', hdf⟩ := first_clean d a hk
      have hba : isBlock a = true := by rw [← hbl', hbl]
      have hs : isSem x (dropFirst (clean d a)) = false := by
        rw [hdf hba]; exact (isSem_clean a d hg.1).2 hb
      have hide1 : ∀ v, ((.init x k :: v : List Ev)).filterMap (hide x) = v.filterMap (hide x) := by
        intro v; simp [hide]
      rw [hc]
      refine ⟨fun t => ?_, fun hl t => ?_⟩
      · rintro ⟨u, h1, _, rfl⟩
        obtain ⟨u', h3, rfl⟩ := (first_runs _ hbl hf u).mp (a1 u h1)
        exact (remove_runs _ hs _).mpr ⟨u', h3, (hide1 u').symm⟩
      · intro ht
        obtain ⟨u', h3, rfl⟩ := (remove_runs _ hs _).mp ht
        have h4 := a2 hl _ ((first_runs _ hbl hf _).mpr ⟨u', h3, rfl⟩)
        refine ⟨_, h4, ?_, (hide1 u').symm⟩
        obtain ⟨w, h5, h6⟩ := (first_runs a hba hk _).mp h4
        obtain rfl : u' = w := by simpa using h6
        have := serial_run (dropFirst a) hb (first_used a hu) _ h5
        have e : ((.init x k :: u' : List Ev)).filterMap (op x) = serial x a := by
          rw [first_serial a hba hk, ← this]; simp [op]
        rw [e]; exact hal hl
    · rw [show clean d (.alloc x a) = .alloc x (clean d a) from Classical.not_not.mp hr]
      refine ⟨fun t => ?_, fun hl t => ?_⟩
      · rintro ⟨u, h1, h2, h3⟩; exact ⟨u, a1 u h1, h2, h3⟩
      · rintro ⟨u, h1, h2, h3⟩; exact ⟨u, a2 hl u h1, h2, h3⟩
  | _ => intro d _; exact ⟨fun _ h => h, fun _ _ h => h⟩

/-- C67. When the semaphores that are removed are initialized by the first statement of their allocation only, and their thread never waits for
itself, the statement has the same runs as before: every order of the events that was possible before is possible, and no other. -/
theorem cleanup_runs_partial {s : S} (h : Good True 0 s) (t : List Ev) : Runs (clean 0 s) t ↔ Runs s t :=
  ⟨(clean_runs s 0 h).2 trivial t, (clean_runs s 0 h).1 t⟩

/-- C67. Without the condition that no thread waits for itself, runs are not lost. -/
theorem cleanup_keeps_runs_partial {s : S} (h : Good False 0 s) {t : List Ev} (ht : Runs s t) : Runs (clean 0 s) t :=
  (clean_runs s 0 h).1 t ht

end Slinky.SC
