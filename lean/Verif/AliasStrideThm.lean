import Verif.AliasStride
import Mathlib.Algebra.Order.Ring.Int

/-!
# An alias has the strides that its allocation asks for (C71)
-/

namespace Slinky.AS

variable {pr : Option Int → Option Int → Bool}

theorem hasStride_iff (t : List SDim) (l : ADim) (s : Int) : HasStride t l s ↔ aliasStride t l = some s := by
  unfold HasStride aliasStride
  cases l.perm with
  | none => simp [eq_comm]
  | some k =>
    cases h : t[k]? with
    | none => simp [h, eq_comm]
    | some d =>
      simp only [h, Option.map_eq_some_iff]
      exact ⟨fun ⟨u, h1, h2⟩ => ⟨u, h1, h2.symm⟩, fun ⟨u, h1, h2⟩ => ⟨u, h1, h2.symm⟩⟩

/-- `u` keeps the strides of `t`. -/
def Keeps (t u : List SDim) : Prop :=
  u.length = t.length ∧ ∀ (k : Nat) (d : SDim) (s : Int), t[k]? = some d → d.stride = some s → ∃ e : SDim, u[k]? = some e ∧ e.stride = some s

theorem Keeps.refl (t : List SDim) : Keeps t t := ⟨rfl, fun _ d _ h hs => ⟨d, h, hs⟩⟩

theorem Keeps.trans {t u v : List SDim} (h : Keeps t u) (g : Keeps u v) : Keeps t v :=
  ⟨g.1.trans h.1, fun k d s hd hs => by
    obtain ⟨e, he, hes⟩ := h.2 k d s hd hs
    exact g.2 k e s he hes⟩

theorem keeps_modify (t : List SDim) (k : Nat) (f : SDim → SDim) (hf : ∀ d s, d.stride = some s → (f d).stride = some s) :
    Keeps t (t.modify k f) := by
  refine ⟨by simp, fun j d s hd hs => ?_⟩
  rw [List.getElem?_modify, hd]
  by_cases hk : k = j
  · exact ⟨f d, by simp [hk], hf d s hs⟩
  · exact ⟨d, by simp [hk], hs⟩

theorem keeps_set (t : List SDim) (p : SDim × ADim) : Keeps t (setStride t p) := by
  unfold setStride
  split
  · exact Keeps.refl t
  · split
    · exact Keeps.refl t
    · split
      · exact Keeps.refl t
      · refine keeps_modify _ _ _ fun d s hs => ?_
        simp [hs]

theorem keeps_grow (t : List SDim) (p : SDim × ADim) : Keeps t (grow t p) := by
  unfold grow
  split
  · exact Keeps.refl t
  · exact keeps_modify _ _ _ fun d s hs => hs

theorem keeps_foldl {f : List SDim → SDim × ADim → List SDim} (hf : ∀ t p, Keeps t (f t p)) (l : List (SDim × ADim)) :
    ∀ t, Keeps t (l.foldl f t) := by
  induction l with
  | nil => exact Keeps.refl
  | cons p r ih => exact fun t => (hf t p).trans (ih _)

theorem keeps_apply (t : List SDim) (a : Attempt) : Keeps t (apply t a) := by
  unfold apply
  split
  · exact keeps_foldl keeps_grow _ _
  · split
    · exact keeps_foldl keeps_set _ _
    · exact Keeps.refl t

theorem keeps_run (h : List Attempt) : ∀ t, Keeps t (run pr t h) := by
  induction h with
  | nil => exact Keeps.refl
  | cons a r ih =>
    intro t
    refine Keeps.trans ?_ (ih _)
    unfold step
    split
    · exact keeps_apply t a
    · exact Keeps.refl t

theorem Keeps.aliasStride {t u : List SDim} (h : Keeps t u) {l : ADim} {s : Int} (hs : aliasStride t l = some s) :
    aliasStride u l = some s := by
  unfold AS.aliasStride at hs ⊢
  cases hp : l.perm with
  | none => simpa [hp] using hs
  | some k =>
    simp only [hp] at hs ⊢
    cases ht : t[k]? with
    | none =>
      have : u[k]? = none := by
        rw [List.getElem?_eq_none_iff] at ht ⊢
        have := h.1
        omega
      simpa [ht, this] using hs
    | some d =>
      simp only [ht, Option.map_eq_some_iff] at hs
      obtain ⟨w, hw, rfl⟩ := hs
      obtain ⟨e, he, hes⟩ := h.2 k d w ht hw
      simp [he, hes]

/-- The strides of the other buffer, in dimensions that are not points, are the ones of `ts`. -/
def Inv (t : List SDim) (ts : Nat → Option Int) : Prop := ∀ (k : Nat) (d : SDim) (s : Int), t[k]? = some d → d.point = false → d.stride = some s → ts k = some s

/-- The dimension of the other buffer, if there is one, is not a point. -/
def NoPoint (t : List SDim) (l : ADim) : Prop := ∀ (k : Nat) (d : SDim), l.perm = some k → t[k]? = some d → d.point = false

theorem noPoint_set (t : List SDim) (p : SDim × ADim) (l : ADim) (h : NoPoint t l) : NoPoint (setStride t p) l := by
  intro k d hk hd
  unfold setStride at hd
  split at hd
  · exact h k d hk hd
  · split at hd
    · exact h k d hk hd
    · split at hd
      · exact h k d hk hd
      · rename_i j _
        rw [List.getElem?_modify] at hd
        cases hc : t[k]? with
        | none => simp [hc] at hd
        | some c =>
          simp only [hc, Option.map_eq_map, Option.map_some, Option.some.injEq] at hd
          have := h k c hk hc
          rw [← hd]
          split
          · split <;> exact this
          · exact this

theorem propagate_sound (hp : Sound pr) (n : Nat) : ∀ (dims : List (SDim × ADim)) (t : List SDim) (ts : Nat → Option Int), t.length = n → Inv t ts →
    propagate pr n dims ts = true → ∀ p ∈ dims, ∀ s, p.1.stride = some s → p.1.point = false → NoPoint t p.2 → p.2.scale = 1 →
      aliasStride (dims.foldl setStride t) p.2 = some s := by
  intro dims
  induction dims with
  | nil => simp
  | cons q r ih =>
    intro t ts hn hi h p hm s hs hpt hnp hsc
    obtain ⟨a, l⟩ := q
    rw [List.foldl_cons]
    have hk : Keeps (setStride t (a, l)) (r.foldl setStride (setStride t (a, l))) := keeps_foldl keeps_set _ _
    have hl : (setStride t (a, l)).length = n := (keeps_set t (a, l)).1.trans hn
    cases ha : a.stride with
    | none =>
      have ht : setStride t (a, l) = t := by simp [setStride, ha]
      rw [propagate, ha] at h
      rcases List.mem_cons.1 hm with rfl | hm
      · simp [ha] at hs
      · rw [ht]
        exact ih t ts hn hi h p hm s hs hpt hnp hsc
    | some s0 =>
      rw [propagate, ha] at h
      simp only at h
      cases hr : inRange n l with
      | none =>
        have ht : setStride t (a, l) = t := by simp [setStride, ha, hn, hr]
        simp only [hr, Bool.and_eq_true] at h
        rcases List.mem_cons.1 hm with rfl | hm
        · refine hk.aliasStride ?_
          rw [ht]
          have h0 := hp _ _ h.1
          simp only [ha] at hs
          rw [← hs, h0]
          unfold inRange at hr
          unfold aliasStride
          cases hpm : l.perm with
          | none => simp [hpm]
          | some k =>
            simp only [hpm] at hr
            have : t[k]? = none := by
              rw [List.getElem?_eq_none_iff]
              by_contra hc
              rw [if_pos (by omega)] at hr
              cases hr
            simp [hpm, this]
        · rw [ht]
          exact ih t ts hn hi h.2 p hm s hs hpt hnp hsc
      | some k =>
        simp only [hr, Bool.and_eq_true] at h
        obtain ⟨h1, h2⟩ := h
        have hperm : l.perm = some k ∧ k < n := by
          unfold inRange at hr
          cases hpm : l.perm with
          | none => simp [hpm] at hr
          | some j =>
            simp only [hpm] at hr
            by_cases hj : j < n
            · rw [if_pos hj] at hr
              cases hr
              exact ⟨rfl, hj⟩
            · rw [if_neg hj] at hr
              cases hr
        have heq : ∀ d u, t[k]? = some d → d.point = false → d.stride = some u → u = s0 := by
          intro d u hd hdp hu
          rw [hi k d u hd hdp hu] at h1
          exact Option.some.inj (hp _ _ h1)
        have hi' : Inv (setStride t (a, l)) (Function.update ts k (some s0)) := by
          intro j d u hd hdp hu
          by_cases hj : j = k
          · subst hj
            rw [Function.update_self]
            by_cases hpo : a.point = true
            · have ht : setStride t (a, l) = t := by simp [setStride, ha, hpo]
              rw [ht] at hd
              rw [heq d u hd hdp hu]
            · simp only [setStride, ha, hpo, hn, hr, Bool.false_eq_true, if_false, List.getElem?_modify] at hd
              cases hc : t[j]? with
              | none => simp [hc] at hd
              | some c =>
                simp only [hc, Option.map_eq_map, Option.map_some, if_true, Option.some.injEq] at hd
                subst hd
                have hcp : c.point = false := by
                  by_cases hcs : c.stride.isSome = true
                  · simpa [hcs] using hdp
                  · simpa [hcs] using hdp
                cases hcs : c.stride with
                | none => simp [hcs] at hu; simp [hu]
                | some w =>
                  simp [hcs] at hu
                  rw [← hu, heq c w hc hcp hcs]
          · rw [Function.update_of_ne hj]
            refine hi j d u ?_ hdp hu
            by_cases hpo : a.point = true
            · simpa [setStride, ha, hpo] using hd
            · simp only [setStride, ha, hpo, hn, hr, Bool.false_eq_true, if_false, List.getElem?_modify, if_neg (Ne.symm hj)] at hd
              simpa using hd
        rcases List.mem_cons.1 hm with rfl | hm
        · refine hk.aliasStride ?_
          simp only [ha, Option.some.injEq] at hs
          subst hs
          simp only at hpt hsc
          have hlt : k < t.length := by omega
          have hc : t[k]? = some t[k] := List.getElem?_eq_getElem hlt
          unfold aliasStride
          simp only [hperm.1, setStride, ha, hpt, hn, hr, Bool.false_eq_true, if_false, List.getElem?_modify, hc, hsc]
          cases hcs : (t[k]).stride with
          | none => simp [hcs]
          | some w =>
            have := heq _ w hc (hnp k _ hperm.1 hc) hcs
            simp [hcs, this]
        · exact ih _ _ hl hi' h2 p hm s hs hpt (noPoint_set t (a, l) p.2 hnp) hsc

theorem compat_apply (hp : Sound pr) (t : List SDim) (a : Attempt) (h : compat pr t a = true) (p : SDim × ADim) (hm : p ∈ a.dims) (s : Int)
    (hs : p.1.stride = some s) (hpt : p.1.point = false) (hnp : NoPoint t p.2) (hsc : p.2.scale = 1) : aliasStride (apply t a) p.2 = some s := by
  have hk := keeps_apply t a
  unfold compat at h
  simp only at h
  have hhas : anyStride (a.dims.map Prod.fst) = true := by
    unfold anyStride
    rw [List.any_eq_true]
    exact ⟨p.1, List.mem_map_of_mem hm, by simp [hs, hpt]⟩
  by_cases hb : a.inB = false
  · rw [if_pos hb, Bool.and_eq_true, List.all_eq_true] at h
    have h1 := h.2 p hm
    simp only [hs, Option.isSome_some, Bool.true_or, Bool.not_true, Bool.false_or] at h1
    exact hk.aliasStride (hp _ _ h1).symm
  · rw [if_neg hb, hhas, if_neg (by simp)] at h
    by_cases ht : anyStride t = false
    · rw [if_pos ht, Bool.and_eq_true] at h
      unfold apply
      rw [if_neg hb, if_pos ht]
      refine propagate_sound hp t.length a.dims t _ rfl ?_ h.2 p hm s hs hpt hnp hsc
      intro k d u hd hdp hu
      exfalso
      unfold anyStride at ht
      rw [List.any_eq_false] at ht
      exact ht d (List.mem_of_getElem? hd) (by simp [hu, hdp])
    · rw [if_neg ht, List.all_eq_true] at h
      have h1 := h p hm
      rw [hs] at h1
      exact hk.aliasStride (hp _ _ h1).symm

/-- If an allocation becomes an alias of a buffer, after any number of others (`before`) and before any number of others (`after`), then the alias has the strides
that the allocation asks for, when the buffer is allocated, in all dimensions that are not a point (in the allocation or in the buffer) and that are not copied with a scale. -/
theorem alias_stride_partial (hp : Sound pr) (t : List SDim) (before after : List Attempt) (a : Attempt) (h : compat pr (run pr t before) a = true)
    (p : SDim × ADim) (hm : p ∈ a.dims) (s : Int) (hs : p.1.stride = some s) (hpt : p.1.point = false)
    (hnp : ∀ k d, p.2.perm = some k → (run pr t before)[k]? = some d → d.point = false) (hsc : p.2.scale = 1) :
    HasStride (run pr t (before ++ a :: after)) p.2 s := by
  rw [hasStride_iff]
  have e : run pr t (before ++ a :: after) = run pr (apply (run pr t before) a) after := by
    unfold run
    rw [List.foldl_append, List.foldl_cons]
    congr 1
    unfold step
    exact if_pos h
  rw [e]
  exact (keeps_run after _).aliasStride (compat_apply hp _ a h p hm s hs hpt hnp hsc)

/-- The same for copies with a scale, if the buffer has a stride already, or is made bigger: then the stride that the allocation asks for is compared with the multiple of
the stride of the buffer. -/
theorem alias_stride_scaled_partial (hp : Sound pr) (t : List SDim) (before after : List Attempt) (a : Attempt)
    (h : compat pr (run pr t before) a = true) (hb : a.inB = false ∨ anyStride (run pr t before) = true) (p : SDim × ADim) (hm : p ∈ a.dims) (s : Int)
    (hs : p.1.stride = some s) (hpt : p.1.point = false) : HasStride (run pr t (before ++ a :: after)) p.2 s := by
  rw [hasStride_iff]
  have e : run pr t (before ++ a :: after) = run pr (apply (run pr t before) a) after := by
    unfold run
    rw [List.foldl_append, List.foldl_cons]
    congr 1
    unfold step
    exact if_pos h
  rw [e]
  refine (keeps_run after _).aliasStride ((keeps_apply _ a).aliasStride ?_)
  unfold compat at h
  simp only at h
  have hhas : anyStride (a.dims.map Prod.fst) = true := by
    unfold anyStride
    rw [List.any_eq_true]
    exact ⟨p.1, List.mem_map_of_mem hm, by simp [hs, hpt]⟩
  by_cases hi : a.inB = false
  · rw [if_pos hi, Bool.and_eq_true, List.all_eq_true] at h
    have h1 := h.2 p hm
    simp only [hs, Option.isSome_some, Bool.true_or, Bool.not_true, Bool.false_or] at h1
    exact (hp _ _ h1).symm
  · have ht : anyStride (run pr t before) = true := hb.resolve_left hi
    rw [if_neg hi, hhas, if_neg (by simp), if_neg (by simp [ht]), List.all_eq_true] at h
    have h1 := h p hm
    rw [hs] at h1
    exact (hp _ _ h1).symm

/-- A stride that the buffer has, because it asks for it itself or because of an alias, does not change. -/
theorem stride_kept (t : List SDim) (h : List Attempt) (k : Nat) (d : SDim) (s : Int) (hd : t[k]? = some d) (hs : d.stride = some s) :
    ∃ e, (run pr t h)[k]? = some e ∧ e.stride = some s := (keeps_run h t).2 k d s hd hs

/-- The bounds only grow. -/
theorem grow_mono (t : List SDim) (p : SDim × ADim) (k : Nat) (d : SDim) (hd : t[k]? = some d) :
    ∃ e, (grow t p)[k]? = some e ∧ e.min ≤ d.min ∧ d.max ≤ e.max := by
  unfold grow
  split
  · exact ⟨d, hd, le_refl _, le_refl _⟩
  · rename_i j _
    rw [List.getElem?_modify, hd]
    by_cases hj : j = k
    · simp only [if_pos hj]
      exact ⟨_, rfl, min_le_left _ _, le_max_left _ _⟩
    · exact ⟨d, by simp [hj], le_refl _, le_refl _⟩

theorem set_bounds (t : List SDim) (p : SDim × ADim) (k : Nat) (d : SDim) (hd : t[k]? = some d) :
    ∃ e, (setStride t p)[k]? = some e ∧ e.min ≤ d.min ∧ d.max ≤ e.max := by
  unfold setStride
  split
  · exact ⟨d, hd, le_refl _, le_refl _⟩
  · split
    · exact ⟨d, hd, le_refl _, le_refl _⟩
    · split
      · exact ⟨d, hd, le_refl _, le_refl _⟩
      · rename_i j _
        rw [List.getElem?_modify, hd]
        by_cases hj : j = k
        · simp only [if_pos hj]
          refine ⟨_, rfl, ?_⟩
          beta_reduce
          split <;> simp
        · exact ⟨d, by simp [hj], le_refl _, le_refl _⟩

theorem foldl_bounds {f : List SDim → SDim × ADim → List SDim}
    (hf : ∀ (t : List SDim) (p : SDim × ADim) (k : Nat) (d : SDim), t[k]? = some d → ∃ e : SDim, (f t p)[k]? = some e ∧ e.min ≤ d.min ∧ d.max ≤ e.max) (l : List (SDim × ADim)) :
    ∀ (t : List SDim) (k : Nat) (d : SDim), t[k]? = some d → ∃ e : SDim, (l.foldl f t)[k]? = some e ∧ e.min ≤ d.min ∧ d.max ≤ e.max := by
  induction l with
  | nil => exact fun t k d h => ⟨d, h, le_refl _, le_refl _⟩
  | cons p r ih =>
    intro t k d h
    obtain ⟨e, he, h1, h2⟩ := hf t p k d h
    obtain ⟨c, hc, h3, h4⟩ := ih _ k e he
    exact ⟨c, hc, h3.trans h1, h2.trans h4⟩

/-- The indices that the buffer has before are indices of it after all aliases. -/
theorem bounds_kept (h : List Attempt) : ∀ (t : List SDim) (k : Nat) (d : SDim), t[k]? = some d →
    ∃ e, (run pr t h)[k]? = some e ∧ e.min ≤ d.min ∧ d.max ≤ e.max := by
  induction h with
  | nil => exact fun t k d h => ⟨d, h, le_refl _, le_refl _⟩
  | cons a r ih =>
    intro t k d hd
    have h1 : ∃ e, (step pr t a)[k]? = some e ∧ e.min ≤ d.min ∧ d.max ≤ e.max := by
      unfold step apply
      split
      · split
        · exact foldl_bounds grow_mono _ t k d hd
        · split
          · exact foldl_bounds set_bounds _ t k d hd
          · exact ⟨d, hd, le_refl _, le_refl _⟩
      · exact ⟨d, hd, le_refl _, le_refl _⟩
    obtain ⟨e, he, h1, h2⟩ := h1
    obtain ⟨c, hc, h3, h4⟩ := ih _ k e he
    exact ⟨c, hc, h3.trans h1, h2.trans h4⟩

theorem foldl_set_bounds (k : Nat) : ∀ (l : List (SDim × ADim)) (t : List SDim) (d : SDim), t[k]? = some d →
    ∃ e, (l.foldl setStride t)[k]? = some e ∧ e.min = d.min ∧ e.max = d.max := by
  intro l
  induction l with
  | nil => exact fun t d h => ⟨d, h, rfl, rfl⟩
  | cons p r ih =>
    intro t d h
    have h1 : ∃ e, (setStride t p)[k]? = some e ∧ e.min = d.min ∧ e.max = d.max := by
      unfold setStride
      split
      · exact ⟨d, h, rfl, rfl⟩
      · split
        · exact ⟨d, h, rfl, rfl⟩
        · split
          · exact ⟨d, h, rfl, rfl⟩
          · rename_i j _
            rw [List.getElem?_modify, h]
            by_cases hj : j = k
            · simp only [if_pos hj]
              refine ⟨_, rfl, ?_⟩
              beta_reduce
              split <;> simp
            · exact ⟨d, by simp [hj], rfl, rfl⟩
    obtain ⟨e, he, h1, h2⟩ := h1
    obtain ⟨c, hc, h3, h4⟩ := ih _ e he
    exact ⟨c, hc, h3.trans h1, h4.trans h2⟩

/-- An input or an output never changes its bounds. -/
theorem fixed_bounds (t : List SDim) (h : List Attempt) (hf : ∀ a ∈ h, a.fixed = true) (k : Nat) (d : SDim) (hd : t[k]? = some d) :
    ∃ e, (run pr t h)[k]? = some e ∧ e.min = d.min ∧ e.max = d.max := by
  induction h generalizing t d with
  | nil => exact ⟨d, hd, rfl, rfl⟩
  | cons a r ih =>
    have h1 : ∃ e, (step pr t a)[k]? = some e ∧ e.min = d.min ∧ e.max = d.max := by
      unfold step
      split
      · rename_i hc
        have hb : a.inB = true := by
          by_contra hb
          simp [compat, hb, hf a (by simp)] at hc
        unfold apply
        rw [if_neg (by simp [hb])]
        split
        · exact foldl_set_bounds k _ t d hd
        · exact ⟨d, hd, rfl, rfl⟩
      · exact ⟨d, hd, rfl, rfl⟩
    obtain ⟨e, he, h1, h2⟩ := h1
    obtain ⟨c, hc, h3, h4⟩ := ih _ (fun a ha => hf a (by simp [ha])) e he
    exact ⟨c, hc, h3.trans h1, h4.trans h2⟩

/-! ## Examples -/

/-- A prover that proves what is true -/
def prT (x y : Option Int) : Bool := decide (x = y)

theorem prT_sound : Sound prT := fun _ _ h => of_decide_eq_true h

/-- A buffer of 10 × 4 elements without strides -/
def exT : List SDim := [⟨0, 9, none, false⟩, ⟨0, 3, none, false⟩]

/-- An allocation of 10 × 4 elements of 2 bytes with padded rows, transposed -/
def exA : Attempt := ⟨[(⟨0, 3, some 32, false⟩, ⟨some 1, 1, 0⟩), (⟨0, 9, some 2, false⟩, ⟨some 0, 1, 0⟩)], 2, true, false⟩

/-- An allocation of 4 × 10 elements that asks for another stride -/
def exB : Attempt := ⟨[(⟨0, 3, some 20, false⟩, ⟨some 1, 1, 0⟩), (⟨0, 9, some 2, false⟩, ⟨some 0, 1, 0⟩)], 2, true, false⟩

/-- The first of two aliases decides; the second is not possible, and neither is a third that makes the buffer bigger. -/
theorem ex_first : compat prT exT exA = true ∧ compat prT exT exB = true ∧ compat prT (run prT exT [exA]) exB = false ∧
    run prT exT [exA, exB, exA] = [⟨0, 9, some 2, false⟩, ⟨0, 3, some 32, false⟩] ∧ HasStride (run prT exT [exA, exB]) ⟨some 1, 1, 0⟩ 32 := by
  refine ⟨by decide +kernel, by decide +kernel, by decide +kernel, by decide +kernel, ?_⟩
  exact alias_stride_partial prT_sound exT [] [exB] exA (by decide +kernel) _ (List.mem_cons_self ..) 32 rfl rfl (by
    intro k d hk hd
    cases hk
    cases hd
    rfl) rfl

/-- Padding is not possible in a buffer that is bigger; a dense row is. -/
theorem ex_padding : compat prT [⟨0, 11, none, false⟩, ⟨0, 3, none, false⟩] exA = false ∧
    run prT [⟨0, 11, none, false⟩, ⟨0, 3, none, false⟩] [⟨[(⟨0, 9, some 2, false⟩, ⟨some 0, 1, 1⟩)], 2, true, false⟩] =
      [⟨0, 11, some 2, false⟩, ⟨0, 3, none, false⟩] := by
  constructor <;> decide +kernel

/-- Two dimensions of the allocation for the same dimension of the buffer (a diagonal) with different strides are not possible; a broadcast must have the stride 0;
the stride of a point is not used. -/
theorem ex_conflict : compat prT exT ⟨[(⟨0, 9, some 2, false⟩, ⟨some 0, 1, 0⟩), (⟨0, 9, some 4, false⟩, ⟨some 0, 1, 0⟩)], 2, true, false⟩ = false ∧
    compat prT exT ⟨[(⟨0, 9, some 2, false⟩, ⟨none, 1, 0⟩)], 2, true, false⟩ = false ∧
    compat prT exT ⟨[(⟨0, 9, some 0, false⟩, ⟨none, 1, 0⟩), (⟨0, 9, some 2, false⟩, ⟨some 0, 1, 0⟩)], 2, true, false⟩ = true ∧
    run prT exT [⟨[(⟨0, 0, some 7, true⟩, ⟨some 0, 1, 0⟩)], 2, true, false⟩] = exT := by
  refine ⟨?_, ?_, ?_, ?_⟩ <;> decide +kernel

/-- The strides of points are not looked at: a buffer that has a stride only in a dimension of one element still gets strides, and an allocation that asks for a stride
only in such a dimension gets the strides of the buffer. -/
theorem ex_point : run prT [⟨0, 9, none, false⟩, ⟨3, 3, some 5, true⟩] [⟨[(⟨0, 9, some 2, false⟩, ⟨some 0, 1, 0⟩)], 2, true, false⟩] =
      [⟨0, 9, some 2, false⟩, ⟨3, 3, some 5, true⟩] ∧
    compat prT [⟨0, 9, some 2, false⟩] ⟨[(⟨4, 4, some 7, true⟩, ⟨some 0, 1, 4⟩)], 2, true, false⟩ = true := by
  constructor <;> decide +kernel

/-- A buffer that is made bigger; an output that is not -/
theorem ex_grow : run prT exT [⟨[(⟨2, 14, none, false⟩, ⟨some 0, 1, -3⟩)], 2, false, false⟩] = [⟨-3, 9, none, false⟩, ⟨0, 3, none, false⟩] ∧
    run prT exT [⟨[(⟨2, 14, none, false⟩, ⟨some 0, 1, -3⟩)], 2, false, true⟩] = exT ∧
    run prT exT [⟨[(⟨2, 14, some 2, false⟩, ⟨some 0, 1, -3⟩)], 2, false, false⟩] = exT := by
  refine ⟨?_, ?_, ?_⟩ <;> decide +kernel

/-- A copy with a scale of a buffer that is dense: an allocation that asks for twice the stride gets it, one that asks to be dense is not replaced. -/
theorem ex_scaled : HasStride (run prT [⟨0, 9, some 2, false⟩] [⟨[(⟨0, 4, some 4, false⟩, ⟨some 0, 2, 0⟩)], 2, true, false⟩]) ⟨some 0, 2, 0⟩ 4 ∧
    compat prT [⟨0, 9, some 2, false⟩] ⟨[(⟨0, 4, some 2, false⟩, ⟨some 0, 2, 0⟩)], 2, true, false⟩ = false := by
  constructor
  · exact alias_stride_scaled_partial prT_sound [⟨0, 9, some 2, false⟩] [] [] ⟨[(⟨0, 4, some 4, false⟩, ⟨some 0, 2, 0⟩)], 2, true, false⟩
      (by decide +kernel) (Or.inr (by decide +kernel)) _ (List.mem_cons_self ..) 4 rfl rfl
  · decide +kernel

/-- A copy with a scale, `dst(x) = src(2 x)`: `dst` asks to be dense, the stride that it asks for is given to `src`, and the alias, which has a step of two
elements of `src`, is not dense. -/
theorem scale_counterexample : let dst : Attempt := ⟨[(⟨0, 4, some 2, false⟩, ⟨some 0, 2, 0⟩)], 2, true, false⟩
    let src : List SDim := [⟨0, 9, none, false⟩]
    compat prT src dst = true ∧ run prT src [dst] = [⟨0, 9, some 2, false⟩] ∧ ¬ HasStride (run prT src [dst]) ⟨some 0, 2, 0⟩ 2 ∧
      HasStride (run prT src [dst]) ⟨some 0, 2, 0⟩ 4 := by
  refine ⟨by decide +kernel, by decide +kernel, ?_, ?_⟩
  · rw [hasStride_iff]
    decide +kernel
  · rw [hasStride_iff]
    decide +kernel

/-- A row of a buffer that has a stride of 10 elements in its second dimension, and nothing in the first: the buffer is made bigger for the row, the stride of the
second dimension stays, and elements share memory. -/
theorem grow_counterexample : let t : List SDim := [⟨0, 9, none, false⟩, ⟨0, 3, some 10, false⟩]
    let a : Attempt := ⟨[(⟨0, 11, none, false⟩, ⟨some 0, 1, 0⟩)], 1, false, false⟩
    compat prT t a = true ∧ run prT t [a] = [⟨0, 11, none, false⟩, ⟨0, 3, some 10, false⟩] ∧ addr2 1 10 10 0 = addr2 1 10 0 1 := by
  refine ⟨?_, ?_, ?_⟩ <;> decide +kernel

end Slinky.AS
