import Verif.AliasStrideThm
import Mathlib.Algebra.BigOperators.Group.Finset.Basic
import Mathlib.Algebra.BigOperators.Ring.Finset
import Mathlib.Data.Fintype.BigOperators
import Mathlib.Data.List.OfFn
import Mathlib.Data.Fin.VecNotation
import Mathlib.Algebra.BigOperators.Fin
import Mathlib.Tactic.FinCases
import Mathlib.Tactic.Ring
import Mathlib.Tactic.Linarith

/-!
# The strides that a buffer gets from an alias do not make its elements share memory (C71)
-/

namespace Slinky.AS

open Finset

variable {pr : Option Int → Option Int → Bool}

/-- The elements of a buffer with these dimensions have different addresses. -/
def NoShare {n : Nat} (D : Fin n → SDim) : Prop :=
  ∀ x y : Fin n → Int, (∀ d, (D d).min ≤ x d ∧ x d ≤ (D d).max) → (∀ d, (D d).min ≤ y d ∧ y d ≤ (D d).max) →
    ∑ d, (D d).stride.getD 0 * x d = ∑ d, (D d).stride.getD 0 * y d → x = y

/-- The attempt to make an allocation with the dimensions `A` an alias of a buffer with as many dimensions, in another order, that it is in bounds of -/
def transposed {n : Nat} (A : Fin n → SDim) (π : Fin n ≃ Fin n) (elem : Int) (fixed : Bool) : Attempt :=
  ⟨List.ofFn (fun d => (A d, ⟨some (π d).val, 1, (A d).min⟩)), elem, true, fixed⟩

/-- A buffer without strides gets the strides of an allocation that asks for strides in all dimensions. If the elements of the allocation do not share memory,
then the elements of the buffer, which may be bigger, do not. -/
theorem no_share_partial (hp : Sound pr) {n : Nat} (T A : Fin n → SDim) (π : Fin n ≃ Fin n) (elem : Int) (fixed : Bool) (he : elem ≠ 0)
    (hA : ∀ d, (A d).point = false ∧ (A d).stride.isSome = true ∧ (A d).min < (A d).max) (hT : ∀ d, (T d).point = false ∧ (T d).stride = none)
    (h : compat pr (List.ofFn T) (transposed A π elem fixed) = true) (hs : NoShare A) :
    ∃ U : Fin n → SDim, apply (List.ofFn T) (transposed A π elem fixed) = List.ofFn U ∧
      (∀ d, (U d).min = (T d).min ∧ (U d).max = (T d).max ∧ (U (π d)).stride = (A d).stride) ∧ NoShare U := by
  have hlen : (apply (List.ofFn T) (transposed A π elem fixed)).length = n := by
    rw [(keeps_apply _ _).1, List.length_ofFn]
  have hget : ∀ k : Fin n, (List.ofFn T)[k.val]? = some (T k) := by
    intro k
    rw [List.getElem?_ofFn, dif_pos k.isLt]
  have hT0 : ¬ anyStride (List.ofFn T) = true := by
    unfold anyStride
    rw [List.any_eq_true]
    rintro ⟨d, hd, hds⟩
    obtain ⟨k, rfl⟩ := List.mem_ofFn.1 hd
    simp [(hT k).2] at hds
  have hT1 : anyStride (List.ofFn T) = false := by simpa using hT0
  obtain ⟨U, hU⟩ : ∃ U : Fin n → SDim, ∀ k : Fin n, (apply (List.ofFn T) (transposed A π elem fixed))[k.val]? = some (U k) :=
    ⟨fun k => (apply (List.ofFn T) (transposed A π elem fixed))[k.val]'(by rw [hlen]; exact k.isLt), fun k => List.getElem?_eq_getElem _⟩
  have hb : ∀ k, (U k).min = (T k).min ∧ (U k).max = (T k).max := by
    intro k
    obtain ⟨e, h1, h2⟩ := foldl_set_bounds k.val (transposed A π elem fixed).dims (List.ofFn T) (T k) (hget k)
    have h3 := hU k
    unfold apply at h3
    rw [if_neg (by simp [transposed]), if_pos hT1, h1] at h3
    cases h3
    exact h2
  have hst : ∀ d, (U (π d)).stride = (A d).stride := by
    intro d
    obtain ⟨s, hsd⟩ := Option.isSome_iff_exists.1 (hA d).2.1
    have h1 := compat_apply hp _ _ h (A d, ⟨some (π d).val, 1, (A d).min⟩) (List.mem_ofFn.2 ⟨d, rfl⟩) s hsd (hA d).1
      (by
        intro k c hk hc
        cases hk
        rw [hget] at hc
        cases hc
        exact (hT _).1) rfl
    simp only [aliasStride, hU, Option.map_eq_some_iff] at h1
    obtain ⟨u, hu, hus⟩ := h1
    rw [hu, hsd, ← hus]
    simp
  refine ⟨U, ?_, fun d => ⟨(hb d).1, (hb d).2, hst d⟩, ?_⟩
  · apply List.ext_getElem?
    intro k
    by_cases hk : k < n
    · rw [hU ⟨k, hk⟩, List.getElem?_ofFn, dif_pos hk]
    · rw [List.getElem?_eq_none (by omega), List.getElem?_eq_none (by simp; omega)]
  · by_cases hn : n = 0
    · subst hn
      intro x y _ _ _
      funext d
      exact d.elim0
    have hhas : anyStride ((transposed A π elem fixed).dims.map Prod.fst) = true := by
      unfold anyStride
      rw [List.any_eq_true]
      have d : Fin n := ⟨0, by omega⟩
      exact ⟨A d, by simp [transposed, List.mem_ofFn], by simp [(hA d).1, (hA d).2.1]⟩
    unfold compat at h
    simp only at h
    rw [if_neg (by simp [transposed]), hhas, if_neg (by simp), if_pos hT1, Bool.and_eq_true] at h
    have hx := h.1
    unfold extentsOk at hx
    rw [Bool.or_eq_true, List.all_eq_true, List.all_eq_true] at hx
    intro x y bx bY hxy
    rcases hx with hx | hx
    · have hel : ∀ d, (A d).stride = some elem := by
        intro d
        have h1 := hx (A d, ⟨some (π d).val, 1, (A d).min⟩) (List.mem_ofFn.2 ⟨d, rfl⟩)
        obtain ⟨s, hsd⟩ := Option.isSome_iff_exists.1 (hA d).2.1
        simp only [(hA d).1, hsd, Option.isNone_some, Bool.false_or] at h1
        rw [hsd]
        exact hp _ _ h1
      have hone : ∀ i j : Fin n, i = j := by
        intro i j
        by_contra hij
        have h1 := hs (Function.update (fun d => (A d).min) i ((A i).min + 1)) (Function.update (fun d => (A d).min) j ((A j).min + 1))
          (by
            intro d
            have := (hA d).2.2
            by_cases hd : d = i
            · subst hd
              simp only [Function.update_self]
              omega
            · simp only [Function.update_of_ne hd]
              omega)
          (by
            intro d
            have := (hA d).2.2
            by_cases hd : d = j
            · subst hd
              simp only [Function.update_self]
              omega
            · simp only [Function.update_of_ne hd]
              omega)
          (by
            have key : ∀ i : Fin n, ∑ d, (A d).stride.getD 0 * Function.update (fun d => (A d).min) i ((A i).min + 1) d =
                elem + ∑ d, elem * (A d).min := by
              intro i
              have e1 : ∀ d, (A d).stride.getD 0 * Function.update (fun d => (A d).min) i ((A i).min + 1) d =
                  (if d = i then elem else 0) + elem * (A d).min := by
                intro d
                by_cases hd : d = i
                · subst hd
                  simp only [Function.update_self, hel, Option.getD_some, if_true]
                  ring
                · simp only [Function.update_of_ne hd, hel, Option.getD_some, if_neg hd]
                  ring
              rw [Finset.sum_congr rfl (fun d _ => e1 d), Finset.sum_add_distrib]
              simp
            rw [key, key])
        have h2 := congrFun h1 i
        rw [Function.update_self, Function.update_of_ne hij] at h2
        omega
      funext d
      have hU1 : ∀ d, (U d).stride = some elem := by
        intro d
        rw [← π.apply_symm_apply d, hst, hel]
      have hsum : ∀ f : Fin n → Int, ∑ e, f e = f d := by
        intro f
        rw [Finset.sum_eq_single d]
        · intro e _ hne
          exact absurd (hone e d) hne
        · simp
      rw [hsum, hsum, hU1] at hxy
      exact mul_left_cancel₀ he hxy
    · have hext : ∀ d, (A d).extent = (T (π d)).extent := by
        intro d
        have h1 := hx (A d, ⟨some (π d).val, 1, (A d).min⟩) (List.mem_ofFn.2 ⟨d, rfl⟩)
        simp only [inRange, List.length_ofFn, (π d).isLt, if_true, hget, (hA d).1, (hT _).1, Bool.false_or] at h1
        exact Option.some.inj (hp _ _ h1)
      have hin : ∀ z : Fin n → Int, (∀ d, (U d).min ≤ z d ∧ z d ≤ (U d).max) →
          ∀ d, (A d).min ≤ (A d).min + (z (π d) - (U (π d)).min) ∧ (A d).min + (z (π d) - (U (π d)).min) ≤ (A d).max := by
        intro z hz d
        have h1 := hz (π d)
        have h2 := hext d
        have h3 := hb (π d)
        unfold SDim.extent at h2
        omega
      have hsum : ∀ z : Fin n → Int, ∑ d, (A d).stride.getD 0 * ((A d).min + (z (π d) - (U (π d)).min)) =
          ∑ d, (A d).stride.getD 0 * ((A d).min - (U (π d)).min) + ∑ d, (U d).stride.getD 0 * z d := by
        intro z
        have e1 : ∑ d, (U d).stride.getD 0 * z d = ∑ d, (A d).stride.getD 0 * z (π d) := by
          rw [← Equiv.sum_comp π]
          exact Finset.sum_congr rfl fun d _ => by rw [hst]
        rw [e1, ← Finset.sum_add_distrib]
        exact Finset.sum_congr rfl fun d _ => by ring
      have h1 := hs (fun d => (A d).min + (x (π d) - (U (π d)).min)) (fun d => (A d).min + (y (π d) - (U (π d)).min)) (hin x bx) (hin y bY)
        (by rw [hsum, hsum, hxy])
      funext d
      have h2 := congrFun h1 (π.symm d)
      simp only [Equiv.apply_symm_apply] at h2
      omega

/-- An allocation of 4 × 10 elements with padded rows becomes a transposed alias of a buffer without strides. -/
theorem ex_no_share : let A : Fin 2 → SDim := ![⟨0, 3, some 32, false⟩, ⟨0, 9, some 2, false⟩]
    let T : Fin 2 → SDim := ![⟨5, 14, none, false⟩, ⟨0, 3, none, false⟩]
    ∃ U : Fin 2 → SDim, apply (List.ofFn T) (transposed A (Equiv.swap 0 1) 2 false) = List.ofFn U ∧ NoShare U := by
  intro A T
  obtain ⟨U, h1, _, h3⟩ := no_share_partial prT_sound T A (Equiv.swap 0 1) 2 false (by decide) (by decide +kernel) (by decide +kernel)
    (by decide +kernel) (by
      intro x y hx hy h
      have a0 := hx 0
      have a1 := hx 1
      have b0 := hy 0
      have b1 := hy 1
      simp [A, Fin.sum_univ_two] at a0 a1 b0 b1 h
      have e0 : x 0 = y 0 := by omega
      have e1 : x 1 = y 1 := by omega
      funext d
      fin_cases d
      · exact e0
      · exact e1)
  exact ⟨U, h1, h3⟩

/-- If a dimension of the allocation has one element, and the code does not see it, then elements of the buffer can share memory. -/
theorem one_element_counterexample : let a : Attempt := ⟨[(⟨0, 4, some 2, false⟩, ⟨some 0, 1, 0⟩), (⟨0, 0, some 2, false⟩, ⟨some 1, 1, 0⟩)], 2, true, false⟩
    let t : List SDim := [⟨0, 4, none, false⟩, ⟨0, 6, none, false⟩]
    compat prT t a = true ∧ run prT t [a] = [⟨0, 4, some 2, false⟩, ⟨0, 6, some 2, false⟩] ∧ addr2 2 2 1 0 = addr2 2 2 0 1 := by
  refine ⟨?_, ?_, ?_⟩ <;> decide +kernel

end Slinky.AS
