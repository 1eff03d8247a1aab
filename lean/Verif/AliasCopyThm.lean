import Verif.AliasCopy
import Mathlib.Tactic.Ring
import Mathlib.Tactic.Linarith

/-!
# An alias of a buffer of a copy has the elements that the copy reads or writes

See `AliasCopy.lean` for the code and the specification.
-/

namespace Slinky.AC

open Finset

variable {m n : Nat}

theorem dstDim_none {c : Fin m → Lin n} {d : Fin n} (h : dstDim c d = some none) (s : Fin m) : (c s).dim ≠ some d := by
  unfold dstDim at h
  split at h
  · next hf =>
    intro hs
    have : s ∈ (List.finRange m).filter (fun s => decide ((c s).dim = some d)) := by simp [hs]
    rw [hf] at this; simp at this
  · cases h
  · cases h

theorem dstDim_some {c : Fin m → Lin n} {d : Fin n} {s : Fin m} (h : dstDim c d = some (some s)) (s' : Fin m) :
    (c s').dim = some d ↔ s' = s := by
  unfold dstDim at h
  split at h
  · cases h
  · next s0 hf =>
    simp only [Option.some.injEq] at h; subst h
    have : s' ∈ (List.finRange m).filter (fun s => decide ((c s).dim = some d)) ↔ s' ∈ [s0] := by rw [hf]
    simpa using this
  · cases h

/-- The offset of an index, split into the part for the start and the part for the index in the alias. `G d s`: what the index `s` of the one buffer adds
for the index `d` of the other. -/
theorem sum_match {c : Fin m → Lin n} (G : Fin n → Fin m → Int) (hc : ∀ d, (dstDim c d).isSome = true) :
    ∑ d, (match dstDim c d with
      | some (some s) => G d s
      | _ => 0) = ∑ s, (match (c s).dim with
      | some d => G d s
      | none => 0) := by
  have h1 : ∀ d, (match dstDim c d with
      | some (some s) => G d s
      | _ => 0) = ∑ s, if (c s).dim = some d then G d s else 0 := by
    intro d
    have := hc d
    match hd : dstDim c d with
    | none => rw [hd] at this; cases this
    | some none =>
      exact (Finset.sum_eq_zero fun s _ => by rw [if_neg (dstDim_none hd s)]).symm
    | some (some s) =>
      have e : ∀ s', (if (c s').dim = some d then G d s' else 0) = if s' = s then G d s' else 0 := by
        intro s'; simp only [dstDim_some hd s']
      simp only [e, Finset.sum_ite_eq', Finset.mem_univ, if_true]
  have h2 : ∀ s, (match (c s).dim with
      | some d => G d s
      | none => 0) = ∑ d, if (c s).dim = some d then G d s else 0 := by
    intro s
    match hs : (c s).dim with
    | none => simp
    | some d0 => simp
  simp only [h1, h2]
  exact Finset.sum_comm

theorem flat_zero {d : Dim} (h : d.stride = 0) (i : Int) : d.flatOffset i = 0 := by simp [Dim.flatOffset, h]

/-! ## The destination becomes an alias of the source -/

/-- C68. If the allocation that is the destination of a copy becomes an alias of the source, and all that the copy reads is in bounds of the source, then every
element of the destination is the element of the source that would have been copied there: reading it gives the same value, and nothing is to be copied.
Conditions: if an index is scaled, the index before the first of the destination is not in bounds of the source; if the source is folded, the alias starts
at a multiple of the fold factor. -/
theorem dst_address_partial {c : Fin m → Lin n} {src : FBuf m} {D : Fin n → Dim} {a : FBuf n} (h : aliasDst c src D = some a)
    (hpos : ∀ s, (c s).scale ≠ 0)
    (hin : ∀ x, Within D x → ∀ s, (src.dims s).min ≤ srcIdx c x s ∧ srcIdx c x s ≤ (src.dims s).max)
    (hscale : ∀ s d, (c s).dim = some d → (c s).scale = 1 ∨ (c s).scale * ((D d).min - 1) + (c s).off < (src.dims s).min)
    (hfold : ∀ s d, (c s).dim = some d → (src.dims s).fold = Dim.unfolded ∨
      ((c s).scale = 1 ∧ (src.dims s).fold ∣ (D d).min ∧ (src.dims s).fold ∣ (c s).off))
    {x : Fin n → Int} (hx : Within D x) : a.address x = src.address (srcIdx c x) := by
  unfold aliasDst at h
  split at h
  swap
  · cases h
  next hc =>
  cases h
  obtain ⟨hc, hs0, _⟩ := hc
  have hcor : Within D (fun d => (D d).min) := fun d => ⟨le_refl _, le_trans (hx d).1 (hx d).2⟩
  have hat : dstAt c src.dims D = srcIdx c (fun d => (D d).min) := by
    funext s
    have hin0 := (hin _ hcor s).1
    unfold srcIdx at hin0
    unfold dstAt srcIdx
    match hs : (c s).dim with
    | none => rfl
    | some d =>
      have h0 : 0 < (c s).scale := lt_of_le_of_ne (hs0 s) (Ne.symm (hpos s))
      have e : copyAt (c s) (src.dims s) = copyMin (c s) (src.dims s) * (c s).scale + (c s).off := by
        unfold copyMin copyAt
        rw [add_sub_cancel_right, Int.mul_ediv_cancel _ h0.ne']
      show copyAt (c s) (src.dims s) - copyMin (c s) (src.dims s) + (D d).min = (c s).scale * (D d).min + (c s).off
      rw [e]
      rcases hscale s d hs with h1 | h1
      · rw [h1]; ring
      · have h2 : copyMin (c s) (src.dims s) = (D d).min := by
          rw [hs] at hin0
          unfold copyMin copyAt
          rw [add_sub_cancel_right, Int.mul_ediv_cancel _ h0.ne']
          have e3 : (src.dims s).min - (c s).off + (c s).scale - 1 = ((src.dims s).min - (c s).off + (c s).scale - 1 - (c s).scale * (D d).min) +
            (c s).scale * (D d).min := by ring
          rw [e3, Int.add_mul_ediv_left _ _ h0.ne', Int.ediv_eq_zero_of_lt, zero_add]
          · simp only [mul_sub, mul_one] at h1; omega
          · simp only at hin0; omega
        rw [h2]; ring
  have hcont : ∀ s, (src.dims s).contains (srcIdx c (fun d => (D d).min) s) = true := by
    intro s
    have := hin _ hcor s
    simp [Dim.contains, Dim.containsI, this.1, this.2]
  unfold FBuf.address
  simp only [FBuf.bufferAt, hat, hcont, implies_true, if_true]
  unfold FBuf.address
  cases src.base with
  | none => rfl
  | some p =>
    simp only [Option.map_some, Option.some.injEq]
    rw [add_assoc]
    congr 1
    -- the dimensions of the alias
    have e1 : ∀ d, (dstDims c src.dims D d).flatOffset (x d) = (match dstDim c d with
      | some (some s) => (⟨(D d).min, (D d).max, (src.dims s).stride * (c s).scale, (src.dims s).fold⟩ : Dim).flatOffset (x d)
      | _ => 0) := by
      intro d
      unfold dstDims
      match hd : dstDim c d with
      | none => exact flat_zero rfl _
      | some none => exact flat_zero rfl _
      | some (some s) => rfl
    simp only [e1]
    rw [sum_match (fun d s => (⟨(D d).min, (D d).max, (src.dims s).stride * (c s).scale, (src.dims s).fold⟩ : Dim).flatOffset (x d)) hc,
      ← Finset.sum_add_distrib]
    refine Finset.sum_congr rfl fun s _ => ?_
    unfold srcIdx
    match hs : (c s).dim with
    | none => simp
    | some d =>
      show (src.dims s).flatOffset ((c s).scale * (D d).min + (c s).off) + _ = (src.dims s).flatOffset ((c s).scale * x d + (c s).off)
      by_cases hz : (src.dims s).stride = 0
      · rw [flat_zero hz, flat_zero hz]
        simp [Dim.flatOffset, hz]
      · have hz' : (src.dims s).stride * (c s).scale ≠ 0 := mul_ne_zero hz (hpos s)
        rcases hfold s d hs with hf | ⟨h1, h2, h3⟩
        · simp only [Dim.flatOffset, hf, or_true, if_true]; ring
        · by_cases hf : (src.dims s).fold = Dim.unfolded
          · simp only [Dim.flatOffset, hf, or_true, if_true]; ring
          · simp only [Dim.flatOffset, hf, hz, h1, one_mul, mul_one, or_self, if_false]
            rw [Int.emod_eq_zero_of_dvd (Int.dvd_add h2 h3), zero_mul, zero_add]
            congr 1
            obtain ⟨k, hk⟩ := h3
            rw [hk, Int.add_mul_emod_self_left]

/-! ## The source becomes an alias of the destination -/

theorem srcOk_iff {c : Fin m → Lin n} (h : srcOk c = true) :
    (∀ d, ∃ s, dstDim c d = some (some s) ∧ (c s).scale = 1) ∧ ∀ s, ∃ d, (c s).dim = some d ∧ dstDim c d = some (some s) ∧ (c s).scale = 1 := by
  simp only [srcOk, Bool.and_eq_true, decide_eq_true_eq] at h
  have h1 : ∀ d, ∃ s, dstDim c d = some (some s) ∧ (c s).scale = 1 := by
    intro d
    have := h.1 d
    match hd : dstDim c d with
    | none => rw [hd] at this; cases this
    | some none => rw [hd] at this; cases this
    | some (some s) => rw [hd] at this; exact ⟨s, rfl, of_decide_eq_true this⟩
  refine ⟨h1, fun s => ?_⟩
  obtain ⟨d, hd⟩ := Option.isSome_iff_exists.mp (h.2 s)
  obtain ⟨s', e, hs⟩ := h1 d
  obtain rfl := (dstDim_some e s).mp hd
  exact ⟨d, hd, e, hs⟩

theorem srcAt_eq {c : Fin m → Lin n} {S : Fin m → Dim} {d : Fin n} {s : Fin m} (h : dstDim c d = some (some s)) :
    srcAt c S d = (S s).min - (c s).off := by simp [srcAt, h]

theorem srcDims_eq {c : Fin m → Lin n} {S : Fin m → Dim} {D : Fin n → Dim} {d : Fin n} {s : Fin m} (h : (c s).dim = some d) :
    srcDims c S D s = ⟨max (S s).min ((D d).min + (c s).off), min (S s).max ((D d).max + (c s).off), (D d).stride, (D d).fold⟩ := by
  simp [srcDims, h]

/-- The dimensions that the destination is allocated with have the bounds that it had, and the same strides and fold factors. -/
theorem grow_keeps {c : Fin m → Lin n} {S : Fin m → Dim} {D E : Fin n → Dim} {fixed : Bool} (h : aliasSrcDims c S D fixed = some E) (d : Fin n) :
    (E d).min ≤ (D d).min ∧ (D d).max ≤ (E d).max ∧ (E d).stride = (D d).stride ∧ (E d).fold = (D d).fold ∧ (fixed = true → E d = D d) := by
  unfold aliasSrcDims at h
  split at h
  swap
  · cases h
  split at h
  · cases h; exact ⟨le_refl _, le_refl _, rfl, rfl, fun _ => rfl⟩
  · split at h
    · cases h
    · next hf =>
      cases h
      refine ⟨?_, ?_, ?_, ?_, fun h => absurd h hf⟩ <;> unfold growDim <;> split
      all_goals first | rfl | exact min_le_left _ _ | exact le_max_left _ _ | exact le_refl _

/-- Every element of the source has a place in the bounds that the destination is allocated with. Condition: the source does not end after the destination. -/
theorem src_within_partial {c : Fin m → Lin n} {S : Fin m → Dim} {D E : Fin n → Dim} {fixed : Bool} (h : aliasSrcDims c S D fixed = some E)
    (hend : inBounds c S D = true ∨ ∀ s d, (c s).dim = some d → (S s).max ≤ (D d).max + (c s).off)
    {x : Fin n → Int} (hx : ∀ s, (S s).min ≤ srcIdx c x s ∧ srcIdx c x s ≤ (S s).max) : Within E x := by
  intro d
  have hE := grow_keeps h d
  have h' := h
  unfold aliasSrcDims at h
  split at h
  swap
  · cases h
  next hok =>
  obtain ⟨s, hd, h1⟩ := (srcOk_iff hok.1).1 d
  have hs : (c s).dim = some d := (dstDim_some hd s).mpr rfl
  have hxs := hx s
  simp only [srcIdx, hs, h1, one_mul] at hxs
  by_cases hb : inBounds c S D = true
  · rw [if_pos hb] at h; cases h
    simp only [inBounds, decide_eq_true_eq] at hb
    have := hb s
    rw [srcDims_eq hs] at this
    simp only [max_le_iff, le_min_iff] at this
    exact ⟨by omega, by omega⟩
  · rw [if_neg hb] at h
    split at h
    · cases h
    · cases h
      rcases hend with hend | hend
      · exact absurd hend hb
      have h2 := hend s d hs
      refine ⟨?_, by omega⟩
      have : (growDim c S D d).min ≤ srcAt c S d := by
        simp only [growDim, hd]; exact min_le_right _ _
      rw [srcAt_eq hd] at this
      omega

/-- C68. If the allocation that is the source of a copy becomes an alias of the destination, then every element of the source is the element of the destination
that it would have been copied to: what is produced there is in its place, and nothing is to be copied. Conditions: the source does not end after the
destination; if the destination is folded, the alias starts at a multiple of the fold factor. -/
theorem src_address_partial {c : Fin m → Lin n} {S : Fin m → Dim} {D E : Fin n → Dim} {fixed : Bool} (h : aliasSrcDims c S D fixed = some E)
    {dst : FBuf n} (hdst : ∀ d, dst.dims d = E d)
    (hend : inBounds c S D = true ∨ ∀ s d, (c s).dim = some d → (S s).max ≤ (D d).max + (c s).off)
    (hfold : ∀ s d, (c s).dim = some d → (D d).fold = Dim.unfolded ∨ ((D d).fold ∣ (S s).min ∧ (D d).fold ∣ (c s).off))
    {x : Fin n → Int} (hx : ∀ s, (S s).min ≤ srcIdx c x s ∧ srcIdx c x s ≤ (S s).max) :
    (aliasSrc c S D dst).address (srcIdx c x) = dst.address x := by
  have hok : srcOk c = true := by
    unfold aliasSrcDims at h
    split at h
    · next hok => exact hok.1
    · cases h
  obtain ⟨hd1, hs1⟩ := srcOk_iff hok
  have hc : ∀ d, (dstDim c d).isSome = true := fun d => by obtain ⟨s, e, _⟩ := hd1 d; rw [e]; rfl
  have hidx : srcIdx c (srcAt c S) = fun s => (S s).min := by
    funext s
    obtain ⟨d, hd, e, h1⟩ := hs1 s
    simp only [srcIdx, hd, h1, one_mul, srcAt_eq e]; ring
  have hw : Within E (srcAt c S) :=
    src_within_partial h hend (fun s => by rw [hidx]; exact ⟨le_refl _, le_trans (hx s).1 (hx s).2⟩)
  have hcont : ∀ d, (dst.dims d).contains (srcAt c S d) = true := by
    intro d
    rw [hdst]
    simp [Dim.contains, Dim.containsI, hw d]
  unfold FBuf.address aliasSrc
  simp only [FBuf.bufferAt, hcont, implies_true, if_true]
  unfold FBuf.address
  cases dst.base with
  | none => rfl
  | some p =>
    simp only [Option.map_some, Option.some.injEq]
    rw [add_assoc]
    congr 1
    -- the indices of the source are those of the destination
    have e1 : ∀ s, ({ srcDims c S D s with min := (S s).min, max := (S s).max } : Dim).flatOffset (srcIdx c x s) = (match (c s).dim with
      | some d => (⟨(S s).min, (S s).max, (D d).stride, (D d).fold⟩ : Dim).flatOffset (x d + (c s).off)
      | none => 0) := by
      intro s
      obtain ⟨d, hd, e, h1⟩ := hs1 s
      simp only [srcDims, srcIdx, hd, h1, one_mul]
    simp only [e1]
    rw [← sum_match (fun d s => (⟨(S s).min, (S s).max, (D d).stride, (D d).fold⟩ : Dim).flatOffset (x d + (c s).off)) hc, ← Finset.sum_add_distrib]
    refine Finset.sum_congr rfl fun d _ => ?_
    obtain ⟨s, e, h1⟩ := hd1 d
    have hs : (c s).dim = some d := (dstDim_some e s).mpr rfl
    obtain ⟨_, _, g1, g2, _⟩ := grow_keeps h d
    simp only [e, srcAt_eq e, hdst]
    by_cases hz : (D d).stride = 0
    · rw [flat_zero (g1.trans hz), flat_zero (g1.trans hz), flat_zero (by exact hz)]; rfl
    · by_cases hf : (D d).fold = Dim.unfolded
      · simp only [Dim.flatOffset, g1, g2, hf, or_true, if_true]; ring
      · rcases hfold s d hs with hf' | ⟨h2, h3⟩
        · exact absurd hf' hf
        · simp only [Dim.flatOffset, g1, g2, hf, hz, or_self, if_false]
          rw [Int.emod_eq_zero_of_dvd (Int.dvd_sub h2 h3), zero_mul, zero_add]
          congr 1
          obtain ⟨k, hk⟩ := h3
          rw [hk, Int.add_mul_emod_self_left]

end Slinky.AC
