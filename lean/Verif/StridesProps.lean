import Verif.Strides
import Verif.BufferProps
import Mathlib.Data.List.Sort
import Mathlib.Data.List.Perm.Basic
import Mathlib.Algebra.BigOperators.Group.List.Basic
import Mathlib.Tactic.Ring
import Mathlib.Tactic.Linarith

/-!
# C22 and C23: memory layout
-/

namespace Slinky

/-- Dimensions that the API allows: the fold factor is `unfolded` or positive. -/
def Dim.Valid (d : Dim) : Prop := d.fold = Dim.unfolded ∨ 0 < d.fold

theorem ovf_false {r : Int} (h : ovf r = false) : -2 ^ 63 ≤ r ∧ r < 2 ^ 63 := by
  simp only [ovf, builtinOverflow, decide_eq_false_iff_not, not_not] at h
  exact h

theorem ovf_iff (r : Int) : ovf r = true ↔ ¬ (-2 ^ 63 ≤ r ∧ r < 2 ^ 63) := by
  simp only [ovf, builtinOverflow, decide_eq_true_eq]; rfl

/-- The number of strides that an in-bounds index is away from the start of a dimension. -/
def Dim.steps (d : Dim) (i : Int) : Int := if d.fold = Dim.unfolded then i - d.min else i % d.fold

theorem flatOffset_eq (d : Dim) (i : Int) : d.flatOffset i = d.steps i * d.stride := by
  unfold Dim.flatOffset Dim.steps
  by_cases hs : d.stride = 0
  · simp [hs]
  · by_cases hf : d.fold = Dim.unfolded <;> simp [hs, hf]

theorem steps_bounds (d : Dim) (i : Int) (hv : d.Valid) (hi : d.min ≤ i ∧ i ≤ d.max) :
    0 ≤ d.steps i ∧ d.steps i ≤ d.allocExtent - 1 := by
  unfold Dim.steps Dim.allocExtent Dim.extent
  rcases hv with hf | hf
  · rw [if_pos hf, if_neg (by rw [hf]; simp [Dim.unfolded]), if_pos (by omega)]; omega
  · rw [if_neg (by unfold Dim.unfolded; omega), if_pos hf]
    have := Int.emod_nonneg i (show d.fold ≠ 0 by omega)
    have := Int.emod_lt_of_pos i hf
    omega

/-! ## C23 -/

/-- Specification: the lowest and highest offset that the allocated extents allow. -/
def flatMin (ds : List Dim) : Int := (ds.map fun d => (d.allocExtent - 1) * min 0 d.stride).sum
/-- See `flatMin`. -/
def flatMax (ds : List Dim) : Int := (ds.map fun d => (d.allocExtent - 1) * max 0 d.stride).sum

theorem flatBoundsLoop_spec : ∀ (ds : List Dim) (lo hi : Int) (ov : Bool) (r : Int × Int),
    flatBoundsLoop ds lo hi ov = some r → (∀ d ∈ ds, d.stride ≠ 0 → d.allocExtent ≠ 0) →
    (ov = false → -2 ^ 63 ≤ lo ∧ lo < 2 ^ 63 ∧ -2 ^ 63 ≤ hi ∧ hi < 2 ^ 63) →
    ov = false ∧ r = (lo + flatMin ds, hi + flatMax ds) ∧
      (-2 ^ 63 ≤ r.1 ∧ r.1 < 2 ^ 63 ∧ -2 ^ 63 ≤ r.2 ∧ r.2 < 2 ^ 63) ∧
      (∀ d ∈ ds, d.stride = Dim.autoStride → d.allocExtent ≤ 1)
  | [], lo, hi, ov, r, h, _, hr => by
    simp only [flatBoundsLoop] at h
    split at h
    · cases h
    · rename_i ho
      simp at ho h
      subst h
      obtain ⟨a, b, c, d⟩ := hr ho
      refine ⟨ho, by simp [flatMin, flatMax], ⟨a, b, c, d⟩, by simp⟩
  | d :: ds, lo, hi, ov, r, h, hne, hr => by
    rw [flatBoundsLoop] at h
    by_cases hs : d.stride = 0
    · rw [if_pos hs] at h
      obtain ⟨h1, h2, h3, h4⟩ := flatBoundsLoop_spec ds lo hi ov r h (fun x hx => hne x (by simp [hx])) hr
      refine ⟨h1, ?_, h3, ?_⟩
      · rw [h2]; simp [flatMin, flatMax, hs]
      · intro x hx ha
        simp at hx
        rcases hx with rfl | hx
        · rw [hs] at ha; simp [Dim.autoStride] at ha
        · exact h4 x hx ha
    · rw [if_neg hs, if_neg (hne d (by simp) hs)] at h
      obtain ⟨h1, h2, h3, h4⟩ := flatBoundsLoop_spec ds _ _ _ r h (fun x hx => hne x (by simp [hx])) (by
        intro ho
        simp only [Bool.or_eq_false_iff] at ho
        obtain ⟨⟨⟨⟨⟨⟨h0, _⟩, _⟩, _⟩, h2⟩, _⟩, h4⟩ := ho
        have a := ovf_false h2
        have b := ovf_false h4
        exact ⟨a.1, a.2, b.1, b.2⟩)
      simp only [Bool.or_eq_false_iff] at h1
      obtain ⟨⟨⟨⟨⟨⟨h0, ha⟩, _⟩, _⟩, _⟩, _⟩, _⟩ := h1
      refine ⟨h0, ?_, h3, ?_⟩
      · rw [h2]; simp [flatMin, flatMax]; constructor <;> ring
      · intro x hx hxa
        simp at hx
        rcases hx with rfl | hx
        · simp at ha; exact ha hxa
        · exact h4 x hx hxa

/-- C23: a successful `calculate_flat_bounds` of a buffer that has no empty dimension is the exact range. -/
theorem flatBounds_spec (ds : List Dim) (lo hi : Int) (h : flatBounds ds = some (lo, hi))
    (hne : ∀ d ∈ ds, d.stride ≠ 0 → d.allocExtent ≠ 0) : lo = flatMin ds ∧ hi = flatMax ds ∧
      (-2 ^ 63 ≤ lo ∧ lo < 2 ^ 63 ∧ -2 ^ 63 ≤ hi ∧ hi < 2 ^ 63) := by
  obtain ⟨_, h2, h3, _⟩ := flatBoundsLoop_spec ds 0 0 false (lo, hi) h hne (by intro _; norm_num)
  simp at h2
  exact ⟨h2.1, h2.2, h3⟩

theorem inB_nonempty {ds : List Dim} {is : List Int} (h : InB ds is) (hv : ∀ d ∈ ds, d.Valid) :
    ∀ d ∈ ds, 1 ≤ d.allocExtent := by
  intro d hd
  obtain ⟨n, hn⟩ := List.getElem?_of_mem hd
  obtain ⟨x, _, hx⟩ := InB.get h hn
  have := steps_bounds d x (hv d hd) hx
  omega

theorem offset_flat : ∀ (ds : List Dim) (is : List Int), InB ds is → (∀ d ∈ ds, d.Valid) →
    flatMin ds ≤ Buf.offset ds is ∧ Buf.offset ds is ≤ flatMax ds
  | [], [], _, _ => by simp [flatMin, flatMax, Buf.offset]
  | [], _ :: _, h, _ => h.elim
  | _ :: _, [], h, _ => h.elim
  | d :: ds, i :: is, h, hv => by
    obtain ⟨h1, h2⟩ := offset_flat ds is h.2 (fun x hx => hv x (by simp [hx]))
    obtain ⟨h3, h4⟩ := steps_bounds d i (hv d (by simp)) h.1
    have e := flatOffset_eq d i
    simp only [flatMin, flatMax, List.map_cons, List.sum_cons, Buf.offset] at *
    rcases le_total 0 d.stride with hs | hs
    · rw [min_eq_left hs, max_eq_right hs]
      constructor <;> nlinarith
    · rw [min_eq_right hs, max_eq_left hs]
      constructor <;> nlinarith

/-- C23: the flat bounds enclose the offset of every in-bounds element, folded or not, with positive, negative or zero
strides. -/
theorem flatBounds_encloses (ds : List Dim) (lo hi : Int) (h : flatBounds ds = some (lo, hi)) (hv : ∀ d ∈ ds, d.Valid)
    (is : List Int) (hi' : InB ds is) : lo ≤ Buf.offset ds is ∧ Buf.offset ds is ≤ hi := by
  have hne := inB_nonempty hi' hv
  obtain ⟨rfl, rfl, _⟩ := flatBounds_spec ds lo hi h (fun d hd _ => by have := hne d hd; omega)
  exact offset_flat ds is hi' hv

theorem flatMin_nonpos : ∀ (ds : List Dim), (∀ d ∈ ds, 1 ≤ d.allocExtent) → flatMin ds ≤ 0
  | [], _ => by simp [flatMin]
  | d :: ds, h => by
    have h1 := flatMin_nonpos ds (fun x hx => h x (by simp [hx]))
    have h2 := h d (by simp)
    have h3 : (d.allocExtent - 1) * min 0 d.stride ≤ 0 := mul_nonpos_of_nonneg_of_nonpos (by omega) (min_le_left _ _)
    simp only [flatMin, List.map_cons, List.sum_cons] at *
    omega

theorem flatMax_nonneg : ∀ (ds : List Dim), (∀ d ∈ ds, 1 ≤ d.allocExtent) → 0 ≤ flatMax ds
  | [], _ => by simp [flatMax]
  | d :: ds, h => by
    have h1 := flatMax_nonneg ds (fun x hx => h x (by simp [hx]))
    have h2 := h d (by simp)
    have h3 : 0 ≤ (d.allocExtent - 1) * max 0 d.stride := mul_nonneg (by omega) (le_max_left _ _)
    simp only [flatMax, List.map_cons, List.sum_cons] at *
    omega

/-- C23: `size_bytes` covers the bytes of every in-bounds element, if it is not 0 (which it is when it overflows): there is
one range of `size_bytes` bytes that contains all the elements. -/
theorem sizeBytes_covers (b : Buf) (hv : ∀ d ∈ b.dims, d.Valid) (hs : b.sizeBytes ≠ 0) :
    ∃ lo : Int, lo ≤ 0 ∧ ∀ is, b.InBounds is →
      lo ≤ Buf.offset b.dims is ∧ Buf.offset b.dims is + b.elem ≤ lo + b.sizeBytes := by
  unfold Buf.sizeBytes allocSize at *
  split at hs
  · exact absurd rfl hs
  · rename_i ha
    rw [if_neg ha]
    cases hf : flatBounds b.dims with
    | none => rw [hf] at hs; exact absurd rfl hs
    | some r =>
      obtain ⟨lo, hi⟩ := r
      rw [hf] at hs
      simp only at hs ⊢
      split at hs
      · exact absurd rfl hs
      · split at hs
        · exact absurd rfl hs
        · rename_i h1 h2
          simp only [h1, h2, if_false, Bool.false_eq_true]
          have hne : ∀ d ∈ b.dims, d.allocExtent ≠ 0 := by simpa using ha
          refine ⟨lo, ?_, fun is his => ?_⟩
          · rw [(flatBounds_spec _ _ _ hf (fun d hd _ => hne d hd)).1]
            apply flatMin_nonpos
            intro d hd
            have h0 : 0 ≤ d.allocExtent := by unfold Dim.allocExtent Dim.extent; split_ifs <;> omega
            have h1 := hne d hd
            omega
          · have := flatBounds_encloses b.dims lo hi hf hv is his
            omega

/-- A dimension that has all the residues of its fold factor (any non-empty unfolded dimension does). -/
def Dim.Full (d : Dim) : Prop := d.min ≤ d.max ∧ (0 < d.fold → d.fold ≤ d.max - d.min + 1)

theorem steps_attained (d : Dim) (hv : d.Valid) (hf : d.Full) (k : Int) (hk : 0 ≤ k ∧ k < d.allocExtent) :
    ∃ i, d.min ≤ i ∧ i ≤ d.max ∧ d.steps i = k := by
  obtain ⟨h1, h2⟩ := hf
  unfold Dim.steps Dim.allocExtent Dim.extent at *
  rcases hv with hv | hv
  · rw [if_neg (by rw [hv]; simp [Dim.unfolded]), if_pos (by omega)] at hk
    exact ⟨d.min + k, by omega, by omega, by rw [if_pos hv]; omega⟩
  · rw [if_pos hv] at hk
    have h3 := h2 hv
    have h4 := Int.emod_nonneg (k - d.min) (show d.fold ≠ 0 by omega)
    have h5 := Int.emod_lt_of_pos (k - d.min) hv
    refine ⟨d.min + (k - d.min) % d.fold, by omega, by omega, ?_⟩
    rw [if_neg (by unfold Dim.unfolded; omega)]
    rw [Int.add_emod, Int.emod_emod_of_dvd _ (dvd_refl _), ← Int.add_emod]
    rw [show d.min + (k - d.min) = k by ring]
    exact Int.emod_eq_of_lt hk.1 hk.2

theorem full_extent (d : Dim) (hf : d.Full) : 1 ≤ d.allocExtent := by
  obtain ⟨h1, h2⟩ := hf
  unfold Dim.allocExtent Dim.extent
  split_ifs <;> omega

/-- C23: both ends of the flat bounds are the offsets of in-bounds elements, so the flat bounds are as tight as possible,
unless a folded dimension is smaller than its fold factor. -/
theorem flatBounds_attained : ∀ (ds : List Dim), (∀ d ∈ ds, d.Valid) → (∀ d ∈ ds, d.Full) →
    (∃ is, InB ds is ∧ Buf.offset ds is = flatMin ds) ∧ (∃ is, InB ds is ∧ Buf.offset ds is = flatMax ds)
  | [], _, _ => ⟨⟨[], trivial, rfl⟩, ⟨[], trivial, rfl⟩⟩
  | d :: ds, hv, hf => by
    obtain ⟨⟨l, hl, el⟩, ⟨u, hu, eu⟩⟩ := flatBounds_attained ds (fun x hx => hv x (by simp [hx])) (fun x hx => hf x (by simp [hx]))
    have hd := hv d (by simp)
    have hd' := hf d (by simp)
    have he := full_extent d hd'
    obtain ⟨i0, a1, a2, a3⟩ := steps_attained d hd hd' 0 (by omega)
    obtain ⟨i1, b1, b2, b3⟩ := steps_attained d hd hd' (d.allocExtent - 1) (by omega)
    have e0 := flatOffset_eq d i0
    have e1 := flatOffset_eq d i1
    rw [a3] at e0; rw [b3] at e1
    simp only [flatMin, flatMax, List.map_cons, List.sum_cons] at *
    rcases le_total 0 d.stride with hs | hs
    · rw [min_eq_left hs, max_eq_right hs]
      exact ⟨⟨i0 :: l, ⟨⟨a1, a2⟩, hl⟩, by simp [Buf.offset, e0, el]⟩, ⟨i1 :: u, ⟨⟨b1, b2⟩, hu⟩, by simp [Buf.offset, e1, eu]⟩⟩
    · rw [min_eq_right hs, max_eq_left hs]
      exact ⟨⟨i1 :: l, ⟨⟨b1, b2⟩, hl⟩, by simp [Buf.offset, e1, el]⟩, ⟨i0 :: u, ⟨⟨a1, a2⟩, hu⟩, by simp [Buf.offset, e0, eu]⟩⟩

/-- C23: `size_bytes` is exact: any range of bytes that contains all elements has at least `size_bytes` bytes. -/
theorem sizeBytes_tight (b : Buf) (hv : ∀ d ∈ b.dims, d.Valid) (hf : ∀ d ∈ b.dims, d.Full) (hpos : 0 < b.elem) (lo size : Int)
    (h : ∀ is, b.InBounds is → lo ≤ Buf.offset b.dims is ∧ Buf.offset b.dims is + b.elem ≤ lo + size) :
    b.sizeBytes ≤ size := by
  obtain ⟨⟨l, hl, el⟩, ⟨u, hu, eu⟩⟩ := flatBounds_attained b.dims hv hf
  have h1 := (h l hl).1
  have h2 := (h u hu).2
  have h3 := (h l hl).2
  have hs : 0 ≤ size := by omega
  unfold Buf.sizeBytes allocSize
  split
  · exact hs
  · cases hfb : flatBounds b.dims with
    | none => exact hs
    | some r =>
      obtain ⟨lo', hi'⟩ := r
      obtain ⟨rfl, rfl, _⟩ := flatBounds_spec _ _ _ hfb (fun d hd _ => by have := full_extent d (hf d hd); omega)
      simp only
      split_ifs <;> omega

/-- A folded dimension whose bounds are inside one fold has a `size_bytes` that is larger than the range of its elements (the
comment in `alloc_extent` says so). -/
theorem sizeBytes_folded_not_tight : ∃ b : Buf, (∀ d ∈ b.dims, d.Valid) ∧ b.sizeBytes = 8 ∧
    ∀ is, b.InBounds is → 0 ≤ Buf.offset b.dims is ∧ Buf.offset b.dims is + b.elem ≤ 0 + 2 := by
  refine ⟨⟨some 0, 1, [⟨0, 1, 1, 8⟩]⟩, by simp [Dim.Valid], by decide +kernel, ?_⟩
  intro is h
  match is, h with
  | [i], h =>
    have h1 : (0 : Int) ≤ i ∧ i ≤ 1 := h.1
    have : i = 0 ∨ i = 1 := by omega
    rcases this with rfl | rfl <;> decide +kernel

/-- C23: an empty buffer has no size. -/
theorem sizeBytes_empty (b : Buf) (d : Dim) (hd : d ∈ b.dims) (he : d.allocExtent = 0) : b.sizeBytes = 0 := by
  unfold Buf.sizeBytes allocSize
  rw [if_pos (by simp only [List.any_eq_true, decide_eq_true_eq]; exact ⟨d, hd, he⟩)]

/-- C23: `size_bytes` of a buffer without empty dimensions is 0 only when the exact size does not fit (or a stride is not
known). -/
theorem sizeBytes_eq_or_overflow (b : Buf) (hne : ∀ d ∈ b.dims, 1 ≤ d.allocExtent) :
    b.sizeBytes = flatMax b.dims - flatMin b.dims + b.elem ∨
    (b.sizeBytes = 0 ∧ (flatBounds b.dims = none ∨ flatMax b.dims - flatMin b.dims ≥ 2 ^ 63 ∨
      flatMax b.dims - flatMin b.dims + b.elem ≥ 2 ^ 64 )) := by
  unfold Buf.sizeBytes allocSize
  rw [if_neg (by
    simp only [List.any_eq_true, decide_eq_true_eq, not_exists, not_and]
    intro d hd h; have := hne d hd; omega)]
  cases hfb : flatBounds b.dims with
  | none => exact Or.inr ⟨rfl, Or.inl rfl⟩
  | some r =>
    obtain ⟨lo', hi'⟩ := r
    obtain ⟨rfl, rfl, hr⟩ := flatBounds_spec _ _ _ hfb (fun d hd _ => by have := hne d hd; omega)
    have hlo := flatMin_nonpos b.dims hne
    simp only
    split_ifs with h1 h2
    · right
      refine ⟨rfl, Or.inr (Or.inl ?_)⟩
      rw [ovf_iff] at h1
      have h0 : 0 ≤ flatMax b.dims := flatMax_nonneg b.dims hne
      omega
    · exact Or.inr ⟨rfl, Or.inr (Or.inr h2)⟩
    · exact Or.inl rfl

theorem flatBoundsLoop_fail : ∀ (ds : List Dim) (lo hi : Int) (ov : Bool), lo ≤ 0 → 0 ≤ hi → -2 ^ 63 ≤ lo → hi < 2 ^ 63 →
    (∀ d ∈ ds, 1 ≤ d.allocExtent) → (∀ d ∈ ds, d.allocExtent ≤ 2 ^ 63) →
    (∀ d ∈ ds, d.stride = Dim.autoStride → d.allocExtent = 1) → ov = false →
    -2 ^ 63 ≤ lo + flatMin ds → hi + flatMax ds < 2 ^ 63 → (flatBoundsLoop ds lo hi ov).isSome
  | [], lo, hi, ov, _, _, _, _, _, _, _, ho, _, _ => by subst ho; rfl
  | d :: ds, lo, hi, ov, h1, h2, h1', h2', hne, hle, hau, ho, hlo, hhi => by
    subst ho
    have t1 := hne d (by simp)
    have t2 := hle d (by simp)
    have m0 := flatMin_nonpos ds (fun x hx => hne x (by simp [hx]))
    have m1 := flatMax_nonneg ds (fun x hx => hne x (by simp [hx]))
    rw [flatBoundsLoop]
    simp only [flatMin, flatMax, List.map_cons, List.sum_cons] at *
    have e1 : (d.allocExtent - 1) * min 0 d.stride ≤ 0 := mul_nonpos_of_nonneg_of_nonpos (by omega) (min_le_left _ _)
    have e2 : 0 ≤ (d.allocExtent - 1) * max 0 d.stride := mul_nonneg (by omega) (le_max_left _ _)
    by_cases hs : d.stride = 0
    · rw [if_pos hs]
      rw [hs] at hlo hhi
      exact flatBoundsLoop_fail ds lo hi _ h1 h2 h1' h2' (fun x hx => hne x (by simp [hx])) (fun x hx => hle x (by simp [hx]))
        (fun x hx => hau x (by simp [hx])) rfl (by simpa [flatMin] using hlo) (by simpa [flatMax] using hhi)
    · rw [if_neg hs, if_neg (by omega)]
      refine flatBoundsLoop_fail ds _ _ _ (by omega) (by omega) (by omega) (by omega) (fun x hx => hne x (by simp [hx]))
        (fun x hx => hle x (by simp [hx])) (fun x hx => hau x (by simp [hx])) ?_ (by unfold flatMin; omega) (by unfold flatMax; omega)
      have a1 : ∀ r : Int, -2 ^ 63 ≤ r → r < 2 ^ 63 → ovf r = false := by
        intro r x y
        cases h : ovf r
        · rfl
        · rw [ovf_iff] at h; omega
      have au : (decide (d.stride = Dim.autoStride) && decide (d.allocExtent > 1)) = false := by
        by_cases h : d.stride = Dim.autoStride
        · have := hau d (by simp) h; simp [this]
        · simp [h]
      rw [a1 _ (by omega) (by omega), a1 _ (by omega) (by omega), a1 _ (by omega) (by omega), a1 _ (by omega) (by omega),
        a1 _ (by omega) (by omega), au]
      rfl

/-- C23: `calculate_flat_bounds` fails only if a stride is not known or an end does not fit in a signed 64-bit integer. -/
theorem flatBounds_succeeds (ds : List Dim) (hne : ∀ d ∈ ds, 1 ≤ d.allocExtent) (hle : ∀ d ∈ ds, d.allocExtent ≤ 2 ^ 63)
    (hau : ∀ d ∈ ds, d.stride = Dim.autoStride → d.allocExtent = 1) (hlo : -2 ^ 63 ≤ flatMin ds) (hhi : flatMax ds < 2 ^ 63) :
    (flatBounds ds).isSome := by
  exact flatBoundsLoop_fail ds 0 0 false (by omega) (by omega) (by norm_num) (by norm_num) hne hle hau rfl (by omega) (by omega)

/-- C23: a buffer that `validate_buffer` accepts has no element that crosses an end of the address space. -/
theorem validate_correct (b : Buf) (p : Int) (hb : b.base = some p) (hv : ∀ d ∈ b.dims, d.Valid) (h : b.validate = true)
    (is : List Int) (hi : b.InBounds is) : 0 ≤ p + Buf.offset b.dims is ∧ p + Buf.offset b.dims is + b.elem < 2 ^ 64 := by
  unfold Buf.validate at h
  cases hf : flatBounds b.dims with
  | none => rw [hf] at h; simp at h
  | some r =>
    obtain ⟨lo, hi'⟩ := r
    rw [hf, hb] at h
    simp only [Bool.and_eq_true, Bool.not_eq_true', decide_eq_false_iff_not, not_lt, ge_iff_le, not_le] at h
    have := flatBounds_encloses _ _ _ hf hv is hi
    omega

theorem flatBoundsLoop_empty : ∀ (ds : List Dim) (lo hi : Int) (ov : Bool), (∃ d ∈ ds, d.stride ≠ 0 ∧ d.allocExtent = 0) →
    flatBoundsLoop ds lo hi ov = some (0, 0)
  | [], _, _, _, h => by simp at h
  | d :: ds, lo, hi, ov, h => by
    unfold flatBoundsLoop
    by_cases h0 : d.stride = 0
    · rw [if_pos h0]
      refine flatBoundsLoop_empty ds lo hi ov ?_
      obtain ⟨x, hx, h1, h2⟩ := h
      rcases List.mem_cons.1 hx with rfl | hx
      · exact absurd h0 h1
      · exact ⟨x, hx, h1, h2⟩
    · rw [if_neg h0]
      by_cases h1 : d.allocExtent = 0
      · rw [if_pos h1]
      · rw [if_neg h1]
        refine flatBoundsLoop_empty ds _ _ _ ?_
        obtain ⟨x, hx, h2, h3⟩ := h
        rcases List.mem_cons.1 hx with rfl | hx
        · exact absurd h3 h1
        · exact ⟨x, hx, h2, h3⟩

/-- C23: a buffer with an empty dimension (that is not a broadcast) is accepted by `validate_buffer` whatever the extents and strides of its
other dimensions are, unless its base is so close to the end of the address space that not even one element fits. -/
theorem validate_empty (b : Buf) (h : ∃ d ∈ b.dims, d.stride ≠ 0 ∧ d.allocExtent = 0) (hb : ∀ p, b.base = some p → 0 ≤ p ∧ p + b.elem < 2 ^ 64)
    (he : b.elem < 2 ^ 64) : b.validate = true := by
  unfold Buf.validate flatBounds
  rw [flatBoundsLoop_empty _ _ _ _ h]
  cases hp : b.base with
  | none => rfl
  | some p =>
    have := hb p hp
    simp only [Bool.and_eq_true, Bool.not_eq_true', decide_eq_false_iff_not]
    omega

/-- Non-vacuity: a buffer of 3x4 elements of 2 bytes, the second dimension stored backwards and a third one folded. -/
example : (⟨some 100, 2, [⟨0, 2, 2, Dim.unfolded⟩, ⟨0, 3, -6, Dim.unfolded⟩, ⟨10, 20, 24, 4⟩]⟩ : Buf).sizeBytes = 96 ∧
    (⟨some 100, 2, [⟨0, 2, 2, Dim.unfolded⟩, ⟨0, 3, -6, Dim.unfolded⟩, ⟨10, 20, 24, 4⟩]⟩ : Buf).validate = true ∧
    (⟨some 17, 2, [⟨0, 2, 2, Dim.unfolded⟩, ⟨0, 3, -6, Dim.unfolded⟩, ⟨10, 20, 24, 4⟩]⟩ : Buf).validate = false := by
  decide +kernel

end Slinky
