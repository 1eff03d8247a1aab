import Verif.StridesProps
import Mathlib.Data.List.Sort
import Mathlib.Data.List.Perm.Basic
import Mathlib.Tactic.Ring
import Mathlib.Tactic.Linarith

/-!
# C22: `init_strides`
-/

namespace Slinky

/-! ## Specification -/

/-- A dimension takes part in the layout if it has a stride and more than one element. -/
def Dim.live (d : Dim) : Bool := decide (d.stride ≠ 0) && decide (1 < d.allocExtent)

/-- The magnitude of the stride and the allocated extent of a dimension. -/
def Dim.lay (d : Dim) : Int × Int := ((d.stride.natAbs : Int), d.allocExtent)

/-- The layout of a list of dimensions. -/
def layout (ds : List Dim) : List (Int × Int) := (ds.filter Dim.live).map Dim.lay

/-- The dimensions that take part in the layout and have a stride already. -/
def preset (ds : List Dim) : List Dim := ds.filter fun d => decide (d.stride ≠ Dim.autoStride)

/-- One of two dimensions is contained in one step of the other. -/
def NestedIn (p q : Int × Int) : Prop := p.1 * p.2 ≤ q.1 ∨ q.1 * q.2 ≤ p.1

/-- A layout without overlap. -/
def Nested (elem : Int) (l : List (Int × Int)) : Prop := l.Pairwise NestedIn ∧ ∀ p ∈ l, elem ≤ p.1

/-- The number of bytes between the first and the last byte of a layout. -/
def span (l : List (Int × Int)) : Int := (l.map fun p => p.1 * (p.2 - 1)).sum

/-- What `init_strides` may change in a dimension. -/
def Keeps (elem al : Int) (d d' : Dim) : Prop :=
  d'.min = d.min ∧ d'.max = d.max ∧ d'.fold = d.fold ∧ (d.stride ≠ Dim.autoStride → d'.stride = d.stride) ∧
    (d.stride = Dim.autoStride → 0 < d'.stride ∧ (d'.stride = elem ∨ al ∣ d'.stride))

/-- Two tuples of indices address the same element. -/
def SameElem : List Dim → List Int → List Int → Prop
  | d :: ds, i :: is, j :: js =>
    (d.stride = 0 ∨ (if d.fold = Dim.unfolded then i = j else i % d.fold = j % d.fold)) ∧ SameElem ds is js
  | _, _, _ => True

/-! ## The invariants -/

theorem forall₂_mem_right {α β} {R : α → β → Prop} : ∀ {l : List α} {l' : List β}, List.Forall₂ R l l' → ∀ {b}, b ∈ l' → ∃ a ∈ l, R a b
  | [], _, .nil, _, h => by simp at h
  | a :: l, _, .cons (b := b') h t, b, hb => by
    rcases List.mem_cons.1 hb with rfl | hb
    · exact ⟨a, by simp, h⟩
    · obtain ⟨x, hx, hr⟩ := forall₂_mem_right t hb
      exact ⟨x, by simp [hx], hr⟩

theorem keeps_valid {elem al : Int} {ds ds' : List Dim} (h : List.Forall₂ (Keeps elem al) ds ds') (hv : ∀ d ∈ ds, d.Valid) :
    ∀ d ∈ ds', d.Valid := by
  intro d' hd'
  obtain ⟨d, hd, hk⟩ := forall₂_mem_right h hd'
  have := hv d hd
  unfold Dim.Valid at *
  rw [hk.2.2.1]; exact this


theorem NestedIn.symm {p q : Int × Int} (h : NestedIn p q) : NestedIn q p := Or.symm h

theorem span_perm {l l' : List (Int × Int)} (h : l.Perm l') : span l = span l' := (h.map _).sum_eq

theorem nested_perm {elem : Int} {l l' : List (Int × Int)} (h : l.Perm l') : Nested elem l → Nested elem l' := by
  rintro ⟨h1, h2⟩
  exact ⟨(h.pairwise_iff (fun h => NestedIn.symm h)).1 h1, fun p hp => h2 p (h.mem_iff.2 hp)⟩

/-- The record of `init_strides` for a dimension. -/
def sd (p : Int × Int) : SD := ⟨p.1, p.1 * p.2⟩

/-- The invariant of `init_strides`: `known` are the records of `l`. -/
structure KnownInv (st : IS) (l : List (Int × Int)) : Prop where
  perm : st.known.Perm (l.map sd)
  sorted : st.known.Pairwise fun a b => a.dimStride ≤ b.dimStride
  fm : st.flatMax = span l
  pos : ∀ p ∈ l, 0 < p.1 ∧ 1 < p.2

theorem insertSD_perm (d : SD) : ∀ l, (insertSD d l).Perm (d :: l)
  | [] => .refl _
  | x :: xs => by
    unfold insertSD
    split
    · exact ((insertSD_perm d xs).cons x).trans (.swap _ _ _)
    · exact .refl _

theorem insertSD_sorted (d : SD) : ∀ l : List SD, l.Pairwise (fun a b => a.dimStride ≤ b.dimStride) →
    (insertSD d l).Pairwise fun a b => a.dimStride ≤ b.dimStride
  | [], _ => by simp [insertSD]
  | x :: xs, h => by
    rw [List.pairwise_cons] at h
    unfold insertSD
    split
    · rename_i hlt
      rw [List.pairwise_cons]
      refine ⟨fun y hy => ?_, insertSD_sorted d xs h.2⟩
      rcases List.mem_cons.1 ((insertSD_perm d xs).mem_iff.1 hy) with rfl | hy
      · omega
      · exact h.1 y hy
    · rename_i hlt
      rw [List.pairwise_cons, List.pairwise_cons]
      refine ⟨fun y hy => ?_, h⟩
      rcases List.mem_cons.1 hy with rfl | hy
      · omega
      · have := h.1 y hy; omega

theorem learnDim_inv {st : IS} {l} (h : KnownInv st l) (s e : Int) (hs : 0 < s) (he : 1 < e) :
    KnownInv (learnDim st s e) ((s, e) :: l) := by
  refine ⟨?_, ?_, ?_, ?_⟩
  · exact (insertSD_perm _ _).trans (h.perm.cons _)
  · exact insertSD_sorted _ _ h.sorted
  · show st.flatMax + (s * e - s) = span ((s, e) :: l)
    rw [h.fm]; simp [span]; ring
  · intro p hp
    rcases List.mem_cons.1 hp with rfl | hp
    · exact ⟨hs, he⟩
    · exact h.pos p hp

theorem KnownInv.setOv {st : IS} {l} (h : KnownInv st l) (b : Bool) : KnownInv { st with ov := b } l :=
  ⟨h.perm, h.sorted, h.fm, h.pos⟩

theorem KnownInv.permL {st : IS} {l l'} (h : KnownInv st l) (p : l.Perm l') : KnownInv st l' :=
  ⟨h.perm.trans (p.map _), h.sorted, h.fm.trans (span_perm p), fun q hq => h.pos q (p.mem_iff.2 hq)⟩

theorem initKnown_ov (elem : Int) : ∀ (ds : List Dim) (st : IS), (initKnown elem ds st).2.ov = false → st.ov = false
  | [], st, h => h
  | d :: ds, st, h => by
    rw [initKnown] at h
    split at h
    · exact initKnown_ov elem ds st h
    · split at h
      · exact initKnown_ov elem ds st h
      · split at h
        · have := initKnown_ov elem ds _ h
          simp only [learnDim, Bool.or_eq_false_iff] at this
          exact this.1.1.1.1
        · exact initKnown_ov elem ds st h

theorem initKnown_spec (elem al : Int) (hel : 0 < elem) : ∀ (ds : List Dim) (st : IS) (l : List (Int × Int)),
    KnownInv st l → (initKnown elem ds st).2.ov = false →
    KnownInv (initKnown elem ds st).2 (layout (preset ds) ++ l) ∧
    List.Forall₂ (fun d d' => (d' = d ∧ (d.stride = Dim.autoStride → 1 < d.allocExtent)) ∨
      (d.stride = Dim.autoStride ∧ d.allocExtent ≤ 1 ∧ d' = { d with stride := elem })) ds (initKnown elem ds st).1
  | [], st, l, h, _ => by simpa [initKnown, layout, preset] using h
  | d :: ds, st, l, h, ho => by
    rw [initKnown] at ho ⊢
    by_cases hs : d.stride = 0
    · rw [if_pos hs] at ho ⊢
      obtain ⟨h1, h2⟩ := initKnown_spec elem al hel ds st l h ho
      have na : d.stride ≠ Dim.autoStride := by rw [hs]; simp [Dim.autoStride]
      refine ⟨?_, .cons (Or.inl ⟨rfl, fun h => absurd h na⟩) h2⟩
      have : layout (preset (d :: ds)) = layout (preset ds) := by
        simp only [layout, preset, List.filter_cons]
        rw [if_pos (by simpa using na), List.filter_cons, if_neg (by simp [Dim.live, hs])]
      rw [this]; exact h1
    · rw [if_neg hs] at ho ⊢
      by_cases he : d.allocExtent ≤ 1
      · rw [if_pos he] at ho ⊢
        obtain ⟨h1, h2⟩ := initKnown_spec elem al hel ds st l h ho
        have nl : ¬ (1 < d.allocExtent) := by omega
        refine ⟨?_, .cons ?_ h2⟩
        · have : layout (preset (d :: ds)) = layout (preset ds) := by
            by_cases ha : d.stride = Dim.autoStride <;>
              simp [layout, preset, List.filter_cons, ha, Dim.live, nl]
          rw [this]; exact h1
        · by_cases ha : d.stride = Dim.autoStride
          · rw [if_pos ha]; exact Or.inr ⟨ha, he, rfl⟩
          · rw [if_neg ha]; exact Or.inl ⟨rfl, fun h => absurd h ha⟩
      · rw [if_neg he] at ho ⊢
        by_cases ha : d.stride ≠ Dim.autoStride
        · rw [if_pos ha] at ho ⊢
          have hb : d.stride ≠ -2 ^ 63 := by
            intro hb
            have := initKnown_ov elem ds _ ho
            simp only [learnDim, Bool.or_eq_false_iff] at this
            have := this.1.1.1.2
            simp [hb] at this
          simp only [hb, decide_false, Bool.false_eq_true, if_false, Bool.or_false] at ho ⊢
          have hp : 0 < (d.stride.natAbs : Int) := by omega
          obtain ⟨h1, h2⟩ := initKnown_spec elem al hel ds _ _ (learnDim_inv h _ d.allocExtent hp (by omega)) ho
          refine ⟨h1.permL ?_, .cons (Or.inl ⟨rfl, fun h => absurd h ha⟩) h2⟩
          have : layout (preset (d :: ds)) = d.lay :: layout (preset ds) := by
            simp only [layout, preset, List.filter_cons]
            rw [if_pos (by simpa using ha)]
            rw [List.filter_cons, if_pos (by simp [Dim.live, hs]; omega)]
            simp
          rw [this]
          exact List.perm_middle
        · rw [if_neg ha] at ho ⊢
          obtain ⟨h1, h2⟩ := initKnown_spec elem al hel ds st l h ho
          have ha' : d.stride = Dim.autoStride := by simpa using ha
          refine ⟨?_, .cons (Or.inl ⟨rfl, fun _ => by omega⟩) h2⟩
          have : layout (preset (d :: ds)) = layout (preset ds) := by
            simp [layout, preset, List.filter_cons, ha']
          rw [this]; exact h1

/-- What the search for a stride guarantees. -/
def StrideOk (known : List SD) (c ext : Int) : Prop := ∀ d ∈ known, c * ext ≤ d.stride ∨ d.dimStride ≤ c

theorem isStrideOk_spec {s e : Int} {known : List SD} (h : (isStrideOk s e known).1 = true) : StrideOk known s e := by
  unfold isStrideOk at h
  split at h
  · simp at h
  · intro d hd
    simp only [List.all_eq_true, Bool.or_eq_true, decide_eq_true_eq] at h
    rcases h d hd with h | h <;> omega

theorem maskDown_spec (x al : Int) (h : 0 < al) : al ∣ maskDown x al ∧ maskDown x al ≤ x ∧ x < maskDown x al + al := by
  unfold maskDown
  have h1 := Int.emod_add_mul_ediv x al
  have h2 := Int.emod_nonneg x (show al ≠ 0 by omega)
  have h3 := Int.emod_lt_of_pos x h
  refine ⟨Dvd.intro_left _ rfl, ?_, ?_⟩ <;> nlinarith

theorem findStride_spec (al ext : Int) (hal : 0 < al) (known : List SD)
    (hs : known.Pairwise fun a b => a.dimStride ≤ b.dimStride) : ∀ (js pre : List SD) (ov : Bool), known = pre ++ js → js ≠ [] →
    ∃ c ov', findStride al ext known js ov = (some c, ov') ∧ StrideOk known c ext ∧ al ∣ c ∧ (∃ j ∈ known, j.dimStride ≤ c) ∧
      (ov' = false → ov = false)
  | [], _, _, _, h => absurd rfl h
  | j :: js, pre, ov, hk, _ => by
    rw [findStride]
    obtain ⟨m1, m2, m3⟩ := maskDown_spec (j.dimStride + (al - 1)) al hal
    have hj : j ∈ known := by rw [hk]; simp
    by_cases he : js.isEmpty = true
    · rw [if_pos he]
      refine ⟨_, _, rfl, ?_, m1, ⟨j, hj, by omega⟩, ?_⟩
      · intro d hd
        right
        have : js = [] := by simpa using he
        subst this
        rw [hk] at hd hs
        rcases List.mem_append.1 hd with hd | hd
        · have := (List.pairwise_append.1 hs).2.2 d hd j (by simp)
          omega
        · simp at hd; subst hd; omega
      · intro h; simp only [Bool.or_eq_false_iff] at h; exact h.1
    · rw [if_neg he]
      by_cases hok : (isStrideOk (maskDown (j.dimStride + (al - 1)) al) ext known).1 = true
      · simp only [hok, if_true]
        refine ⟨_, _, rfl, isStrideOk_spec hok, m1, ⟨j, hj, by omega⟩, ?_⟩
        intro h; simp only [Bool.or_eq_false_iff] at h; exact h.1.1
      · simp only [hok, Bool.false_eq_true, if_false]
        obtain ⟨c, ov', h1, h2, h3, h4, h5⟩ := findStride_spec al ext hal known hs js (pre ++ [j])
          (ov || ovf (j.dimStride + (al - 1)) || (isStrideOk (maskDown (j.dimStride + (al - 1)) al) ext known).2)
          (by rw [hk]; simp) (by simpa using he)
        refine ⟨c, ov', h1, h2, h3, h4, fun h => ?_⟩
        have := h5 h
        simp only [Bool.or_eq_false_iff] at this
        exact this.1.1

theorem nested_cons {elem : Int} {st : IS} {l} (hk : KnownInv st l) (hn : Nested elem l) {c ext : Int} (hc : elem ≤ c)
    (hok : StrideOk st.known c ext) : Nested elem ((c, ext) :: l) := by
  refine ⟨List.pairwise_cons.2 ⟨fun q hq => ?_, hn.1⟩, ?_⟩
  · have : sd q ∈ st.known := hk.perm.mem_iff.2 (List.mem_map.2 ⟨q, hq, rfl⟩)
    exact hok _ this
  · intro p hp
    rcases List.mem_cons.1 hp with rfl | hp
    · exact hc
    · exact hn.2 p hp

theorem initOne_spec (elem al : Int) (hel : 0 < elem) (hal : 0 < al) (d : Dim) (st : IS) (l : List (Int × Int)) (h : KnownInv st l)
    (he : 1 < d.allocExtent) (ho : (initOne elem al d st).2.ov = false) :
    ∃ c, (initOne elem al d st).1 = { d with stride := c } ∧ 0 < c ∧ (c = elem ∨ al ∣ c) ∧ st.ov = false ∧
      KnownInv (initOne elem al d st).2 ((c, d.allocExtent) :: l) ∧ (Nested elem l → Nested elem ((c, d.allocExtent) :: l)) := by
  unfold initOne at ho ⊢
  by_cases hok : (isStrideOk elem d.allocExtent st.known).1 = true
  · simp only [hok, if_true] at ho ⊢
    refine ⟨elem, rfl, hel, Or.inl rfl, ?_, learnDim_inv (h.setOv _) _ _ hel he, fun hn => ?_⟩
    · simp only [learnDim, Bool.or_eq_false_iff] at ho; exact ho.1.1.1.1
    · exact nested_cons h hn le_rfl (isStrideOk_spec hok)
  · simp only [hok, Bool.false_eq_true, if_false] at ho ⊢
    by_cases hk : st.known = []
    · exfalso
      simp only [hk, findStride] at ho
      simp only [Bool.or_eq_false_iff] at ho
      unfold isStrideOk at ho hok
      split at ho
      · simp at ho
      · rename_i hh; simp [hh, hk] at hok
    · obtain ⟨c, ov', h1, h2, h3, ⟨j, hj, hjc⟩, h5⟩ := findStride_spec al d.allocExtent hal st.known h.sorted st.known []
        (st.ov || (isStrideOk elem d.allocExtent st.known).2) rfl hk
      rw [h1] at ho ⊢
      simp only at ho ⊢
      obtain ⟨q, hq, hqj⟩ := List.mem_map.1 (h.perm.mem_iff.1 hj)
      have hq' := h.pos q hq
      have hjd : j.dimStride = q.1 * q.2 := by rw [← hqj]; rfl
      have hcq : q.1 < c := by nlinarith
      refine ⟨c, rfl, by omega, Or.inr h3, ?_, learnDim_inv (h.setOv _) _ _ (by omega) he, fun hn => ?_⟩
      · simp only [learnDim, Bool.or_eq_false_iff] at ho
        have := h5 ho.1.1.1
        simp only [Bool.or_eq_false_iff] at this
        exact this.1
      · have := hn.2 q hq
        exact nested_cons h hn (by omega) h2

theorem initUnknown_ov (elem al : Int) (hel : 0 < elem) (hal : 0 < al) : ∀ (ds : List Dim) (st : IS) (l), KnownInv st l →
    (initUnknown elem al ds st).2.ov = false → st.ov = false
  | [], st, _, _, h => h
  | d :: ds, st, l, hk, h => by
    rw [initUnknown] at h
    split at h
    · exact initUnknown_ov elem al hel hal ds st l hk h
    · rename_i hc
      have he : 1 < d.allocExtent := by
        by_contra hh; exact hc (Or.inr (by omega))
      by_cases ho : (initOne elem al d st).2.ov = false
      · exact (initOne_spec elem al hel hal d st l hk he ho).choose_spec.2.2.2.1
      · exfalso
        exact initUnknown_ov_true elem al ds _ (by simpa using ho) h
where
  initUnknown_ov_true (elem al : Int) : ∀ (ds : List Dim) (st : IS), st.ov = true → (initUnknown elem al ds st).2.ov = false → False
    | [], st, h, h' => by simp only [initUnknown] at h'; rw [h] at h'; cases h'
    | d :: ds, st, h, h' => by
      rw [initUnknown] at h'
      split at h'
      · exact initUnknown_ov_true elem al ds st h h'
      · refine initUnknown_ov_true elem al ds _ ?_ h'
        unfold initOne
        simp only [h, Bool.true_or]
        split
        · simp [learnDim]
        · have : ∀ js ov, ov = true → (findStride al d.allocExtent st.known js ov).2 = true := by
            intro js
            induction js with
            | nil => intro ov h; simpa [findStride] using h
            | cons j js ih =>
              intro ov h
              rw [findStride]
              split
              · simp [h]
              · simp only
                split
                · simp [h]
                · exact ih _ (by simp [h])
          have := this st.known true rfl
          generalize hg : findStride al d.allocExtent st.known st.known true = g at this
          obtain ⟨o, b⟩ := g
          simp only at this
          subst this
          cases o <;> simp [learnDim]

theorem initUnknown_spec (elem al : Int) (hel : 0 < elem) (hal : 0 < al) : ∀ (ds : List Dim) (st : IS) (l : List (Int × Int)),
    KnownInv st (layout (preset ds) ++ l) → (initUnknown elem al ds st).2.ov = false →
    KnownInv (initUnknown elem al ds st).2 (layout (initUnknown elem al ds st).1 ++ l) ∧
    (Nested elem (layout (preset ds) ++ l) → Nested elem (layout (initUnknown elem al ds st).1 ++ l)) ∧
    List.Forall₂ (fun d d' => (d' = d ∧ (d.stride = Dim.autoStride → d.allocExtent ≤ 1)) ∨ (d.stride = Dim.autoStride ∧ 1 < d.allocExtent ∧
      ∃ c, 0 < c ∧ (c = elem ∨ al ∣ c) ∧ d' = { d with stride := c })) ds (initUnknown elem al ds st).1
  | [], st, l, h, _ => by simpa [initUnknown, layout, preset] using h
  | d :: ds, st, l, h, ho => by
    rw [initUnknown] at ho ⊢
    by_cases hc : d.stride ≠ Dim.autoStride ∨ d.allocExtent ≤ 1
    · rw [if_pos hc] at ho ⊢
      simp only at ho ⊢
      by_cases hl : d.live = true
      · have hna : d.stride ≠ Dim.autoStride := by
          rcases hc with hc | hc
          · exact hc
          · simp [Dim.live] at hl; omega
        have e1 : layout (preset (d :: ds)) = d.lay :: layout (preset ds) := by
          simp only [layout, preset, List.filter_cons]
          rw [if_pos (by simpa using hna), List.filter_cons, if_pos hl]
          simp
        have e2 : ∀ r, layout (d :: r) = d.lay :: layout r := by
          intro r; simp only [layout, List.filter_cons]; rw [if_pos hl]; simp
        rw [e1] at h ⊢
        rw [e2]
        have p1 : (d.lay :: layout (preset ds) ++ l).Perm (layout (preset ds) ++ (d.lay :: l)) := List.perm_middle.symm
        obtain ⟨h1, h2, h3⟩ := initUnknown_spec elem al hel hal ds st (d.lay :: l) (h.permL p1) ho
        refine ⟨h1.permL List.perm_middle, fun hn => nested_perm List.perm_middle (h2 (nested_perm p1 hn)),
          .cons (Or.inl ⟨rfl, fun h => absurd h hna⟩) h3⟩
      · have e1 : layout (preset (d :: ds)) = layout (preset ds) := by
          simp only [layout, preset, List.filter_cons]
          split
          · rw [List.filter_cons, if_neg hl]
          · rfl
        have e2 : ∀ r, layout (d :: r) = layout r := by
          intro r; simp only [layout, List.filter_cons]; rw [if_neg hl]
        rw [e1] at h ⊢
        rw [e2]
        obtain ⟨h1, h2, h3⟩ := initUnknown_spec elem al hel hal ds st l h ho
        refine ⟨h1, h2, .cons (Or.inl ⟨rfl, fun h => ?_⟩) h3⟩
        rcases hc with hc | hc
        · exact absurd h hc
        · exact hc
    · rw [if_neg hc] at ho ⊢
      simp only at ho ⊢
      have ha : d.stride = Dim.autoStride := by by_contra hh; exact hc (Or.inl hh)
      have he : 1 < d.allocExtent := by by_contra hh; exact hc (Or.inr (by omega))
      have e1 : layout (preset (d :: ds)) = layout (preset ds) := by
        simp [layout, preset, List.filter_cons, ha]
      rw [e1] at h ⊢
      have ho1 : (initOne elem al d st).2.ov = false := by
        by_contra hh
        exact initUnknown_ov.initUnknown_ov_true elem al ds _ (by simpa using hh) ho
      obtain ⟨c, c1, c2, c3, c4, c5, c6⟩ := initOne_spec elem al hel hal d st _ h he ho1
      have p1 : ((c, d.allocExtent) :: (layout (preset ds) ++ l)).Perm (layout (preset ds) ++ ((c, d.allocExtent) :: l)) :=
        List.perm_middle.symm
      obtain ⟨h1, h2, h3⟩ := initUnknown_spec elem al hel hal ds (initOne elem al d st).2 ((c, d.allocExtent) :: l) (c5.permL p1) ho
      have e2 : ∀ r, layout ((initOne elem al d st).1 :: r) = (c, d.allocExtent) :: layout r := by
        intro r
        rw [c1]
        simp only [layout, List.filter_cons]
        have hl : ({ d with stride := c } : Dim).live = true := by
          have : ({ d with stride := c } : Dim).allocExtent = d.allocExtent := rfl
          simp [Dim.live, this, he]; omega
        rw [if_pos hl]
        have : ({ d with stride := c } : Dim).lay = (c, d.allocExtent) := by
          have : ({ d with stride := c } : Dim).allocExtent = d.allocExtent := rfl
          simp only [Dim.lay, this]
          congr 1
          omega
        simp [this]
      rw [e2]
      refine ⟨h1.permL List.perm_middle, fun hn => nested_perm List.perm_middle (h2 (nested_perm p1 (c6 hn))), .cons ?_ h3⟩
      exact Or.inr ⟨ha, he, c, c2, c3, c1⟩

/-! ## The whole function -/

theorem keeps_trans {elem al : Int} (hel : 0 < elem) : ∀ {ds ds1 ds2 : List Dim},
    List.Forall₂ (fun d d' => (d' = d ∧ (d.stride = Dim.autoStride → 1 < d.allocExtent)) ∨
      (d.stride = Dim.autoStride ∧ d.allocExtent ≤ 1 ∧ d' = { d with stride := elem })) ds ds1 →
    List.Forall₂ (fun d d' => (d' = d ∧ (d.stride = Dim.autoStride → d.allocExtent ≤ 1)) ∨
      (d.stride = Dim.autoStride ∧ 1 < d.allocExtent ∧ ∃ c, 0 < c ∧ (c = elem ∨ al ∣ c) ∧ d' = { d with stride := c })) ds1 ds2 →
    List.Forall₂ (Keeps elem al) ds ds2
  | [], _, _, .nil, .nil => .nil
  | d :: ds, _, _, .cons (b := d1) h1 t1, .cons (b := d2) h2 t2 => by
    refine .cons ?_ (keeps_trans hel t1 t2)
    rcases h1 with ⟨rfl, h1⟩ | ⟨ha, he, rfl⟩
    · rcases h2 with ⟨rfl, h2⟩ | ⟨ha, he, c, c1, c2, rfl⟩
      · refine ⟨rfl, rfl, rfl, fun _ => rfl, fun ha => ?_⟩
        have := h1 ha; have := h2 ha; omega
      · exact ⟨rfl, rfl, rfl, fun h => absurd ha h, fun _ => ⟨c1, c2⟩⟩
    · rcases h2 with ⟨rfl, h2⟩ | ⟨ha', he', c, c1, c2, rfl⟩
      · exact ⟨rfl, rfl, rfl, fun h => absurd ha h, fun _ => ⟨hel, Or.inl rfl⟩⟩
      · have e : ({ d with stride := elem } : Dim).allocExtent = d.allocExtent := rfl
        omega

theorem layout_initKnown {elem : Int} : ∀ {ds ds1 : List Dim},
    List.Forall₂ (fun d d' => (d' = d ∧ (d.stride = Dim.autoStride → 1 < d.allocExtent)) ∨
      (d.stride = Dim.autoStride ∧ d.allocExtent ≤ 1 ∧ d' = { d with stride := elem })) ds ds1 →
    layout (preset ds1) = layout (preset ds)
  | [], _, .nil => rfl
  | d :: ds, _, .cons (b := d1) h1 t1 => by
    have ih := layout_initKnown t1
    rcases h1 with ⟨rfl, h1⟩ | ⟨ha, he, rfl⟩
    · simp only [layout, preset, List.filter_cons] at *
      split
      · simp only [List.filter_cons]
        split
        · rw [List.map_cons, List.map_cons, ih]
        · exact ih
      · exact ih
    · simp only [layout, preset, List.filter_cons] at *
      rw [if_neg (c := decide (d.stride ≠ Dim.autoStride) = true) (by simpa using ha)]
      split
      · rw [List.filter_cons, if_neg]
        · exact ih
        · have e : ({ d with stride := elem } : Dim).allocExtent = d.allocExtent := rfl
          simp [Dim.live, e]; omega
      · exact ih

/-- The specification of `init_strides`. -/
structure InitSpec (elem al : Int) (ds ds' : List Dim) (size : Int) : Prop where
  keeps : List.Forall₂ (Keeps elem al) ds ds'
  aligned : al ∣ size
  size_lo : span (layout ds') + elem ≤ size
  size_hi : size < span (layout ds') + elem + al
  nested : Nested elem (layout (preset ds)) → Nested elem (layout ds')

theorem initStridesImpl_spec (elem al : Int) (hel : 0 < elem) (hal : 0 < al) (ds ds' : List Dim) (size : Int)
    (h : initStridesImpl elem al ds = some (ds', size)) : InitSpec elem al ds ds' size := by
  unfold initStridesImpl at h
  generalize h1 : initKnown elem ds ⟨[], 0, decide (elem ≥ 2 ^ 63)⟩ = r1 at h
  obtain ⟨ds1, st1⟩ := r1
  simp only at h
  generalize h2 : initUnknown elem al ds1 st1 = r2 at h
  obtain ⟨ds2, st2⟩ := r2
  simp only at h
  split at h
  · cases h
  · rename_i ho
    simp only [Option.some.injEq, Prod.mk.injEq] at h
    obtain ⟨rfl, rfl⟩ := h
    simp only [Bool.or_eq_true, not_or] at ho
    have ho2 : (initUnknown elem al ds1 st1).2.ov = false := by rw [h2]; simpa using ho.1.1
    have ho1 : (initKnown elem ds ⟨[], 0, decide (elem ≥ 2 ^ 63)⟩).2.ov = false := by
      rw [h1]
      by_contra hh
      exact initUnknown_ov.initUnknown_ov_true elem al ds1 st1 (by simpa using hh) ho2
    have i0 : KnownInv ⟨[], 0, decide (elem ≥ 2 ^ 63)⟩ [] := ⟨.refl _, .nil, rfl, by simp⟩
    obtain ⟨k1, k2⟩ := initKnown_spec elem al hel ds _ [] i0 ho1
    rw [h1] at k1 k2
    rw [← layout_initKnown k2] at k1
    obtain ⟨u1, u2, u3⟩ := initUnknown_spec elem al hel hal ds1 st1 [] k1 ho2
    rw [h2] at u1 u2 u3
    simp only [List.append_nil] at u1 u2
    have hf : st2.flatMax = span (layout ds2) := u1.fm
    obtain ⟨m1, m2, m3⟩ := maskDown_spec (st2.flatMax + elem + (al - 1)) al hal
    refine ⟨keeps_trans hel k2 u3, m1, by omega, by omega, ?_⟩
    rw [← layout_initKnown k2]
    exact u2

/-- C22: a successful `init_strides` leaves everything but the unknown strides, gives each unknown stride the element size or a
multiple of the alignment, and returns the size of the layout rounded up to the alignment. If the known strides did not overlap,
no dimension overlaps another. -/
theorem initStrides_spec (elem al : Int) (hel : 0 < elem) (hal : 0 < al) (ds ds' : List Dim) (size : Int) (hv : ∀ d ∈ ds, d.Valid)
    (h : initStrides elem al ds = some (ds', size)) : InitSpec elem al ds ds' size := by
  unfold initStrides at h
  split at h
  · split at h
    · cases h
    · simp only [Option.some.injEq, Prod.mk.injEq] at h
      obtain ⟨rfl, rfl⟩ := h
      obtain ⟨m1, m2, m3⟩ := maskDown_spec (0 + elem + (al - 1)) al hal
      have : span (layout []) = 0 := rfl
      exact ⟨.nil, m1, by omega, by omega, id⟩
  · rename_i d
    split at h
    · rename_i hc
      generalize hs : (if d.stride = Dim.autoStride then elem else d.stride) = s at h
      simp only at h
      split at h
      · cases h
      · rename_i ho
        simp only [Option.some.injEq, Prod.mk.injEq] at h
        obtain ⟨rfl, rfl⟩ := h
        obtain ⟨m1, m2, m3⟩ := maskDown_spec (max (d.max - d.min) 0 * s + elem + (al - 1)) al hal
        have hs0 : 0 ≤ s := by rw [← hs]; split <;> omega
        have hex : ({ d with stride := s } : Dim).allocExtent = if d.min ≤ d.max then d.max - d.min + 1 else 0 := by
          simp only [Dim.allocExtent, Dim.extent]
          rw [if_neg (by rw [hc.1]; simp [Dim.unfolded])]
          split_ifs <;> omega
        have hex' : d.allocExtent = if d.min ≤ d.max then d.max - d.min + 1 else 0 := hex
        have hsp : span (layout [{ d with stride := s }]) = max (d.max - d.min) 0 * s := by
          unfold layout
          rw [List.filter_cons]
          by_cases hl : ({ d with stride := s } : Dim).live = true
          · rw [if_pos hl]
            simp only [Dim.live, Bool.and_eq_true, decide_eq_true_eq] at hl
            have hle : d.min ≤ d.max := by
              by_contra hh; rw [hex, if_neg hh] at hl; omega
            simp only [List.filter_nil, List.map_cons, List.map_nil, span, List.sum_cons, List.sum_nil, Dim.lay, hex, if_pos hle]
            rw [max_eq_left (by omega)]
            have : (s.natAbs : Int) = s := by omega
            rw [this]; ring
          · rw [if_neg hl]
            simp only [List.filter_nil, List.map_nil, span, List.sum_nil]
            simp only [Dim.live, Bool.and_eq_true, decide_eq_true_eq, not_and] at hl
            by_cases hz : s = 0
            · simp [hz]
            · have h1 := hl hz
              rw [hex] at h1
              split_ifs at h1 with hle
              · rw [max_eq_right (by omega)]; simp
              · rw [max_eq_right (by omega)]; simp
        refine ⟨.cons ⟨rfl, rfl, rfl, ?_, ?_⟩ .nil, m1, by omega, by omega, ?_⟩
        · intro hna; rw [if_neg hna] at hs; exact hs.symm
        · intro ha; rw [if_pos ha] at hs; exact ⟨by show 0 < s; omega, Or.inl hs.symm⟩
        · rintro ⟨_, h2⟩
          constructor
          · unfold layout
            rw [List.filter_cons]
            split <;> simp
          · intro p hp
            by_cases ha : d.stride = Dim.autoStride
            · rw [if_pos ha] at hs
              unfold layout at hp
              rw [List.filter_cons] at hp
              split at hp
              · simp at hp; subst hp
                simp only [Dim.lay]; omega
              · simp at hp
            · rw [if_neg ha] at hs
              subst hs
              apply h2
              rw [show preset [d] = [d] by simp [preset, List.filter_cons, ha]]
              exact hp
    · exact initStridesImpl_spec elem al hel hal _ _ _ h
  · exact initStridesImpl_spec elem al hel hal _ _ _ h

/-! ## What the layout means for the elements -/

/-- Records `(stride, extent, difference of the indices)`. -/
abbrev T3 := Int × Int × Int

theorem sorted_small {elem S : Int} : ∀ (l : List T3), l.Pairwise (fun a b => b.1 * b.2.1 ≤ a.1) →
    (∀ t ∈ l, elem ≤ t.1 ∧ -(t.2.1 - 1) ≤ t.2.2 ∧ t.2.2 ≤ t.2.1 - 1) → 0 < elem → (∀ t ∈ l, t.1 * t.2.1 ≤ S) → elem ≤ S →
    -(S - elem) ≤ (l.map fun t => t.2.2 * t.1).sum ∧ (l.map fun t => t.2.2 * t.1).sum ≤ S - elem
  | [], _, _, _, _, _ => by simp; omega
  | t :: ts, hp, hb, hel, hS, _ => by
    rw [List.pairwise_cons] at hp
    obtain ⟨b1, b2, b3⟩ := hb t (by simp)
    obtain ⟨i1, i2⟩ := sorted_small ts hp.2 (fun x hx => hb x (by simp [hx])) hel hp.1 b1
    have := hS t (by simp)
    simp only [List.map_cons, List.sum_cons]
    constructor <;> nlinarith

theorem sorted_zero_or_big {elem : Int} : ∀ (l : List T3), l.Pairwise (fun a b => b.1 * b.2.1 ≤ a.1) →
    (∀ t ∈ l, elem ≤ t.1 ∧ -(t.2.1 - 1) ≤ t.2.2 ∧ t.2.2 ≤ t.2.1 - 1) → 0 < elem →
    (∀ t ∈ l, t.2.2 = 0) ∨ (l.map fun t => t.2.2 * t.1).sum ≤ -elem ∨ elem ≤ (l.map fun t => t.2.2 * t.1).sum
  | [], _, _, _ => Or.inl (by simp)
  | t :: ts, hp, hb, hel => by
    rw [List.pairwise_cons] at hp
    obtain ⟨b1, b2, b3⟩ := hb t (by simp)
    simp only [List.map_cons, List.sum_cons]
    by_cases hz : t.2.2 = 0
    · rcases sorted_zero_or_big ts hp.2 (fun x hx => hb x (by simp [hx])) hel with h | h
      · exact Or.inl (by intro x hx; rcases List.mem_cons.1 hx with rfl | hx; exacts [hz, h x hx])
      · right; rw [hz]; simpa using h
    · obtain ⟨i1, i2⟩ := sorted_small ts hp.2 (fun x hx => hb x (by simp [hx])) hel hp.1 b1
      right
      rcases lt_or_gt_of_ne hz with hn | hn
      · left; nlinarith
      · right; nlinarith

theorem nested_zero_or_big {elem : Int} (l : List T3) (hn : l.Pairwise fun a b => NestedIn (a.1, a.2.1) (b.1, b.2.1))
    (hb : ∀ t ∈ l, elem ≤ t.1 ∧ 1 < t.2.1 ∧ -(t.2.1 - 1) ≤ t.2.2 ∧ t.2.2 ≤ t.2.1 - 1) (hel : 0 < elem) :
    (∀ t ∈ l, t.2.2 = 0) ∨ (l.map fun t => t.2.2 * t.1).sum ≤ -elem ∨ elem ≤ (l.map fun t => t.2.2 * t.1).sum := by
  let r : T3 → T3 → Prop := fun a b => b.1 ≤ a.1
  have : DecidableRel r := fun a b => inferInstanceAs (Decidable (b.1 ≤ a.1))
  have hp : (l.insertionSort r).Perm l := List.perm_insertionSort r l
  have tot : Std.Total r := ⟨fun a b => le_total b.1 a.1⟩
  have tr : IsTrans T3 r := ⟨fun a b c h1 h2 => le_trans h2 h1⟩
  have hs : (l.insertionSort r).Pairwise r := List.pairwise_insertionSort r l
  have hn' : (l.insertionSort r).Pairwise fun a b => NestedIn (a.1, a.2.1) (b.1, b.2.1) :=
    (hp.pairwise_iff (fun h => NestedIn.symm h)).2 hn
  have hb' : ∀ t ∈ l.insertionSort r, elem ≤ t.1 ∧ 1 < t.2.1 ∧ -(t.2.1 - 1) ≤ t.2.2 ∧ t.2.2 ≤ t.2.1 - 1 :=
    fun t ht => hb t (hp.mem_iff.1 ht)
  have hd : (l.insertionSort r).Pairwise (fun a b => b.1 * b.2.1 ≤ a.1) := by
    refine ((hs.and hn').imp_of_mem ?_)
    rintro a b ha hbm ⟨h1, h2⟩
    rcases h2 with h2 | h2
    · exfalso
      have h1' : b.1 ≤ a.1 := h1
      obtain ⟨c1, c2, _⟩ := hb' a ha
      simp only at h2
      nlinarith
    · exact h2
  have := sorted_zero_or_big _ hd (fun t ht => ⟨(hb' t ht).1, (hb' t ht).2.2⟩) hel
  rw [(hp.map _).sum_eq] at this
  rcases this with h | h
  · exact Or.inl fun t ht => h t (hp.mem_iff.2 ht)
  · exact Or.inr h

/-- The records of the live dimensions for two tuples of indices. -/
def diffs : List Dim → List Int → List Int → List T3
  | d :: ds, i :: is, j :: js =>
    if d.live then ((d.stride.natAbs : Int), d.allocExtent, (d.steps i - d.steps j) * d.stride.sign) :: diffs ds is js
    else diffs ds is js
  | _, _, _ => []

theorem diffs_layout : ∀ (ds : List Dim) (is js : List Int), InB ds is → InB ds js →
    (diffs ds is js).map (fun t => (t.1, t.2.1)) = layout ds
  | [], [], [], _, _ => rfl
  | [], _ :: _, _, h, _ => h.elim
  | [], [], _ :: _, _, h => h.elim
  | _ :: _, [], _, h, _ => h.elim
  | _ :: _, _ :: _, [], _, h => h.elim
  | d :: ds, i :: is, j :: js, h, h' => by
    have ih := diffs_layout ds is js h.2 h'.2
    simp only [diffs, layout, List.filter_cons] at *
    split
    · simp [ih, Dim.lay]
    · exact ih

theorem sign_bound {x e s : Int} (h : -(e - 1) ≤ x ∧ x ≤ e - 1) : -(e - 1) ≤ x * s.sign ∧ x * s.sign ≤ e - 1 := by
  rcases lt_trichotomy s 0 with hs | hs | hs
  · rw [Int.sign_eq_neg_one_of_neg hs]; omega
  · subst hs; simp; omega
  · rw [Int.sign_eq_one_of_pos hs]; omega

theorem diffs_bound : ∀ (ds : List Dim) (is js : List Int), (∀ d ∈ ds, d.Valid) → InB ds is → InB ds js →
    ∀ t ∈ diffs ds is js, 1 < t.2.1 ∧ -(t.2.1 - 1) ≤ t.2.2 ∧ t.2.2 ≤ t.2.1 - 1
  | [], [], [], _, _, _ => by simp [diffs]
  | [], _ :: _, _, _, h, _ => h.elim
  | [], [], _ :: _, _, _, h => h.elim
  | _ :: _, [], _, _, h, _ => h.elim
  | _ :: _, _ :: _, [], _, _, h => h.elim
  | d :: ds, i :: is, j :: js, hv, h, h' => by
    have ih := diffs_bound ds is js (fun x hx => hv x (by simp [hx])) h.2 h'.2
    rw [diffs]
    split
    · rename_i hl
      intro t ht
      rcases List.mem_cons.1 ht with rfl | ht
      · have a := steps_bounds d i (hv d (by simp)) h.1
        have b := steps_bounds d j (hv d (by simp)) h'.1
        refine ⟨?_, sign_bound (x := d.steps i - d.steps j) (e := d.allocExtent) (by omega)⟩
        simp [Dim.live] at hl; exact hl.2
      · exact ih t ht
    · exact ih

theorem diffs_sum : ∀ (ds : List Dim) (is js : List Int), (∀ d ∈ ds, d.Valid) → InB ds is → InB ds js →
    Buf.offset ds is - Buf.offset ds js = ((diffs ds is js).map fun t => t.2.2 * t.1).sum
  | [], [], [], _, _, _ => by simp [diffs, Buf.offset]
  | [], _ :: _, _, _, h, _ => h.elim
  | [], [], _ :: _, _, _, h => h.elim
  | _ :: _, [], _, _, h, _ => h.elim
  | _ :: _, _ :: _, [], _, _, h => h.elim
  | d :: ds, i :: is, j :: js, hv, h, h' => by
    have ih := diffs_sum ds is js (fun x hx => hv x (by simp [hx])) h.2 h'.2
    have a := steps_bounds d i (hv d (by simp)) h.1
    have b := steps_bounds d j (hv d (by simp)) h'.1
    have e1 := flatOffset_eq d i
    have e2 := flatOffset_eq d j
    rw [diffs]
    simp only [Buf.offset]
    split
    · simp only [List.map_cons, List.sum_cons, ← ih, e1, e2]
      have : d.stride.sign * (d.stride.natAbs : Int) = d.stride := by exact Int.sign_mul_natAbs _
      rw [mul_assoc, this]; ring
    · rename_i hl
      rw [← ih, e1, e2]
      simp only [Dim.live, Bool.and_eq_true, decide_eq_true_eq, not_and] at hl
      by_cases hz : d.stride = 0
      · rw [hz]; ring
      · have := hl hz
        have h0 : d.steps i = d.steps j := by omega
        rw [h0]; ring

theorem diffs_zero : ∀ (ds : List Dim) (is js : List Int), (∀ d ∈ ds, d.Valid) → InB ds is → InB ds js →
    (∀ t ∈ diffs ds is js, t.2.2 = 0) → SameElem ds is js
  | [], [], [], _, _, _ => by intro _; trivial
  | [], _ :: _, _, _, h, _ => h.elim
  | [], [], _ :: _, _, _, h => h.elim
  | _ :: _, [], _, _, h, _ => h.elim
  | _ :: _, _ :: _, [], _, _, h => h.elim
  | d :: ds, i :: is, j :: js, hv, h, h' => by
    intro hz
    have ih := diffs_zero ds is js (fun x hx => hv x (by simp [hx])) h.2 h'.2
    have a := steps_bounds d i (hv d (by simp)) h.1
    have b := steps_bounds d j (hv d (by simp)) h'.1
    rw [diffs] at hz
    have key : (d.stride ≠ 0 → d.steps i = d.steps j) → (d.stride = 0 ∨ (if d.fold = Dim.unfolded then i = j else i % d.fold = j % d.fold)) := by
      intro hh
      by_cases hs : d.stride = 0
      · exact Or.inl hs
      · right
        have := hh hs
        unfold Dim.steps at this
        split at this
        · rename_i hf; rw [if_pos hf]; omega
        · rename_i hf; rw [if_neg hf]; exact this
    split at hz
    · refine ⟨key fun hs => ?_, ih fun t ht => hz t (by simp [ht])⟩
      have := hz _ (List.mem_cons_self ..)
      simp only at this
      rcases mul_eq_zero.1 this with h | h
      · omega
      · exact absurd (Int.sign_eq_zero_iff_zero.1 h) hs
    · rename_i hl
      simp only [Dim.live, Bool.and_eq_true, decide_eq_true_eq, not_and] at hl
      refine ⟨key fun hs => ?_, ih hz⟩
      have := hl hs
      omega

/-- C22: if the strides that were set before do not overlap, then two in-bounds elements of the layout that `init_strides`
chooses are at least one element apart, unless they are the same element (dimensions of stride 0 do not count, folded dimensions
count modulo the fold factor). -/
theorem initStrides_disjoint (elem al : Int) (hel : 0 < elem) (hal : 0 < al) (ds ds' : List Dim) (size : Int)
    (hv : ∀ d ∈ ds, d.Valid) (hp : Nested elem (layout (preset ds))) (h : initStrides elem al ds = some (ds', size))
    (is js : List Int) (hi : InB ds' is) (hj : InB ds' js) (hne : ¬ SameElem ds' is js) :
    Buf.offset ds' is + elem ≤ Buf.offset ds' js ∨ Buf.offset ds' js + elem ≤ Buf.offset ds' is := by
  have sp := initStrides_spec elem al hel hal ds ds' size hv h
  have hv' := keeps_valid sp.keeps hv
  obtain ⟨n1, n2⟩ := sp.nested hp
  rw [← diffs_layout ds' is js hi hj] at n1 n2
  have hb := diffs_bound ds' is js hv' hi hj
  have hsum := diffs_sum ds' is js hv' hi hj
  rcases nested_zero_or_big (elem := elem) (diffs ds' is js) (List.pairwise_map.1 n1)
    (fun t ht => ⟨n2 (t.1, t.2.1) (List.mem_map.2 ⟨t, ht, rfl⟩), hb t ht⟩) hel with h | h | h
  · exact absurd (diffs_zero ds' is js hv' hi hj h) hne
  · left; omega
  · right; omega

theorem offset_span : ∀ (ds : List Dim) (is : List Int), (∀ d ∈ ds, d.Valid) → (∀ d ∈ ds, 0 ≤ d.stride) → InB ds is →
    0 ≤ Buf.offset ds is ∧ Buf.offset ds is ≤ span (layout ds)
  | [], [], _, _, _ => by simp [Buf.offset, span, layout]
  | [], _ :: _, _, _, h => h.elim
  | _ :: _, [], _, _, h => h.elim
  | d :: ds, i :: is, hv, hs, h => by
    obtain ⟨i1, i2⟩ := offset_span ds is (fun x hx => hv x (by simp [hx])) (fun x hx => hs x (by simp [hx])) h.2
    obtain ⟨s1, s2⟩ := steps_bounds d i (hv d (by simp)) h.1
    have h0 := hs d (by simp)
    have e := flatOffset_eq d i
    simp only [Buf.offset]
    have hm : 0 ≤ d.steps i * d.stride := mul_nonneg s1 h0
    refine ⟨by omega, ?_⟩
    unfold layout
    rw [List.filter_cons]
    split
    · rename_i hl
      have : span (List.map Dim.lay (d :: List.filter Dim.live ds)) = d.stride * (d.allocExtent - 1) + span (layout ds) := by
        have : (d.stride.natAbs : Int) = d.stride := by omega
        simp [span, Dim.lay, layout, abs_of_nonneg h0]
      rw [this, e]
      nlinarith
    · rename_i hl
      simp only [Dim.live, Bool.and_eq_true, decide_eq_true_eq, not_and] at hl
      have : d.steps i * d.stride = 0 := by
        by_cases hz : d.stride = 0
        · rw [hz]; ring
        · have := hl hz
          rw [show d.steps i = 0 by omega]; ring
      rw [e, this]
      simpa [layout] using i2

/-- C22: an allocation of the returned size holds all elements, if no stride was set to a negative value before. -/
theorem initStrides_fits (elem al : Int) (hel : 0 < elem) (hal : 0 < al) (ds ds' : List Dim) (size : Int)
    (hv : ∀ d ∈ ds, d.Valid) (hs : ∀ d ∈ ds, 0 ≤ d.stride) (h : initStrides elem al ds = some (ds', size))
    (is : List Int) (hi : InB ds' is) : 0 ≤ Buf.offset ds' is ∧ Buf.offset ds' is + elem ≤ size := by
  have sp := initStrides_spec elem al hel hal ds ds' size hv h
  have hv' := keeps_valid sp.keeps hv
  have hs' : ∀ d ∈ ds', 0 ≤ d.stride := by
    intro d' hd'
    obtain ⟨d, hd, hk⟩ := forall₂_mem_right sp.keeps hd'
    by_cases ha : d.stride = Dim.autoStride
    · have := (hk.2.2.2.2 ha).1; omega
    · rw [hk.2.2.2.1 ha]; exact hs d hd
  have := offset_span ds' is hv' hs' hi
  have := sp.size_lo
  omega

/-- Non-vacuity: a 5x7x3 buffer of elements of 2 bytes with an interleaved second dimension, strides aligned to 8. -/
example : initStrides 2 8 [⟨0, 4, Dim.autoStride, Dim.unfolded⟩, ⟨1, 7, 2, Dim.unfolded⟩, ⟨0, 9, Dim.autoStride, 3⟩] =
      some ([⟨0, 4, 16, Dim.unfolded⟩, ⟨1, 7, 2, Dim.unfolded⟩, ⟨0, 9, 80, 3⟩], 240) ∧
    Nested 2 (layout (preset [⟨0, 4, Dim.autoStride, Dim.unfolded⟩, ⟨1, 7, 2, Dim.unfolded⟩, ⟨0, 9, Dim.autoStride, 3⟩])) := by
  constructor
  · decide +kernel
  · rw [show layout (preset [⟨0, 4, Dim.autoStride, Dim.unfolded⟩, ⟨1, 7, 2, Dim.unfolded⟩, ⟨0, 9, Dim.autoStride, 3⟩]) = [(2, 7)]
      by decide +kernel]
    simp [Nested]

/-- `initStrides_fits` needs the known strides to be non-negative: with a stride of -1, elements are before the start of the
allocation that `allocate` makes (it sets the base to the start). -/
theorem initStrides_negative_counterexample : ∃ ds ds' size is, initStrides 1 1 ds = some (ds', size) ∧ (∀ d ∈ ds, d.Valid) ∧
    InB ds' is ∧ Buf.offset ds' is < 0 := by
  refine ⟨[⟨0, 3, -1, Dim.unfolded⟩], [⟨0, 3, -1, Dim.unfolded⟩], 4, [3], by decide +kernel, by simp [Dim.Valid], ?_, by decide +kernel⟩
  simp [InB]

/-- `initStrides_disjoint` needs the known strides to be nested: with strides 3 and 4 of extent 2, no two elements overlap, but
the stride 1 chosen for a third dimension makes two of them overlap. -/
theorem initStrides_overlap_counterexample : ∃ ds ds' size is js, initStrides 1 1 ds = some (ds', size) ∧ (∀ d ∈ ds, d.Valid) ∧
    (∀ x y x' y', InB (preset ds) [x, y] → InB (preset ds) [x', y'] → Buf.offset (preset ds) [x, y] = Buf.offset (preset ds) [x', y'] →
      [x, y] = [x', y']) ∧
    InB ds' is ∧ InB ds' js ∧ ¬ SameElem ds' is js ∧ Buf.offset ds' is = Buf.offset ds' js := by
  refine ⟨[⟨0, 1, 3, Dim.unfolded⟩, ⟨0, 1, 4, Dim.unfolded⟩, ⟨0, 1, Dim.autoStride, Dim.unfolded⟩],
    [⟨0, 1, 3, Dim.unfolded⟩, ⟨0, 1, 4, Dim.unfolded⟩, ⟨0, 1, 1, Dim.unfolded⟩], 9, [1, 0, 1], [0, 1, 0], by decide +kernel,
    by simp [Dim.Valid], ?_, by simp [InB], by simp [InB], by simp [SameElem], by decide +kernel⟩
  intro x y x' y' h h' he
  rw [show preset [⟨0, 1, 3, Dim.unfolded⟩, ⟨0, 1, 4, Dim.unfolded⟩, ⟨0, 1, Dim.autoStride, Dim.unfolded⟩] =
    [⟨0, 1, 3, Dim.unfolded⟩, ⟨0, 1, 4, Dim.unfolded⟩] by decide +kernel] at h h' he
  simp only [InB, and_true] at h h'
  simp [Buf.offset, Dim.flatOffset, Dim.unfolded] at he
  have : x = x' ∧ y = y' := by omega
  simp [this]

end Slinky
