import Verif.FoldSlice

/-!
# C64: slices of constant buffers. Theorems
-/

namespace Slinky.FS

open Slinky Slinky.Copy

theorem point_offset (v : Int) : (point v).flatOffset v = 0 := by simp [point, Dim.flatOffset]

theorem point_contains (v : Int) : (point v).contains v = true := by simp [point, Dim.contains, Dim.containsI]

theorem indices_length : ∀ {ds : List Dim} {es : List Expr} {vs : List (Option Int)}, indices ds es = some vs → vs.length ≤ ds.length
  | [], es, vs, h => by
    cases es <;> (simp [indices] at h; subst h; simp)
  | d :: ds, [], vs, h => by simp [indices] at h; subst h; simp
  | d :: ds, e :: es, vs, h => by
    cases e <;> simp only [indices, Option.map_eq_some_iff, reduceCtorEq] at h
    all_goals
      obtain ⟨vs', h1, rfl⟩ := h
      have := indices_length h1
      simp only [List.length_cons]; omega

/-- The indices of the pinned buffer. -/
theorem pin_inB : ∀ {ds : List Dim} {vs : List (Option Int)} {xs : List Int}, vs.length ≤ ds.length → InB (pin ds vs) xs →
    ∃ is, xs = fill vs is ∧ InB (keep vs ds) is
  | ds, [], xs, _, h => ⟨xs, rfl, by simpa [pin, keep] using h⟩
  | [], _ :: _, _, hl, _ => by simp at hl
  | d :: ds, some v :: vs, [], hl, h => by simp [pin, InB] at h
  | d :: ds, some v :: vs, x :: xs, hl, h => by
    simp only [pin, InB] at h
    obtain ⟨is, rfl, h2⟩ := pin_inB (by simpa using hl) h.2
    have : x = v := by have := h.1; simp only [point] at this; omega
    subst this
    exact ⟨is, rfl, h2⟩
  | d :: ds, none :: vs, [], hl, h => by simp [pin, InB] at h
  | d :: ds, none :: vs, x :: xs, hl, h => by
    simp only [pin, InB] at h
    obtain ⟨is, rfl, h2⟩ := pin_inB (by simpa using hl) h.2
    exact ⟨x :: is, rfl, by simp only [keep, InB]; exact ⟨h.1, h2⟩⟩

theorem inB_pin : ∀ {ds : List Dim} {vs : List (Option Int)} {is : List Int}, vs.length ≤ ds.length → InB (keep vs ds) is → InB (pin ds vs) (fill vs is)
  | ds, [], is, _, h => by simpa [pin, keep, fill] using h
  | [], _ :: _, _, hl, _ => by simp at hl
  | d :: ds, some v :: vs, is, hl, h => by
    simp only [pin, fill, InB, keep] at h ⊢
    exact ⟨by simp [point], inB_pin (by simpa using hl) h⟩
  | d :: ds, none :: vs, [], hl, h => by simp [keep, InB] at h
  | d :: ds, none :: vs, i :: is, hl, h => by
    simp only [pin, fill, InB, keep] at h ⊢
    exact ⟨h.1, inB_pin (by simpa using hl) h.2⟩

theorem pin_offset : ∀ {ds : List Dim} {vs : List (Option Int)} {is : List Int}, vs.length ≤ ds.length → InB (keep vs ds) is →
    Buf.offset (pin ds vs) (fill vs is) = Buf.offset (keep vs ds) is
  | ds, [], is, _, _ => by simp [pin, keep, fill]
  | [], _ :: _, _, hl, _ => by simp at hl
  | d :: ds, some v :: vs, is, hl, h => by
    simp only [pin, fill, keep, Buf.offset] at h ⊢
    rw [point_offset, pin_offset (by simpa using hl) h, Int.zero_add]
  | d :: ds, none :: vs, [], hl, h => by simp [keep, InB] at h
  | d :: ds, none :: vs, i :: is, hl, h => by
    simp only [pin, fill, keep, Buf.offset, InB] at h ⊢
    rw [pin_offset (by simpa using hl) h.2]

theorem fill_contains : ∀ {ds : List Dim} {vs : List (Option Int)} {is : List Int}, inBounds ds vs = true → InB (keep vs ds) is →
    Buf.containsL ds (fill vs is) = true
  | [], [], is, _, _ => by simp [Buf.containsL]
  | [], some v :: vs, is, _, _ => by simp [Buf.containsL]
  | [], none :: vs, is, _, _ => by cases is <;> simp [Buf.containsL, fill]
  | d :: ds, [], is, _, h => by
    cases is with
    | nil => simp [keep, InB] at h
    | cons i is =>
      simp only [fill, Buf.containsL, Bool.and_eq_true]
      simp only [keep, InB] at h
      exact ⟨by simp [Dim.contains, Dim.containsI, h.1.1, h.1.2], fill_contains (vs := []) (ds := ds) (by cases ds <;> rfl) (by simpa [keep] using h.2)⟩
  | d :: ds, some v :: vs, is, hb, h => by
    simp only [inBounds, Bool.and_eq_true] at hb
    simp only [fill, Buf.containsL, Bool.and_eq_true]
    exact ⟨hb.1, fill_contains hb.2 (by simpa [keep] using h)⟩
  | d :: ds, none :: vs, [], hb, h => by simp [keep, InB] at h
  | d :: ds, none :: vs, i :: is, hb, h => by
    simp only [inBounds] at hb
    simp only [keep, InB] at h
    simp only [fill, Buf.containsL, Bool.and_eq_true]
    exact ⟨by simp [Dim.contains, Dim.containsI, h.1.1, h.1.2], fill_contains hb h.2⟩

/-- The slices of the pinned buffer. -/
theorem sliceBack_pin : ∀ (vs : List (Option Int)) (pre ds : List Dim) (p : Option Int) (e : Int), vs.length ≤ ds.length →
    sliceBack pre.length vs ⟨p, e, pre ++ pin ds vs⟩ = ⟨p, e, pre ++ keep vs ds⟩
  | [], pre, ds, p, e, _ => by simp [sliceBack, pin, keep]
  | _ :: _, _, [], _, _, hl => by simp at hl
  | none :: vs, pre, d :: ds, p, e, hl => by
    have := sliceBack_pin vs (pre ++ [d]) ds p e (by simpa using hl)
    simp only [List.length_append, List.length_singleton, List.append_assoc, List.singleton_append] at this
    simpa only [sliceBack, pin, keep] using this
  | some v :: vs, pre, d :: ds, p, e, hl => by
    have := sliceBack_pin vs (pre ++ [point v]) ds p e (by simpa using hl)
    simp only [List.length_append, List.length_singleton, List.append_assoc, List.singleton_append] at this
    simp only [sliceBack, pin, keep]
    rw [this, slice_eq _ _ _ (by simp [Buf.rank])]
    have hd : (Buf.mk p e (pre ++ point v :: keep vs ds)).dim pre.length = point v := by simp [Buf.dim]
    rw [hd]
    have he : (pre ++ point v :: keep vs ds).eraseIdx pre.length = pre ++ keep vs ds := by
      rw [List.eraseIdx_append_of_length_le (by omega)]; simp
    simp only [he]
    cases p <;> simp [sliceBase, point_contains, point_offset]

theorem pin_mem : ∀ {ds : List Dim} {vs : List (Option Int)} {d : Dim}, vs.length ≤ ds.length → d ∈ pin ds vs → (∃ v, d = point v) ∨ d ∈ keep vs ds
  | ds, [], d, _, h => by right; simpa [pin, keep] using h
  | [], _ :: _, _, hl, _ => by simp at hl
  | d' :: ds, some v :: vs, d, hl, h => by
    simp only [pin, List.mem_cons] at h
    rcases h with rfl | h
    · exact .inl ⟨v, rfl⟩
    · simpa only [keep] using pin_mem (by simpa using hl) h
  | d' :: ds, none :: vs, d, hl, h => by
    simp only [pin, List.mem_cons] at h
    rcases h with rfl | h
    · right; simp [keep]
    · rcases pin_mem (by simpa using hl) h with h | h
      · exact .inl h
      · right; simp [keep, h]

theorem pin_length : ∀ (ds : List Dim) (vs : List (Option Int)), (pin ds vs).length = ds.length
  | [], vs => by cases vs with
    | nil => rfl
    | cons v vs => cases v <;> rfl
  | _ :: ds, [] => rfl
  | _ :: ds, some v :: vs => by simp [pin, pin_length ds vs]
  | _ :: ds, none :: vs => by simp [pin, pin_length ds vs]

theorem fill_inj : ∀ {vs : List (Option Int)} {ds : List Dim} {is js : List Int}, vs.length ≤ ds.length → InB (keep vs ds) is → InB (keep vs ds) js →
    fill vs is = fill vs js → is = js
  | [], ds, is, js, _, _, _, h => h
  | _ :: _, [], _, _, hl, _, _, _ => by simp at hl
  | some v :: vs, d :: ds, is, js, hl, hi, hj, h => by
    simp only [fill, List.cons.injEq, true_and, keep] at h hi hj
    exact fill_inj (by simpa using hl) hi hj h
  | none :: vs, d :: ds, [], js, hl, hi, hj, h => by simp [keep, InB] at hi
  | none :: vs, d :: ds, i :: is, [], hl, hi, hj, h => by simp [keep, InB] at hj
  | none :: vs, d :: ds, i :: is, j :: js, hl, hi, hj, h => by
    simp only [fill, List.cons.injEq, keep, InB] at h hi hj
    rw [h.1, fill_inj (by simpa using hl) hi.2 hj.2 h.2]

/-- Two elements of the slice are as far from each other as in the constant. -/
theorem offset_diff : ∀ {vs : List (Option Int)} {ds : List Dim} {is js : List Int}, vs.length ≤ ds.length → InB (keep vs ds) is → InB (keep vs ds) js →
    Buf.offset ds (fill vs is) - Buf.offset ds (fill vs js) = Buf.offset (keep vs ds) is - Buf.offset (keep vs ds) js
  | [], ds, is, js, _, _, _ => by simp [fill, keep]
  | _ :: _, [], _, _, hl, _, _ => by simp at hl
  | some v :: vs, d :: ds, is, js, hl, hi, hj => by
    simp only [keep, fill, Buf.offset] at hi hj ⊢
    have := offset_diff (by simpa using hl) hi hj
    omega
  | none :: vs, d :: ds, [], js, hl, hi, hj => by simp [keep, InB] at hi
  | none :: vs, d :: ds, i :: is, [], hl, hi, hj => by simp [keep, InB] at hj
  | none :: vs, d :: ds, i :: is, j :: js, hl, hi, hj => by
    simp only [keep, fill, Buf.offset, InB] at hi hj ⊢
    have := offset_diff (by simpa using hl) hi.2 hj.2
    omega

/-- C64: the slice of a constant in bounds: it has the dimensions that are not sliced, and its elements are copies of elements of the constant. -/
theorem foldSlice_inBounds_partial {new : Int} {cb : Buf} {es : List Expr} {m : Copy.Mem} {vs : List (Option Int)} (hi : indices cb.dims es = some vs)
    (hb : inBounds cb.dims vs = true) (hok : Ok new cb vs) :
    ∃ m', foldSlice new cb es m = some (some (⟨some new, cb.elem, keep vs cb.dims⟩, m')) ∧
      (∀ is, (Buf.mk (some new) cb.elem (keep vs cb.dims)).InBounds is → cb.contains (fill vs is) = true ∧
        ∃ a s, (Buf.mk (some new) cb.elem (keep vs cb.dims)).address is = some a ∧ cb.address (fill vs is) = some s ∧
          ∀ k, 0 ≤ k → k < cb.elem → m' (a + k) = m (s + k)) ∧
      ∀ x, (∀ is a, (Buf.mk (some new) cb.elem (keep vs cb.dims)).InBounds is → (Buf.mk (some new) cb.elem (keep vs cb.dims)).address is = some a →
        ¬ (a ≤ x ∧ x < a + cb.elem)) → m' x = m x := by
  have hl := indices_length hi
  obtain ⟨p, hp⟩ := Option.isSome_iff_exists.1 hok.base
  obtain ⟨is0, h0⟩ := hok.nonempty
  have hunf : ∀ d ∈ pin cb.dims vs, d.fold = Dim.unfolded := by
    intro d hd
    rcases pin_mem hl hd with ⟨v, rfl⟩ | h
    · rfl
    · exact (hok.kept d h).1
  have hmk : make new cb.elem (pin cb.dims vs) = ⟨some new, cb.elem, pin cb.dims vs⟩ := by simp [make, hok.size]
  have hview : ∀ js b, cb.view js = some b → cb.contains js = true ∧ cb.address js = some b := by
    intro js b h
    simp only [Buf.view] at h
    split at h
    · exact ⟨by assumption, h⟩
    · cases h
  have key := copy_correct_partial cb ⟨some new, cb.elem, pin cb.dims vs⟩ ⟨none, cb.elem, []⟩ m
    ⟨fun d hd => ⟨hunf d hd, by
        rcases pin_mem hl hd with ⟨v, rfl⟩ | h
        · simp [point]
        · exact (hok.kept d h).2⟩, hok.elem, ⟨_, inB_pin hl h0⟩, rfl⟩ rfl hok.plain (by simp [Buf.rank, pin_length]) hok.base
    (fun xs hx => by
      obtain ⟨is, rfl, h⟩ := pin_inB hl hx
      exact fill_contains hb h) (.inl rfl)
    ⟨fun xs ys a b hx hy hne ha hb' => by
      obtain ⟨is, rfl, h1⟩ := pin_inB hl hx
      obtain ⟨js, rfl, h2⟩ := pin_inB hl hy
      have hd := offset_diff hl h1 h2
      simp only [Buf.address, Option.map_some, Option.some.injEq, pin_offset hl h1, pin_offset hl h2] at ha hb'
      have := hok.apart is js _ _ h1 h2 (fun e => hne (by rw [e])) (by simp [Buf.address, hp]; rfl) (by simp [Buf.address, hp]; rfl)
      unfold Apart
      show a + cb.elem ≤ b ∨ b + cb.elem ≤ a
      omega,
    fun xs js a b hx hj ha hs => by
      obtain ⟨is, rfl, h1⟩ := pin_inB hl hx
      obtain ⟨hc, hs⟩ := hview js b hs
      simp only [Buf.address, Option.map_some, Option.some.injEq, pin_offset hl h1] at ha
      have := hok.fresh is js b h1 hc hs
      unfold Apart
      show a + cb.elem ≤ b ∨ b + cb.elem ≤ a
      omega⟩
  obtain ⟨m', hm, hcopy⟩ := key
  have hsl := sliceBack_pin vs [] cb.dims (some new) cb.elem hl
  simp only [List.length_nil, List.nil_append] at hsl
  refine ⟨m', by simp only [foldSlice, hi, hb, if_true, hmk, hm, Option.map_some, hsl], ?_, ?_⟩
  · intro is his
    have hc := fill_contains hb his
    refine ⟨hc, new + Buf.offset (keep vs cb.dims) is, p + Buf.offset cb.dims (fill vs is), by simp [Buf.address], by simp [Buf.address, hp], ?_⟩
    obtain ⟨a, ha, hk⟩ := hcopy.elems (fill vs is) (p + Buf.offset cb.dims (fill vs is)) (inB_pin hl his) (by
      rw [Buf.view, if_pos (show cb.contains (fill vs is) = true from hc)]; simp [Buf.address, hp])
    simp only [Buf.address, Option.map_some, Option.some.injEq, pin_offset hl his] at ha
    subst ha
    exact hk
  · intro x hx
    refine hcopy.other x fun xs a hxs _ ha => ?_
    obtain ⟨is, rfl, h1⟩ := pin_inB hl hxs
    refine hx is a h1 ?_
    simpa only [Buf.address, Option.map_some, pin_offset hl h1] using ha

theorem offset_nonneg : ∀ {ds : List Dim} {is : List Int}, (∀ d ∈ ds, d.fold = Dim.unfolded ∧ 0 ≤ d.stride) → InB ds is → 0 ≤ Buf.offset ds is
  | [], [], _, _ => by simp [Buf.offset]
  | d :: ds, i :: is, h, hi => by
    simp only [InB] at hi
    have h1 := h d (by simp)
    have h2 := offset_nonneg (fun d hd => h d (by simp [hd])) hi.2
    have h3 : 0 ≤ (i - d.min) * d.stride := Int.mul_nonneg (by omega) h1.2
    simp only [Buf.offset, Dim.flatOffset, h1.1, or_true, if_true]
    omega

/-- C64: if no stride is negative, the elements of the folded slice are in the memory that was allocated for it. -/
theorem foldSlice_fits {new : Int} {cb : Buf} {vs : List (Option Int)} (hl : vs.length ≤ cb.dims.length) (hok : Ok new cb vs)
    (hs : ∀ d ∈ keep vs cb.dims, 0 ≤ d.stride) {is : List Int} {a : Int} (hi : (Buf.mk (some new) cb.elem (keep vs cb.dims)).InBounds is)
    (ha : (Buf.mk (some new) cb.elem (keep vs cb.dims)).address is = some a) :
    new ≤ a ∧ a + cb.elem ≤ new + (Buf.mk none cb.elem (pin cb.dims vs)).sizeBytes := by
  obtain ⟨lo, h1, h2⟩ := sizeBytes_covers ⟨none, cb.elem, pin cb.dims vs⟩ (by
    intro d hd
    rcases pin_mem hl hd with ⟨v, rfl⟩ | h
    · exact .inl rfl
    · exact .inl (hok.kept d h).1) hok.size
  have h3 := (h2 (fill vs is) (inB_pin hl hi)).2
  have h4 := offset_nonneg (fun d hd => ⟨(hok.kept d hd).1, hs d hd⟩) hi
  have h5 := pin_offset hl hi
  simp only [Buf.address, Option.map_some, Option.some.injEq] at ha
  simp only at h3
  omega

/-- C64: if an index is out of bounds, there is no data, and nothing is written. -/
theorem foldSlice_outOfBounds {new : Int} {cb : Buf} {es : List Expr} {m : Copy.Mem} {vs : List (Option Int)} (hi : indices cb.dims es = some vs)
    (hb : inBounds cb.dims vs = false) : foldSlice new cb es m = some (some (⟨none, cb.elem, keep vs cb.dims⟩, m)) := by
  have hsl := sliceBack_pin vs [] cb.dims none cb.elem (indices_length hi)
  simp only [List.length_nil, List.nil_append] at hsl
  simp [foldSlice, hi, hb, hsl]

/-- What slices of the constant itself, the last first, give. -/
theorem slices_keep : ∀ (vs : List (Option Int)) (pre ds : List Dim) (p : Option Int) (e : Int), vs.length ≤ ds.length →
    (sliceBack pre.length vs ⟨p, e, pre ++ ds⟩).dims = pre ++ keep vs ds ∧ (sliceBack pre.length vs ⟨p, e, pre ++ ds⟩).elem = e ∧
    ((sliceBack pre.length vs ⟨p, e, pre ++ ds⟩).base.isSome ↔ p.isSome ∧ inBounds ds vs = true) ∧
    ∀ is, InB (keep vs ds) is → ∀ q, (sliceBack pre.length vs ⟨p, e, pre ++ ds⟩).base = some q → ∃ p0, p = some p0 ∧
      q + Buf.offset (keep vs ds) is = p0 + Buf.offset ds (fill vs is)
  | [], pre, ds, p, e, _ => by
    have : inBounds ds [] = true := by cases ds <;> rfl
    simp only [sliceBack, keep, fill, this, and_true, true_and]
    exact fun is _ q hq => ⟨q, hq, rfl⟩
  | _ :: _, _, [], _, _, hl => by simp at hl
  | none :: vs, pre, d :: ds, p, e, hl => by
    have := slices_keep vs (pre ++ [d]) ds p e (by simpa using hl)
    simp only [List.length_append, List.length_singleton, List.append_assoc, List.singleton_append] at this
    simp only [sliceBack, keep, inBounds]
    refine ⟨this.1, this.2.1, this.2.2.1, ?_⟩
    intro is his q hq
    cases is with
    | nil => simp [InB] at his
    | cons i is =>
      simp only [InB] at his
      obtain ⟨p0, h1, h2⟩ := this.2.2.2 is his.2 q hq
      exact ⟨p0, h1, by simp only [fill, Buf.offset]; omega⟩
  | some v :: vs, pre, d :: ds, p, e, hl => by
    have := slices_keep vs (pre ++ [d]) ds p e (by simpa using hl)
    simp only [List.length_append, List.length_singleton, List.append_assoc, List.singleton_append] at this
    simp only [sliceBack, keep, inBounds, Bool.and_eq_true]
    obtain ⟨h1, h2, h3, h4⟩ := this
    generalize sliceBack (pre.length + 1) vs ⟨p, e, pre ++ d :: ds⟩ = b at h1 h2 h3 h4 ⊢
    rw [slice_eq _ _ _ (by simp [Buf.rank, h1])]
    have hd : b.dim pre.length = d := by simp [Buf.dim, h1]
    rw [hd, h1]
    have he : (pre ++ d :: keep vs ds).eraseIdx pre.length = pre ++ keep vs ds := by
      rw [List.eraseIdx_append_of_length_le (by omega)]; simp
    refine ⟨he, h2, ?_, ?_⟩
    · cases hb : b.base with
      | none => rw [hb] at h3; simp [sliceBase] at h3 ⊢; intro a _; exact h3 a
      | some q =>
        rw [hb] at h3
        simp only [Option.isSome_some, true_iff] at h3
        simp only [sliceBase]
        split
        · next hc => simp [hc, h3]
        · next hc => simp [hc]
    · intro is his q hq
      cases hb : b.base with
      | none => rw [hb] at hq; simp [sliceBase] at hq
      | some q0 =>
        rw [hb] at hq
        simp only [sliceBase] at hq
        split at hq
        · simp only [Option.some.injEq] at hq
          obtain ⟨p0, e1, e2⟩ := h4 is his q0 hb
          exact ⟨p0, e1, by simp only [fill, Buf.offset]; omega⟩
        · cases hq

/-- C64: the folded slice and the slice of the constant have the same dimensions, both have data or none of them, and the same elements. -/
theorem foldSlice_same_partial {new : Int} {cb : Buf} {es : List Expr} {m : Copy.Mem} {vs : List (Option Int)} (hi : indices cb.dims es = some vs)
    (hok : Ok new cb vs) :
    ∃ b m', foldSlice new cb es m = some (some (b, m')) ∧ b.dims = (sliceBack 0 vs cb).dims ∧ b.elem = (sliceBack 0 vs cb).elem ∧
      (b.base.isSome ↔ (sliceBack 0 vs cb).base.isSome) ∧
      ∀ is a s, b.InBounds is → b.address is = some a → (sliceBack 0 vs cb).address is = some s → ∀ k, 0 ≤ k → k < cb.elem → m' (a + k) = m (s + k) := by
  have hl := indices_length hi
  have hk := slices_keep vs [] cb.dims cb.base cb.elem hl
  simp only [List.length_nil, List.nil_append] at hk
  obtain ⟨k1, k2, k3, k4⟩ := hk
  cases hb : inBounds cb.dims vs with
  | true =>
    obtain ⟨m', h1, h2, -⟩ := foldSlice_inBounds_partial (m := m) hi hb hok
    refine ⟨_, m', h1, k1.symm, k2.symm, by rw [k3, hb]; simp [hok.base], ?_⟩
    intro is a s his ha hs
    obtain ⟨-, a', s', e1, e2, e3⟩ := h2 is his
    rw [ha] at e1
    simp only [Option.some.injEq] at e1
    subst e1
    have : s = s' := by
      simp only [Buf.address, Option.map_eq_some_iff] at hs e2
      obtain ⟨q, hq, rfl⟩ := hs
      obtain ⟨p, hp, rfl⟩ := e2
      obtain ⟨p0, f1, f2⟩ := k4 is his q hq
      rw [hp] at f1
      simp only [Option.some.injEq] at f1
      subst f1
      rw [show (sliceBack 0 vs cb).dims = keep vs cb.dims from k1]
      exact f2
    subst this
    exact e3
  | false =>
    refine ⟨_, m, foldSlice_outOfBounds hi hb, k1.symm, k2.symm, by rw [k3, hb]; simp, ?_⟩
    intro is a s _ ha
    simp [Buf.address] at ha

end Slinky.FS
