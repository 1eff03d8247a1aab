import Verif.CopyPad

/-!
# C26: `copy` and `pad`

Specification: `CopiedFrom dst f m m'` says that `m'` is the memory `m` after each element of `dst` at indices `is` is overwritten by the
element that was at the address `f is` (`none`: it is not overwritten), and that nothing else is changed. For

* `copy` without padding, `f is` is the element of `src` at `is`;
* `copy` with padding, `f is` is the element of `src` at `is` if `is` is in the bounds of `src`, or else the element of `pad` at `is`;
* `pad`, `f is` is the element of `pad` at `is` if `is` is not in bounds.

Conditions (`Separate`): the elements of `dst` do not overlap each other, nor the elements that are copied.
-/

namespace Slinky
namespace Copy

open FE (Ptrs OkDim OkBufs vw ptr1 offs)
open Track (InR PlainB Cov FirstOk Trackable Step Steps)

/-- Specification of C26. -/
structure CopiedFrom (dst : Buf) (f : List Int → Option Int) (m m' : Mem) : Prop where
  /-- Each element is copied. -/
  elems : ∀ is s, dst.InBounds is → f is = some s → ∃ a, dst.address is = some a ∧ ∀ k, 0 ≤ k → k < dst.elem → m' (a + k) = m (s + k)
  /-- Nothing else is changed. -/
  other : ∀ x, (∀ is a, dst.InBounds is → (f is).isSome → dst.address is = some a → ¬ (a ≤ x ∧ x < a + dst.elem)) → m' x = m x

theorem copiedFrom_of {dst : Buf} {f : List Int → Option Int} {m m' : Mem} (hb : dst.base.isSome) (h : Copied dst.elem (pairs dst f) m m') :
    CopiedFrom dst f m m' := by
  constructor
  · intro is s hi hf
    obtain ⟨p, hp⟩ := Option.isSome_iff_exists.1 hb
    refine ⟨p + Buf.offset dst.dims is, by simp [Buf.address, hp], fun k h0 hk => ?_⟩
    exact h.copied (p + Buf.offset dst.dims is, s) ⟨is, hi, by simp [Buf.address, hp], hf⟩ k h0 hk
  · intro x hx
    refine h.other x ?_
    rintro p ⟨is, hi, h1, h2⟩
    exact hx is p.1 hi (by rw [h2]; rfl) h1

/-! ### Lemmas -/

theorem at_view {b : Buf} {is : List Int} (h : b.rank ≤ is.length) : b.at is = b.view is := by
  rw [Buf.at, show b.rank - is.length = 0 by omega, List.replicate_zero, List.append_nil]

theorem view_address {b : Buf} {is : List Int} (h : b.InBounds is) : b.view is = b.address is := by
  rw [← at_view (by rw [InB.length h]; rfl), at_address h]

theorem inB_setIdx : ∀ {ds : List Dim} {is : List Int} {n : Nat} {dd : Dim} {x : Int}, InB ds is → ds[n]? = some dd → dd.min ≤ x ∧ x ≤ dd.max →
    InB ds (is.set n x)
  | [], _, _, _, _, _, h, _ => by simp at h
  | _ :: _, [], _, _, _, h, _, _ => h.elim
  | a :: ds, i :: is, 0, dd, x, h, hd, hx => by simp at hd; subst hd; exact ⟨hx, h.2⟩
  | a :: ds, i :: is, n + 1, dd, x, h, hd, hx => by simp at hd; exact ⟨h.1, inB_setIdx h.2 hd hx⟩

theorem containsL_get : ∀ {ds : List Dim} {is : List Int} {n : Nat} {d : Dim} {i : Int}, Buf.containsL ds is = true → ds[n]? = some d →
    is[n]? = some i → d.contains i = true
  | [], _, _, _, _, _, h, _ => by simp at h
  | _ :: _, [], _, _, _, _, _, h => by simp at h
  | a :: ds, j :: is, 0, d, i, h, h1, h2 => by
    simp at h1 h2; subst h1 h2
    simp [Buf.containsL] at h
    exact h.1
  | a :: ds, j :: is, n + 1, d, i, h, h1, h2 => by
    simp at h1 h2
    simp [Buf.containsL] at h
    exact containsL_get h.2 h1 h2

theorem coversD_of {src dst : Buf} (hne : ∃ is, dst.InBounds is) (hr : src.rank ≤ dst.rank) (hc : Cov dst src) : CoversD src dst := by
  intro d
  by_cases hd : d < src.rank
  · obtain ⟨is, hi⟩ := hne
    have hl : is.length = dst.rank := InB.length hi
    have hdd := dim_eq dst d (by omega)
    obtain ⟨x, hx, hx2⟩ := InB.get hi hdd
    have h1 := containsL_get (hc _ (inB_setIdx (x := (dst.dim d).min) hi hdd (by omega))) (dim_eq src d hd) (List.getElem?_set_self (by omega))
    have h2 := containsL_get (hc _ (inB_setIdx (x := (dst.dim d).max) hi hdd (by omega))) (dim_eq src d hd) (List.getElem?_set_self (by omega))
    rw [dim_contains_iff] at h1 h2
    omega
  · left
    rw [FE.dim_beyond (by omega)]
    rfl

theorem ok_of_plain {b : Buf} (h : PlainB b) : ∀ d ∈ b.dims, OkDim d := fun d hd => (h d hd).imp (fun h => .inl h) id

theorem okBufs_of {dst src : Buf} (h1 : PlainB dst) (h2 : PlainB src) : OkBufs ⟨dst, [src]⟩ := by
  intro b hb d hd
  simp only [Bufs.all, List.mem_cons, List.not_mem_nil, or_false] at hb
  rcases hb with rfl | rfl
  · exact ok_of_plain h1 d hd
  · exact ok_of_plain h2 d hd

theorem out_iff : ∀ {src : Buf} {is : List Int}, src.rank ≤ is.length → (Out src.rank src is ↔ ¬ InR src.dims is) := by
  intro src is hl
  rw [Track.inR_zip]
  constructor
  · rintro ⟨d, hd, h1, i, h2, h3⟩ hc
    have : (src.dim d, i) ∈ src.dims.zip is := by
      refine List.mem_iff_getElem?.2 ⟨d, ?_⟩
      rw [List.getElem?_zip_eq_some]
      exact ⟨dim_eq src d hd, h2⟩
    have := hc _ this
    simp only [h1, Bool.false_eq_true, false_or] at this
    exact h3 this
  · intro h
    simp only [not_forall] at h
    obtain ⟨p, hp, hc⟩ := h
    obtain ⟨n, hn⟩ := List.mem_iff_getElem?.1 hp
    rw [List.getElem?_zip_eq_some] at hn
    have hd : src.dim n = p.1 := by simp [Buf.dim, hn.1]
    simp only [not_or, Bool.not_eq_true] at hc
    exact ⟨n, (List.getElem?_eq_some_iff.1 hn.1).1, by rw [hd]; exact hc.1, p.2, hn.2, by rw [hd]; exact hc.2⟩

theorem offset_zero : ∀ {ds : List Dim} {is : List Int}, (∀ (n : Nat) (d : Dim) (i : Int), ds[n]? = some d → is[n]? = some i → d.flatOffset i = 0) → Buf.offset ds is = 0
  | [], _, _ => by simp [Buf.offset]
  | _ :: _, [], _ => by simp [Buf.offset]
  | d :: ds, i :: is, h => by
    rw [Buf.offset, h 0 d i (by simp) (by simp), offset_zero fun n d i h1 h2 => h (n + 1) d i (by simpa using h1) (by simpa using h2)]
    rfl

theorem separate_transfer {dst dst' : Buf} {g g' : List Int → Option Int} {φ : List Int → List Int}
    (hb : Set.BijOn φ {is | dst'.InBounds is} {is | dst.InBounds is}) (he : dst'.elem = dst.elem)
    (ha : ∀ is, dst'.InBounds is → dst'.address is = dst.address (φ is)) (hg : ∀ is, dst'.InBounds is → g' is = g (φ is))
    (hs : Separate dst g) : Separate dst' g' := by
  constructor
  · intro is js a b hi hj hne h1 h2
    rw [he]
    rw [ha is hi] at h1
    rw [ha js hj] at h2
    exact hs.dst_dst _ _ a b (hb.1 hi) (hb.1 hj) (fun h => hne (hb.2.1 hi hj h)) h1 h2
  · intro is js a b hi hj h1 h2
    rw [he]
    rw [ha is hi] at h1
    rw [hg js hj] at h2
    exact hs.dst_src _ _ a b (hb.1 hi) (hb.1 hj) h1 h2

theorem pairs_transfer {dst dst' : Buf} {g g' : List Int → Option Int} {φ : List Int → List Int}
    (hb : Set.BijOn φ {is | dst'.InBounds is} {is | dst.InBounds is})
    (ha : ∀ is, dst'.InBounds is → dst'.address is = dst.address (φ is)) (hg : ∀ is, dst'.InBounds is → g' is = g (φ is)) :
    pairs dst' g' = pairs dst g := by
  ext p
  constructor
  · rintro ⟨is, hi, h1, h2⟩
    exact ⟨φ is, hb.1 hi, by rw [← ha is hi, h1], by rw [← hg is hi, h2]⟩
  · rintro ⟨is, hi, h1, h2⟩
    obtain ⟨js, hj, rfl⟩ := hb.2.2 hi
    exact ⟨js, hj, by rw [ha js hj, h1], by rw [hg js hj, h2]⟩

theorem cov_self (b : Buf) : Cov b b := fun _ hi => containsL_inB hi

theorem base_of_view {b : Buf} {is : List Int} (h : (b.view is).isSome) : b.base.isSome := by
  unfold Buf.view at h
  split at h
  · simpa [Buf.address] using h
  · simp at h

theorem view_isSome {b : Buf} {is : List Int} (hc : b.contains is = true) (hb : b.base.isSome) : (b.view is).isSome := by
  rw [Buf.view, if_pos hc]
  simpa [Buf.address] using hb

/-- The element at the mins of `dst`. -/
theorem corner {src dst : Buf} (hne : ∃ is, dst.InBounds is) (hu : ∀ e ∈ dst.dims, e.fold = Dim.unfolded) (hp : PlainB src)
    (hr : src.rank ≤ dst.rank) (hin : ∀ d < src.rank, (src.dim d).stride = 0 ∨ (src.dim d).min = (dst.dim d).min)
    (hc : CoversD src dst) (hb : src.base.isSome) :
    dst.InBounds (dst.dims.map (·.min)) ∧ dst.address (dst.dims.map (·.min)) = dst.base ∧ src.at (dst.dims.map (·.min)) = src.base := by
  have hI : dst.InBounds (dst.dims.map (·.min)) := by
    apply exists_inB
    obtain ⟨is, hi⟩ := hne
    intro d hd
    obtain ⟨n, hn⟩ := List.mem_iff_getElem?.1 hd
    obtain ⟨x, -, hx⟩ := InB.get hi hn
    omega
  refine ⟨hI, ?_, ?_⟩
  · have : Buf.offset dst.dims (dst.dims.map (·.min)) = 0 := by
      refine offset_zero fun n d i h1 h2 => ?_
      rw [List.getElem?_map, h1] at h2
      simp at h2
      simp [Dim.flatOffset, hu d (List.mem_of_getElem? h1), h2]
    rw [Buf.address, this]
    simp
  · have h1 := hc.at hI hb
    rw [at_view (by simpa [Buf.rank] using hr)] at h1 ⊢
    have hcon : src.contains (dst.dims.map (·.min)) = true := by
      by_contra h
      rw [Buf.view, if_neg h] at h1
      simp at h1
    have : Buf.offset src.dims (dst.dims.map (·.min)) = 0 := by
      refine offset_zero fun n d i h1 h2 => ?_
      have hn : n < src.rank := (List.getElem?_eq_some_iff.1 h1).1
      have hd : src.dim n = d := by simp [Buf.dim, h1]
      have := hin n hn
      rw [hd] at this
      rw [List.getElem?_map] at h2
      have h3 := dim_eq dst n (by omega)
      rw [h3] at h2
      simp at h2
      rcases this with h | h
      · simp [Dim.flatOffset, h]
      · rcases hp d (List.mem_of_getElem? h1) with h' | h'
        · simp [Dim.flatOffset, h', h, h2]
        · simp [Dim.flatOffset, h']
    rw [Buf.view, if_pos hcon, Buf.address, this]
    simp

/-- `pad_impl` after `optimize_dims`. -/
theorem padImpl_core {src dst pad : Buf} {g : List Int → Option Int} (m : Mem) (hf : FirstOk dst) (he : 0 < dst.elem) (hr : src.rank ≤ dst.rank)
    (hne : ∃ is, dst.InBounds is) (hb : dst.base.isSome) (hpe : pad.elem = dst.elem) (hpp : PlainB pad) (hpr : pad.rank ≤ dst.rank)
    (hpc : Cov dst pad) (hpb : pad.base.isSome) (hs : Separate dst g) (hg : ∀ is, dst.InBounds is → ¬ InR src.dims is → g is = pad.view is) :
    ∃ src2 dst2 m2, padImpl (Min.min src.rank dst.rank) src dst pad m = some (src2, dst2, m2) ∧ PadResult src.rank src dst src2 dst2 g m m2 ∧
      CoversD src2 dst2 ∧ (∀ is, dst.InBounds is → (Out src.rank src is ↔ ¬ InR src.dims is)) ∧
      (PlainB src → (∃ is, dst2.InBounds is) → src2.base.isSome → ∃ is, dst2.InBounds is ∧ dst2.address is = dst2.base ∧ src2.at is = src2.base) := by
  have hout : ∀ is, dst.InBounds is → (Out src.rank src is ↔ ¬ InR src.dims is) := fun is hi => out_iff (by
    have : is.length = dst.rank := InB.length hi
    omega)
  obtain ⟨src2, dst2, m2, h1, h2⟩ := padImpl_result (pad := pad) (f := g) src.rank src dst m le_rfl hr (okBufs_of hf.plain hpp) hpe he
    (fun d hd => (hf d hd).1) (coversD_of hne hpr hpc) (fun _ => hb) hpb hs (fun is hi ho => by
      rw [hg is hi ((hout is hi).1 ho), at_view]
      have : is.length = dst.rank := InB.length hi
      omega)
  have hin : ∀ d < src2.rank, (src2.dim d).stride = 0 ∨ ((src2.dim d).min = (dst2.dim d).min ∧ (dst2.dim d).max = (src2.dim d).max) := by
    intro d hd
    rw [h2.rank.2] at hd
    rcases h2.inner d hd with ⟨h, h'⟩ | h
    · left; rw [h']; simp [Dim.isBroadcast] at h; exact h.2.2
    · exact .inr h
  have hcov : CoversD src2 dst2 := by
    intro d
    by_cases hd : d < src2.rank
    · rcases hin d hd with h | h
      · exact .inl h
      · right; omega
    · left; rw [FE.dim_beyond (by omega)]; rfl
  refine ⟨src2, dst2, m2, by rw [Nat.min_eq_left hr]; exact h1, h2, hcov, hout, fun hp hne2 hb2 => ?_⟩
  refine ⟨_, corner hne2 (fun e hee => ?_) (fun e hee => ?_) (by rw [h2.rank.1, h2.rank.2]; exact hr) (fun d hd => (hin d hd).imp id (·.1)) hcov hb2⟩
  · obtain ⟨e', a1, a2, a3⟩ := h2.unfolded e hee
    rw [a3]
    exact (hf e' a1).1
  · obtain ⟨e', a1, a2, a3⟩ := h2.sdims e hee
    have := hp e' a1
    unfold Dim.Plain at *
    rw [a2, a3]
    exact this

/-! ### The theorems -/

/-- The conditions on the destination: it has an element, it is not folded, and no dimension has stride 0. -/
structure GoodDst (dst : Buf) : Prop where
  first : FirstOk dst
  elem : 0 < dst.elem
  nonempty : ∃ is, dst.InBounds is
  base : dst.base.isSome

/-- **C26**, `copy` without padding: if `src` is in bounds wherever `dst` is, every element of `dst` is a copy of the element of `src` at the
same indices (which can be a broadcast), and nothing else is changed. Partial: the buffers are not folded, and `dst` has an element
(`copy_empty_counterexample`). -/
theorem copy_correct_partial (src dst pad : Buf) (m : Mem) (hd : GoodDst dst) (helem : src.elem = dst.elem) (hp : PlainB src)
    (hr : src.rank ≤ dst.rank) (hb : src.base.isSome) (hc : Cov dst src) (hpad : pad.base = none ∨ src.rank = 0) (hs : Separate dst src.view) :
    ∃ m', copy src dst pad m = some m' ∧ CopiedFrom dst src.view m m' := by
  obtain ⟨f, φ, heq, hst⟩ := Track.optimizeDims_steps ⟨dst, [src]⟩ hd.first
  unfold copy
  rw [if_neg (by simp [helem]), if_neg (by
    rintro ⟨h1, h2⟩
    rcases hpad with h | h
    · simp [h] at h2
    · omega), heq]
  simp only [Bufs.map, List.map_cons, List.map_nil]
  obtain ⟨a1, a2, a3⟩ := hst.cov dst (by simp [Bufs.all]) hd.first.plain (cov_self dst)
  obtain ⟨b1, b2, b3⟩ := hst.cov src (by simp [Bufs.all]) hp hc
  have hbij := hst.bij
  have hfo := hst.first
  have hrk := hst.rank src hr
  have hed := hst.elem dst
  have hes := hst.elem src
  simp only at hbij a2 a3 b2 b3 hfo hrk
  have ha : ∀ is, (f dst).InBounds is → (f dst).address is = dst.address (φ is) := fun is hi => by
    rw [← view_address hi, a3 is hi, view_address (hbij.1 hi)]
  have hgat : ∀ is, (f dst).InBounds is → (f src).at is = src.view (φ is) := fun is hi => by
    rw [at_view, b3 is hi]
    have : is.length = (f dst).rank := InB.length hi
    omega
  obtain ⟨js, hj⟩ := hd.nonempty
  obtain ⟨is, hi, rfl⟩ := hbij.2.2 hj
  have hbd : (f dst).base.isSome := base_of_view (is := is) (by rw [a3 is hi]; exact view_isSome (cov_self dst _ hj) hd.base)
  have hbs : (f src).base.isSome := base_of_view (is := is) (by rw [b3 is hi]; exact view_isSome (hc _ hj) hb)
  obtain ⟨m', h1, h2⟩ := copyImpl_copied (src := f src) (dst := f dst) (m := m) (okBufs_of a1 b1) (by rw [hed, hes, helem])
    (by rw [hed]; exact hd.elem) (fun d hd => (hfo d hd).1) (coversD_of ⟨is, hi⟩ hrk b2) (fun _ => ⟨hbd, hbs⟩)
    (separate_transfer hbij hed ha hgat hs)
  refine ⟨m', h1, copiedFrom_of hd.base ?_⟩
  rw [pairs_transfer hbij ha hgat, hed] at h2
  exact h2

/-- The result of `optimize_dims` in `copy` with padding and in `pad`. -/
theorem optimize_padded {src dst pad : Buf} (hd : GoodDst dst) (hp : PlainB src) (ht : Trackable dst src) (hr : src.rank ≤ dst.rank)
    (hpp : PlainB pad) (hpr : pad.rank ≤ dst.rank) (hpc : Cov dst pad) (hpb : pad.base.isSome) :
    ∃ src' dst' pad' φ, optimizeDims ⟨dst, [src, pad]⟩ = ⟨dst', [src', pad']⟩ ∧
      Set.BijOn φ {is | dst'.InBounds is} {is | dst.InBounds is} ∧ GoodDst dst' ∧ dst'.elem = dst.elem ∧ src'.elem = src.elem ∧ pad'.elem = pad.elem ∧
      (∀ is, dst'.InBounds is → dst'.address is = dst.address (φ is)) ∧ PlainB src' ∧ src'.rank ≤ dst'.rank ∧
      (∀ is, dst'.InBounds is → (InR src'.dims is ↔ InR src.dims (φ is)) ∧ (InR src.dims (φ is) → src'.view is = src.view (φ is))) ∧
      PlainB pad' ∧ pad'.rank ≤ dst'.rank ∧ Cov dst' pad' ∧ pad'.base.isSome ∧ (∀ is, dst'.InBounds is → pad'.view is = pad.view (φ is)) := by
  obtain ⟨f, φ, heq, hst⟩ := Track.optimizeDims_steps ⟨dst, [src, pad]⟩ hd.first
  obtain ⟨a1, a2, a3⟩ := hst.cov dst (by simp [Bufs.all]) hd.first.plain (cov_self dst)
  obtain ⟨b1, b2, b3⟩ := hst.cov pad (by simp [Bufs.all]) hpp hpc
  obtain ⟨c1, c2, c3⟩ := hst.track src (by simp [Bufs.all]) hp ht
  have hbij := hst.bij
  obtain ⟨js, hj⟩ := hd.nonempty
  obtain ⟨is, hi, rfl⟩ := hbij.2.2 hj
  refine ⟨f src, f dst, f pad, φ, by rw [heq]; rfl, hbij, ⟨hst.first, by rw [hst.elem]; exact hd.elem, ⟨is, hi⟩, ?_⟩, hst.elem _, hst.elem _, hst.elem _,
    fun is hi => ?_, c1, hst.rank src hr, c3, b1, hst.rank pad hpr, b2, ?_, b3⟩
  · exact base_of_view (is := is) (by rw [a3 is hi]; exact view_isSome (cov_self dst _ hj) hd.base)
  · rw [← view_address hi, a3 is hi, view_address (hbij.1 hi)]
  · exact base_of_view (is := is) (by rw [b3 is hi]; exact view_isSome (hpc _ hj) hpb)

open Classical in
/-- The source of each element for a padded copy. -/
noncomputable def paddedSource (src pad : Buf) (is : List Int) : Option Int := if InR src.dims is then src.view is else pad.view is

open Classical in
/-- The source of the padding; the elements in bounds are not overwritten. -/
noncomputable def paddingSource (ds : List Dim) (pad : Buf) (is : List Int) : Option Int := if InR ds is then none else pad.view is

/-- **C26**, `copy` with padding: every element of `dst` in the bounds of `src` is a copy of the element of `src` at the same indices, every
other element of `dst` is a copy of the element of `pad`, and nothing else is changed. (All indices are in the bounds of an explicit or implicit
broadcast dimension.) Partial: the buffers are not folded, `dst` has an element, and `Trackable dst src`: no dimension of `src` has stride 0, or
`src` has the rank of `dst` and not both a dimension with only the index 0 and a stride, and a dimension with one index and stride 0
(`copy_pad_counterexample`). -/
theorem copy_padded_partial (src dst pad : Buf) (m : Mem) (hd : GoodDst dst) (helem : src.elem = dst.elem) (hp : PlainB src)
    (ht : Trackable dst src) (hr : src.rank ≤ dst.rank) (hr0 : 0 < src.rank) (hb : src.base.isSome)
    (hpe : pad.elem = dst.elem) (hpp : PlainB pad) (hpr : pad.rank ≤ dst.rank) (hpc : Cov dst pad) (hpb : pad.base.isSome)
    (hs : Separate dst (paddedSource src pad)) :
    ∃ m', copy src dst pad m = some m' ∧ CopiedFrom dst (paddedSource src pad) m m' := by
  obtain ⟨src', dst', pad', φ, heq, hbij, hd', hed, hes, hep, ha, hp', hr', hsv, hpp', hpr', hpc', hpb', hpv⟩ := optimize_padded hd hp ht hr hpp hpr hpc hpb
  unfold copy
  rw [if_neg (by simp [helem]), if_pos ⟨hr0, hpb⟩, if_neg (by simp [hpe]), heq]
  simp only
  have hg : ∀ is, dst'.InBounds is → paddedSource src' pad' is = paddedSource src pad (φ is) := by
    intro is hi
    obtain ⟨h1, h2⟩ := hsv is hi
    unfold paddedSource
    by_cases h : InR src.dims (φ is)
    · rw [if_pos h, if_pos (h1.2 h), h2 h]
    · rw [if_neg h, if_neg (fun h' => h (h1.1 h')), hpv is hi]
  have hs' := separate_transfer hbij hed ha hg hs
  obtain ⟨src2, dst2, m2, h1, h2, hcov, hout, hcor⟩ := padImpl_core (g := paddedSource src' pad') m hd'.first hd'.elem hr' hd'.nonempty hd'.base
    (by rw [hep, hed, hpe]) hpp' hpr' hpc' hpb' hs' (fun is hi h => by rw [paddedSource, if_neg h])
  rw [h1]
  simp only [Option.bind_some]
  have hin2 : ∀ is, dst2.InBounds is → dst'.InBounds is ∧ InR src'.dims is := fun is hi => by
    have := (h2.inB is).1 hi
    refine ⟨this.1, ?_⟩
    by_contra h
    exact this.2 ((hout is this.1).2 h)
  have hsrc2 : ∀ is, dst2.InBounds is → src2.at is = paddedSource src' pad' is := fun is hi => by
    obtain ⟨g1, g2⟩ := hin2 is hi
    rw [(h2.addr is hi).2, paddedSource, if_pos g2, at_view]
    have : is.length = dst'.rank := InB.length g1
    omega
  have hsb : (∃ is, dst2.InBounds is) → src2.base.isSome := by
    rintro ⟨is, hi⟩
    obtain ⟨g1, g2⟩ := hin2 is hi
    refine h2.sbase (base_of_view (is := is) ?_) ⟨is, hi⟩
    have h3 := (hsv is g1).1.1 g2
    rw [(hsv is g1).2 h3]
    exact view_isSome h3.contains hb
  have hset : pairs dst' (paddedSource src' pad') = pairsOn dst' (paddedSource src' pad') (Out src'.rank src') ∪ pairs dst2 src2.at := by
    ext p
    constructor
    · rintro ⟨is, i1, i2, i3⟩
      by_cases h : Out src'.rank src' is
      · exact .inl ⟨is, i1, h, i2, i3⟩
      · right
        have := (h2.inB is).2 ⟨i1, h⟩
        exact ⟨is, this, by rw [(h2.addr is this).1, i2], by rw [hsrc2 is this, i3]⟩
    · rintro (⟨is, i1, -, i2, i3⟩ | ⟨is, i1, i2, i3⟩)
      · exact ⟨is, i1, i2, i3⟩
      · exact ⟨is, (hin2 is i1).1, by rw [← (h2.addr is i1).1, i2], by rw [← hsrc2 is i1, i3]⟩
  have hsafe := hs'.safe
  have hfinal : ∃ m', (if src2.base = dst2.base then some m2 else copyImpl src2 dst2 m2) = some m' ∧ Copied dst'.elem (pairs dst2 src2.at) m2 m' := by
    split
    · next hbase =>
      refine ⟨m2, rfl, ?_⟩
      have hemp : pairs dst2 src2.at = ∅ := by
        ext p
        simp only [Set.mem_empty_iff_false, iff_false]
        rintro ⟨is, hi, -⟩
        obtain ⟨js, j1, j2, j3⟩ := hcor hp' ⟨is, hi⟩ (hsb ⟨is, hi⟩)
        obtain ⟨q, hq⟩ := Option.isSome_iff_exists.1 (hsb ⟨is, hi⟩)
        have h4 := hs'.dst_src js js q q (hin2 js j1).1 (hin2 js j1).1 (by rw [← (h2.addr js j1).1, j2, ← hbase, hq]) (by rw [← hsrc2 js j1, j3, hq])
        have := hd'.elem
        unfold Apart at h4
        omega
      rw [hemp]
      exact Copied.empty _ _
    · have := copyImpl_copied (src := src2) (dst := dst2) (m := m2)
        (okBufs_of (fun e hee => by
            obtain ⟨e', a1, a2, a3⟩ := h2.unfolded e hee
            exact .inl (a3.trans (hd'.first e' a1).1))
          (fun e hee => by
            obtain ⟨e', a1, a2, a3⟩ := h2.sdims e hee
            have := hp' e' a1
            unfold Dim.Plain at *
            rw [a2, a3]; exact this))
        (by rw [h2.elem.1, h2.elem.2, hes, hed, helem]) (by rw [h2.elem.1]; exact hd'.elem)
        (fun e hee => by
          obtain ⟨e', a1, a2, a3⟩ := h2.unfolded e hee
          exact a3.trans (hd'.first e' a1).1)
        hcov (fun hne => ⟨h2.dbase hd'.base hne, hsb hne⟩)
        ⟨fun is js a b i1 i2 i3 i4 i5 => by
            rw [h2.elem.1]
            rw [(h2.addr is i1).1] at i4
            rw [(h2.addr js i2).1] at i5
            exact hs'.dst_dst is js a b (hin2 is i1).1 (hin2 js i2).1 i3 i4 i5,
          fun is js a b i1 i2 i3 i4 => by
            rw [h2.elem.1]
            rw [(h2.addr is i1).1] at i3
            rw [hsrc2 js i2] at i4
            exact hs'.dst_src is js a b (hin2 is i1).1 (hin2 js i2).1 i3 i4⟩
      rw [h2.elem.1] at this
      exact this
  obtain ⟨m', h3, h4⟩ := hfinal
  refine ⟨m', h3, copiedFrom_of hd.base ?_⟩
  rw [← pairs_transfer hbij ha hg, hset, ← hed]
  rw [hset] at hsafe
  exact h2.copied.union hsafe h4

/-- **C26**, `copy` with padding in place: if the elements of `src` are the elements of `dst`, the elements of `dst` out of the bounds of
`src` are copies of the elements of `pad`, and nothing else is changed. -/
theorem copy_in_place_partial (src dst pad : Buf) (m : Mem) (hd : GoodDst dst) (helem : src.elem = dst.elem) (hp : PlainB src)
    (ht : Trackable dst src) (hr : src.rank ≤ dst.rank) (hr0 : 0 < src.rank) (hb : src.base.isSome)
    (hpe : pad.elem = dst.elem) (hpp : PlainB pad) (hpr : pad.rank ≤ dst.rank) (hpc : Cov dst pad) (hpb : pad.base.isSome)
    (hin : ∀ is, dst.InBounds is → InR src.dims is → src.view is = dst.view is)
    (hs : Separate dst (paddingSource src.dims pad)) :
    ∃ m', copy src dst pad m = some m' ∧ CopiedFrom dst (paddingSource src.dims pad) m m' := by
  obtain ⟨src', dst', pad', φ, heq, hbij, hd', hed, hes, hep, ha, hp', hr', hsv, hpp', hpr', hpc', hpb', hpv⟩ := optimize_padded hd hp ht hr hpp hpr hpc hpb
  unfold copy
  rw [if_neg (by simp [helem]), if_pos ⟨hr0, hpb⟩, if_neg (by simp [hpe]), heq]
  simp only
  have hg : ∀ is, dst'.InBounds is → paddingSource src'.dims pad' is = paddingSource src.dims pad (φ is) := by
    intro is hi
    obtain ⟨h1, h2⟩ := hsv is hi
    unfold paddingSource
    by_cases h : InR src.dims (φ is)
    · rw [if_pos h, if_pos (h1.2 h)]
    · rw [if_neg h, if_neg (fun h' => h (h1.1 h')), hpv is hi]
  have hs' := separate_transfer hbij hed ha hg hs
  obtain ⟨src2, dst2, m2, h1, h2, hcov, hout, hcor⟩ := padImpl_core (g := paddingSource src'.dims pad') m hd'.first hd'.elem hr' hd'.nonempty hd'.base
    (by rw [hep, hed, hpe]) hpp' hpr' hpc' hpb' hs' (fun is hi h => by rw [paddingSource, if_neg h])
  rw [h1]
  simp only [Option.bind_some]
  have hin2 : ∀ is, dst2.InBounds is → dst'.InBounds is ∧ InR src'.dims is := fun is hi => by
    have := (h2.inB is).1 hi
    refine ⟨this.1, ?_⟩
    by_contra h
    exact this.2 ((hout is this.1).2 h)
  have hset : pairs dst' (paddingSource src'.dims pad') = pairsOn dst' (paddingSource src'.dims pad') (Out src'.rank src') := by
    ext p
    constructor
    · rintro ⟨is, i1, i2, i3⟩
      refine ⟨is, i1, (hout is i1).2 ?_, i2, i3⟩
      intro h
      rw [paddingSource, if_pos h] at i3
      simp at i3
    · exact fun h => pairsOn_sub h
  have hc : Copied dst.elem (pairs dst (paddingSource src.dims pad)) m m2 := by
    rw [← pairs_transfer hbij ha hg, hset, ← hed]
    exact h2.copied
  by_cases hne : ∃ is, dst2.InBounds is
  · -- the bases are equal
    have hsb : src2.base.isSome := by
      obtain ⟨is, hi⟩ := hne
      obtain ⟨g1, g2⟩ := hin2 is hi
      refine h2.sbase (base_of_view (is := is) ?_) ⟨is, hi⟩
      have h3 := (hsv is g1).1.1 g2
      rw [(hsv is g1).2 h3]
      exact view_isSome h3.contains hb
    obtain ⟨js, j1, j2, j3⟩ := hcor hp' hne hsb
    obtain ⟨g1, g2⟩ := hin2 js j1
    have h3 := (hsv js g1).1.1 g2
    have hbase : src2.base = dst2.base := by
      rw [← j3, (h2.addr js j1).2, at_view (by
        have : js.length = dst'.rank := InB.length g1
        omega), (hsv js g1).2 h3, hin _ (hbij.1 g1) h3, view_address (hbij.1 g1), ← ha js g1, ← (h2.addr js j1).1, j2]
    rw [if_pos hbase]
    exact ⟨m2, rfl, copiedFrom_of hd.base hc⟩
  · split
    · exact ⟨m2, rfl, copiedFrom_of hd.base hc⟩
    · have hno : ∀ is, ¬ dst2.InBounds is := fun is hi => hne ⟨is, hi⟩
      obtain ⟨m', h3, h4⟩ := copyImpl_copied (src := src2) (dst := dst2) (m := m2)
        (okBufs_of (fun e hee => by
            obtain ⟨e', a1, a2, a3⟩ := h2.unfolded e hee
            exact .inl (a3.trans (hd'.first e' a1).1))
          (fun e hee => by
            obtain ⟨e', a1, a2, a3⟩ := h2.sdims e hee
            have := hp' e' a1
            unfold Dim.Plain at *
            rw [a2, a3]; exact this))
        (by rw [h2.elem.1, h2.elem.2, hes, hed, helem]) (by rw [h2.elem.1]; exact hd'.elem)
        (fun e hee => by
          obtain ⟨e', a1, a2, a3⟩ := h2.unfolded e hee
          exact a3.trans (hd'.first e' a1).1)
        hcov (fun hne' => absurd hne' hne)
        ⟨fun is js a b i1 => absurd i1 (hno is), fun is js a b i1 => absurd i1 (hno is)⟩
      have hemp : pairs dst2 src2.at = ∅ := by
        ext p
        simp only [Set.mem_empty_iff_false, iff_false]
        rintro ⟨is, hi, -⟩
        exact hno is hi
      rw [hemp] at h4
      have : m' = m2 := funext fun a => h4.other a (by simp)
      subst this
      exact ⟨m', h3, copiedFrom_of hd.base hc⟩

/-- The dimensions that `pad` uses for `in_bounds`. -/
def padDims (inBounds : List Dim) (rank : Nat) : List Dim :=
  (List.range rank).map fun d =>
    let b := (inBounds[d]?).getD .broadcast
    ⟨b.min, b.max, 0, b.fold⟩

/-- Specification: the indices are in the bounds of each dimension of `in_bounds` that is not a broadcast. -/
def InBoundsOf (inBounds : List Dim) (is : List Int) : Prop :=
  ∀ (d : Nat) (b : Dim) (i : Int), inBounds[d]? = some b → is[d]? = some i → b.isBroadcast = true ∨ (b.min ≤ i ∧ i ≤ b.max)

theorem inR_padDims {inBounds : List Dim} {rank : Nat} (h0 : ∀ b ∈ inBounds, b.min = 0 → b.max = 0 → b.stride = 0) {is : List Int} (hl : is.length = rank) :
    InR (padDims inBounds rank) is ↔ InBoundsOf inBounds is := by
  rw [Track.inR_zip]
  have hget : ∀ (d : Nat) (i : Int), is[d]? = some i → ((⟨((inBounds[d]?).getD Dim.broadcast).min, ((inBounds[d]?).getD Dim.broadcast).max, 0, ((inBounds[d]?).getD Dim.broadcast).fold⟩ : Dim), i) ∈
      (padDims inBounds rank).zip is := by
    intro d i hi
    refine List.mem_iff_getElem?.2 ⟨d, ?_⟩
    have hd : d < rank := by rw [← hl]; exact (List.getElem?_eq_some_iff.1 hi).1
    rw [List.getElem?_zip_eq_some]
    refine ⟨?_, hi⟩
    simp [padDims, List.getElem?_range hd]
  constructor
  · intro h d b i hb hi
    have := h _ (hget d i hi)
    simp only [hb, Option.getD_some] at this
    rcases this with h1 | h1
    · left
      simp only [Dim.isBroadcast, decide_eq_true_eq] at h1 ⊢
      exact ⟨h1.1, h1.2.1, h0 b (List.mem_of_getElem? hb) h1.1 h1.2.1⟩
    · exact .inr h1
  · intro h p hp
    obtain ⟨d, hd⟩ := List.mem_iff_getElem?.1 hp
    rw [List.getElem?_zip_eq_some] at hd
    obtain ⟨h1, h2⟩ := hd
    simp only [padDims, List.getElem?_map] at h1
    have hdl : d < rank := by rw [← hl]; exact (List.getElem?_eq_some_iff.1 h2).1
    rw [List.getElem?_range hdl] at h1
    simp only [Option.map_some, Option.some.injEq] at h1
    rw [← h1]
    cases hb : inBounds[d]? with
    | none => left; simp [Dim.isBroadcast, Dim.broadcast]
    | some b =>
      rcases h d b p.2 hb h2 with h3 | h3
      · left; simp only [Dim.isBroadcast, decide_eq_true_eq, Option.getD_some] at h3 ⊢; exact ⟨h3.1, h3.2.1, trivial⟩
      · right; simpa using h3

open Classical in
/-- The source of each element for `pad`; the elements in bounds are not overwritten. -/
noncomputable def outsideSource (inBounds : List Dim) (pad : Buf) (is : List Int) : Option Int :=
  if InBoundsOf inBounds is then none else pad.view is

/-- **C26**, `pad`: every element of `dst` that is not in bounds is a copy of the element of `pad` at the same indices, and nothing else is
changed. Partial: the buffers are not folded, `dst` has an element, and each dimension of `in_bounds` from 0 to 0 is a broadcast
(`pad_zero_counterexample`). -/
theorem pad_correct_partial (inBounds : List Dim) (dst padding : Buf) (m : Mem) (hd : GoodDst dst)
    (h0 : ∀ b ∈ inBounds, b.min = 0 → b.max = 0 → b.stride = 0)
    (hpe : padding.elem = dst.elem) (hpp : PlainB padding) (hpr : padding.rank ≤ dst.rank) (hpc : Cov dst padding) (hpb : padding.base.isSome)
    (hs : Separate dst (outsideSource inBounds padding)) :
    ∃ m', pad inBounds dst padding m = some m' ∧ CopiedFrom dst (outsideSource inBounds padding) m m' := by
  unfold pad
  rw [if_neg (by simp [hpe])]
  split
  · next hr0 =>
    refine ⟨m, rfl, ?_, fun _ _ => rfl⟩
    intro is s hi hf
    have : is = [] := List.eq_nil_of_length_eq_zero ((InB.length hi).trans hr0)
    subst this
    rw [outsideSource, if_pos (by intro d b i _ h; simp at h)] at hf
    simp at hf
  · have hsrc : Trackable dst ⟨none, dst.elem, padDims inBounds dst.rank⟩ := by
      right
      refine ⟨by simp [Buf.rank, padDims], .inr fun d hd => ?_⟩
      simp only [padDims, List.mem_map] at hd
      obtain ⟨j, -, rfl⟩ := hd
      simp
    have hps : PlainB ⟨none, dst.elem, padDims inBounds dst.rank⟩ := by
      intro d hd
      simp only [padDims, List.mem_map] at hd
      obtain ⟨j, -, rfl⟩ := hd
      exact .inr rfl
    obtain ⟨src', dst', pad', φ, heq, hbij, hd', hed, hes, hep, ha, hp', hr', hsv, hpp', hpr', hpc', hpb', hpv⟩ :=
      optimize_padded hd hps hsrc (by simp [Buf.rank, padDims]) hpp hpr hpc hpb
    change ∃ m', (match optimizeDims ⟨dst, [⟨none, dst.elem, padDims inBounds dst.rank⟩, padding]⟩ with
      | ⟨dst, [src, pad]⟩ => (padImpl (Min.min src.rank dst.rank) src dst pad m).map fun r => r.2.2
      | _ => none) = some m' ∧ _
    rw [heq]
    simp only
    have hg : ∀ is, dst'.InBounds is → paddingSource src'.dims pad' is = outsideSource inBounds padding (φ is) := by
      intro is hi
      obtain ⟨h1, h2⟩ := hsv is hi
      have h3 := inR_padDims h0 (is := φ is) (rank := dst.rank) (InB.length (hbij.1 hi))
      simp only at h1
      unfold paddingSource outsideSource
      by_cases h : InBoundsOf inBounds (φ is)
      · rw [if_pos h, if_pos (h1.2 (h3.2 h))]
      · rw [if_neg h, if_neg (fun h' => h (h3.1 (h1.1 h'))), hpv is hi]
    have hs' := separate_transfer hbij hed ha hg hs
    obtain ⟨src2, dst2, m2, h1, h2, hcov, hout, hcor⟩ := padImpl_core (g := paddingSource src'.dims pad') m hd'.first hd'.elem hr' hd'.nonempty hd'.base
      (by rw [hep, hed, hpe]) hpp' hpr' hpc' hpb' hs' (fun is hi h => by rw [paddingSource, if_neg h])
    rw [h1]
    refine ⟨m2, rfl, copiedFrom_of hd.base ?_⟩
    have hset : pairs dst' (paddingSource src'.dims pad') = pairsOn dst' (paddingSource src'.dims pad') (Out src'.rank src') := by
      ext p
      constructor
      · rintro ⟨is, i1, i2, i3⟩
        refine ⟨is, i1, (hout is i1).2 ?_, i2, i3⟩
        intro h
        rw [paddingSource, if_pos h] at i3
        simp at i3
      · exact fun h => pairsOn_sub h
    rw [← pairs_transfer hbij ha hg, hset, ← hed]
    exact h2.copied

end Copy
end Slinky
