import Verif.FuseProps

/-!
# `optimize_dims` when one of the buffers is used for its bounds (C21, C26)

`copy` and `pad` call `optimize_dims` for the destination, the source and the padding, and then compare the bounds of the
dimensions of the source and the destination. So the bounds of the source must be preserved, even if it is out of bounds where
the destination is not, and if it has dimensions with stride 0. `InR` says that indices are in the bounds of all the
dimensions that are not broadcasts.
-/

namespace Slinky
namespace Track

/-- The indices are in the bounds of all dimensions that are not broadcasts. -/
def InR : List Dim → List Int → Prop
  | d :: ds, i :: is => (d.isBroadcast = true ∨ (d.min ≤ i ∧ i ≤ d.max)) ∧ InR ds is
  | _, _ => True

theorem inR_zip : ∀ (ds : List Dim) (is : List Int), InR ds is ↔ ∀ p ∈ ds.zip is, p.1.isBroadcast = true ∨ (p.1.min ≤ p.2 ∧ p.2 ≤ p.1.max)
  | [], _ => by simp [InR]
  | _ :: _, [] => by simp [InR]
  | d :: ds, i :: is => by simp [InR, inR_zip ds is]

theorem InR.contains : ∀ {ds : List Dim} {is : List Int}, InR ds is → Buf.containsL ds is = true
  | [], _, _ => by simp [Buf.containsL]
  | _ :: _, [], _ => by simp [Buf.containsL]
  | d :: ds, i :: is, h => by
    simp only [Buf.containsL, Bool.and_eq_true]
    refine ⟨(dim_contains_iff _ _).2 ?_, InR.contains h.2⟩
    rcases h.1 with h | h
    · simp [Dim.isBroadcast] at h; exact .inl h.2.2
    · exact .inr h

/-- The condition to preserve the bounds of a buffer. -/
def Trackable (first b : Buf) : Prop :=
  (∀ d ∈ b.dims, d.stride ≠ 0) ∨ (b.rank = first.rank ∧
    ((∀ d ∈ b.dims, ¬ (d.min = d.max ∧ d.stride = 0)) ∨ ∀ d ∈ b.dims, ¬ (d.min = 0 ∧ d.max = 0 ∧ d.stride ≠ 0)))

def PlainB (b : Buf) : Prop := ∀ d ∈ b.dims, d.Plain

/-- The buffer is in bounds wherever the first one is. -/
def Cov (first b : Buf) : Prop := ∀ is, first.InBounds is → b.contains is = true

/-- No dimension of the first buffer is folded or has stride 0. -/
def FirstOk (b : Buf) : Prop := ∀ d ∈ b.dims, d.fold = Dim.unfolded ∧ d.stride ≠ 0

theorem FirstOk.plain {b : Buf} (h : FirstOk b) : PlainB b := fun d hd => .inl (h d hd).1

/-- A step `f` on all the buffers; `φ` gives the indices before it. -/
structure Step (bs : Bufs) (f : Buf → Buf) (φ : List Int → List Int) : Prop where
  bij : Set.BijOn φ {is | (f bs.first).InBounds is} {is | bs.first.InBounds is}
  first : FirstOk (f bs.first)
  elem : ∀ b, (f b).elem = b.elem
  rank : ∀ b, b.rank ≤ bs.first.rank → (f b).rank ≤ (f bs.first).rank
  cov : ∀ b ∈ bs.all, PlainB b → Cov bs.first b →
    PlainB (f b) ∧ Cov (f bs.first) (f b) ∧ ∀ is, (f bs.first).InBounds is → (f b).view is = b.view (φ is)
  track : ∀ b ∈ bs.all, PlainB b → Trackable bs.first b →
    PlainB (f b) ∧ Trackable (f bs.first) (f b) ∧ ∀ is, (f bs.first).InBounds is → (InR (f b).dims is ↔ InR b.dims (φ is)) ∧
      (InR b.dims (φ is) → (f b).view is = b.view (φ is))

theorem Step.id {bs : Bufs} (h : FirstOk bs.first) : Step bs id id where
  bij := Set.bijOn_id _
  first := h
  elem _ := rfl
  rank _ h := h
  cov b _ h1 h2 := ⟨h1, h2, fun _ _ => rfl⟩
  track b _ h1 h2 := ⟨h1, h2, fun _ _ => ⟨Iff.rfl, fun _ => rfl⟩⟩

theorem map_all (bs : Bufs) (f : Buf → Buf) : (bs.map f).all = bs.all.map f := by simp [Bufs.all, Bufs.map]

theorem Step.comp {bs : Bufs} {f g : Buf → Buf} {φ ψ : List Int → List Int} (h1 : Step bs f φ) (h2 : Step (bs.map f) g ψ) :
    Step bs (g ∘ f) (φ ∘ ψ) where
  bij := h1.bij.comp h2.bij
  first := h2.first
  elem b := by simp [h2.elem, h1.elem]
  rank b hb := h2.rank _ (h1.rank b hb)
  cov b hb p c := by
    obtain ⟨a1, a2, a3⟩ := h1.cov b hb p c
    obtain ⟨b1, b2, b3⟩ := h2.cov (f b) (by rw [map_all]; exact List.mem_map_of_mem hb) a1 a2
    exact ⟨b1, b2, fun is hi => (b3 is hi).trans (a3 _ (h2.bij.1 hi))⟩
  track b hb p c := by
    obtain ⟨a1, a2, a3⟩ := h1.track b hb p c
    obtain ⟨b1, b2, b3⟩ := h2.track (f b) (by rw [map_all]; exact List.mem_map_of_mem hb) a1 a2
    refine ⟨b1, b2, fun is hi => ?_⟩
    obtain ⟨c1, c2⟩ := b3 is hi
    obtain ⟨c3, c4⟩ := a3 _ (h2.bij.1 hi)
    exact ⟨c1.trans c3, fun h => (c2 (c3.2 h)).trans (c4 h)⟩

/-- `new` is `old` after a step. -/
def Steps (new old : Bufs) : Prop := ∃ f φ, new = old.map f ∧ Step old f φ

theorem Steps.refl {bs : Bufs} (h : FirstOk bs.first) : Steps bs bs := ⟨id, id, by simp [Bufs.map], .id h⟩

theorem Steps.trans {a b c : Bufs} (h1 : Steps a b) (h2 : Steps b c) : Steps a c := by
  obtain ⟨f, φ, rfl, h1⟩ := h1
  obtain ⟨g, ψ, rfl, h2⟩ := h2
  exact ⟨f ∘ g, ψ ∘ φ, by simp [Bufs.map], h2.comp h1⟩

theorem Steps.first {a b : Bufs} (h : Steps a b) : FirstOk a.first := by
  obtain ⟨f, φ, rfl, h⟩ := h
  exact h.first

/-! ## Fusing -/

theorem inR_fuse (mn e : Int) (he : 0 < e) : ∀ (n : Nat) (ds : List Dim) (is : List Int), n < is.length →
    (n < ds.length → n + 1 < ds.length ∧ canFuse ((ds[n]?).getD Dim.broadcast) ((ds[n + 1]?).getD Dim.broadcast) = true) →
    (∀ i, ds[n]? = some i → i.min = mn ∧ i.extent = e) →
    (∀ i o, i ∈ ds → o ∈ ds → ¬ ((i.min = i.max ∧ i.stride = 0) ∧ o.min = 0 ∧ o.max = 0 ∧ o.stride ≠ 0)) →
    (InR (fuseL n ds) is ↔ InR ds (splitIdx mn e n is))
  | n, [], is, _, _, _, _ => by rw [fuseL_short n [] (by simp)]; simp [InR]
  | _, _ :: _, [], h, _, _, _ => by simp at h
  | 0, [i], k :: is, _, hc, _, _ => by have := (hc (by simp)).1; simp at this
  | 0, i :: o :: ds, k :: is, _, hc, hb, hq => by
    have hc' := (hc (by simp)).2
    simp at hc'
    obtain ⟨hb1, hb2⟩ := hb i (by simp)
    obtain ⟨hext, hpos, hc''⟩ := canFuse_cases hc'
    have g0 := Int.emod_add_mul_ediv k e
    have g1 := Int.emod_nonneg k (show e ≠ 0 by omega)
    have g2 := Int.emod_lt_of_pos k he
    have hx : i.min ≤ mn + k % e ∧ mn + k % e ≤ i.max := by omega
    simp only [fuseL, splitIdx, InR, hx, and_self, or_true, true_and]
    apply and_congr_left'
    unfold fuseDim
    split
    · next hbo => simp [hbo]
    · next hbo =>
      simp only [hbo, Bool.false_eq_true, false_or]
      have hrange : (o.min * i.extent ≤ k ∧ k ≤ (o.max + 1) * i.extent - 1) ↔ (o.min ≤ k / e ∧ k / e ≤ o.max) := by
        rw [hb2]
        constructor
        · rintro ⟨h1, h2⟩
          refine ⟨(Int.le_ediv_iff_mul_le he).2 h1, ?_⟩
          have : k / e < o.max + 1 := (Int.ediv_lt_iff_lt_mul he).2 (by omega)
          omega
        · rintro ⟨h1, h2⟩
          have := (Int.le_ediv_iff_mul_le he).1 h1
          have h3 : k / e < o.max + 1 := by omega
          have := (Int.ediv_lt_iff_lt_mul he).1 h3
          omega
      rw [hrange]
      constructor
      · rintro (h | h)
        · exfalso
          simp only [Dim.isBroadcast, decide_eq_true_eq, not_and] at h hbo
          obtain ⟨h1, h2, h3⟩ := h
          have he1 : i.extent = 1 := by
            have : (o.max + 1) * i.extent = 1 := by omega
            exact (Int.eq_one_or_neg_one_of_mul_eq_one' this).elim (fun h => h.2) (fun h => by omega)
          have ho1 : o.min = 0 := by rw [he1] at h1; omega
          have ho2 : o.max = 0 := by rw [he1] at h2; omega
          exact hq i o (by simp) (by simp) ⟨⟨by omega, h3⟩, ho1, ho2, hbo ho1 ho2⟩
        · exact h
      · exact fun h => .inr h
  | n + 1, d :: ds, k :: is, hl, hc, hb, hq => by
    have ih := inR_fuse mn e he n ds is (by simpa using hl) (by simpa using hc) (by simpa using hb)
      (fun i o hi ho => hq i o (by simp [hi]) (by simp [ho]))
    simp only [fuseL, splitIdx, InR, ih]

theorem fuseL_rank_le (n : Nat) (ds es : List Dim) (h : ds.length ≤ es.length) : (fuseL n ds).length ≤ (fuseL n es).length := by
  by_cases h1 : n + 1 < ds.length
  · have a := fuseL_length n ds h1
    have b := fuseL_length n es (by omega)
    omega
  · rw [fuseL_short n ds (by omega)]
    by_cases h2 : n + 1 < es.length
    · have b := fuseL_length n es h2
      omega
    · rw [fuseL_short n es (by omega)]; exact h

theorem attemptFuse_steps (ok : Nat → Nat → Bool) (n : Nat) (bs : Bufs) (hf : FirstOk bs.first) (hn : n + 1 < bs.first.rank) :
    Steps (attemptFuse ok n (n + 1) bs) bs ∧ bs.first.rank ≤ (attemptFuse ok n (n + 1) bs).first.rank + 1 := by
  unfold attemptFuse
  split
  swap
  · exact ⟨Steps.refl hf, by omega⟩
  rename_i h
  simp only [Bool.and_eq_true] at h
  obtain ⟨⟨_, hsb⟩, hcf⟩ := h
  have hcf' : ∀ b ∈ bs.all, canFuse (b.dim n) (b.dim (n + 1)) = true := by simpa [canFuseAll] using hcf
  have hi0 := dim_eq bs.first n (by omega)
  have ho0 := dim_eq bs.first (n + 1) hn
  have hc0 := hcf' bs.first (by simp [Bufs.all])
  have hos : (bs.first.dim (n + 1)).stride ≠ 0 := (hf _ (List.mem_of_getElem? ho0)).2
  have hbc : (bs.first.dim (n + 1)).isBroadcast = false := by simp [Dim.isBroadcast, hos]
  obtain ⟨hext, hpos, _⟩ := canFuse_cases hc0
  obtain ⟨mn, hmn⟩ : ∃ mn, (bs.first.dim n).min = mn := ⟨_, rfl⟩
  obtain ⟨e, he⟩ : ∃ e, (bs.first.dim n).extent = e := ⟨_, rfl⟩
  have hφ : Set.BijOn (splitIdx mn e n) {is | (fuseBuf n (n + 1) bs.first).InBounds is} {is | bs.first.InBounds is} := by
    rw [fuseBuf_eq]
    apply Set.InvOn.bijOn (f' := joinIdx mn e n)
    · constructor
      · intro is _; exact joinIdx_splitIdx mn e n is
      · intro is his
        obtain ⟨x, hx, hx1, hx2⟩ := InB.get his hi0
        apply splitIdx_joinIdx mn e n is x hx
        · omega
        · rw [InB.length his]; exact hn
    · intro is his; rw [← hmn, ← he]; exact inB_split n _ _ _ _ hi0 ho0 hc0 hbc his
    · intro is his; rw [← hmn, ← he]; exact inB_join n _ _ _ _ hi0 ho0 hc0 hbc his
  have hlen : ∀ is, (fuseBuf n (n + 1) bs.first).InBounds is → n < is.length := by
    intro is his
    have := InB.length his
    rw [fuseBuf_eq] at this
    have h2 := fuseL_length n bs.first.dims hn
    simp only at this
    unfold Buf.rank at hn
    omega
  have hbd : ∀ b ∈ bs.all, ∀ i, b.dims[n]? = some i → i.min = mn ∧ i.extent = e := by
    intro b hb i hi
    have hbd : b.dim n = i := by simp [Buf.dim, hi]
    have hbr : n < b.rank := (List.getElem?_eq_some_iff.1 hi).1
    simp [Bufs.all] at hb
    rcases hb with rfl | hb
    · rw [← hbd]; exact ⟨hmn, he⟩
    · have := List.all_eq_true.1 hsb b hb
      simp only [Bool.or_eq_true, decide_eq_true_eq, Dim.sameBounds] at this
      rcases this with (h | h) | h
      · omega
      · omega
      · rw [hbd] at h
        refine ⟨by omega, ?_⟩
        rw [← he]; unfold Dim.extent; rw [h.1, h.2]
  have hsame : ∀ b ∈ bs.all, PlainB b → ∀ is, (fuseBuf n (n + 1) bs.first).InBounds is → Buf.containsL b.dims (splitIdx mn e n is) = true →
      SameAt (fuseL n b.dims) is b.dims (splitIdx mn e n is) := fun b hb hp is his hc =>
    fuseL_sameAt mn e (by omega) n b.dims is (hlen is his) (fun _ => hcf' b hb) hp (hbd b hb) (.inr hc)
  have hfm : ∀ b ∈ bs.all, ∀ d ∈ fuseL n b.dims, d ∈ b.dims ∨ ∃ i o, i ∈ b.dims ∧ o ∈ b.dims ∧ canFuse i o = true ∧
      d = fuseDim i o := by
    intro b hb d hd
    rcases mem_fuseL n _ _ hd with h | ⟨i, o, h1, h2, h3⟩
    · exact Or.inl h
    · right
      refine ⟨i, o, List.mem_of_getElem? h1, List.mem_of_getElem? h2, ?_, h3⟩
      have := hcf' b hb
      simpa [Buf.dim, h1, h2] using this
  have hstr : ∀ b ∈ bs.all, (∀ d ∈ b.dims, d.stride ≠ 0) → ∀ d ∈ fuseL n b.dims, d.stride ≠ 0 := by
    intro b hb hs d hd
    rcases hfm b hb d hd with h | ⟨i, o, h1, h2, h3, rfl⟩
    · exact hs d h
    · unfold fuseDim; split
      · exact hs o h2
      · exact hs i h1
  have hpl : ∀ b ∈ bs.all, PlainB b → ∀ d ∈ fuseL n b.dims, d.Plain := by
    intro b hb hp d hd
    rcases hfm b hb d hd with h | ⟨i, o, h1, h2, h3, rfl⟩
    · exact hp d h
    · exact fuseDim_plain h3 (hp i h1) (hp o h2)
  have h0 : bs.first ∈ bs.all := by simp [Bufs.all]
  refine ⟨⟨fuseBuf n (n + 1), splitIdx mn e n, rfl, hφ, ?_, ?_, ?_, ?_, ?_⟩, ?_⟩
  · intro d hd
    rw [fuseBuf_eq] at hd
    have h1 := hstr bs.first h0 (fun d hd => (hf d hd).2) d hd
    exact ⟨(hpl bs.first h0 hf.plain d hd).resolve_right h1, h1⟩
  · intro b; rw [fuseBuf_eq]
  · intro b hb
    rw [fuseBuf_eq, fuseBuf_eq]
    exact fuseL_rank_le n _ _ hb
  · intro b hb hp hc
    refine ⟨by rw [fuseBuf_eq]; exact hpl b hb hp, fun is his => ?_, fun is his => ?_⟩
    · have h1 := hc _ (hφ.1 his)
      rw [fuseBuf_eq]
      show Buf.containsL (fuseL n b.dims) is = true
      rw [(hsame b hb hp is his h1).1]
      exact h1
    · rw [fuseBuf_eq]
      exact view_of_sameAt (hsame b hb hp is his (hc _ (hφ.1 his)))
  · intro b hb hp ht
    have hlen2 : n < b.dims.length → n + 1 < b.dims.length := by
      intro hnb
      rcases ht with ht | ⟨ht, -⟩
      · by_contra hc
        have h1 := hcf' b hb
        have h2 : b.dim (n + 1) = Dim.broadcast := by simp [Buf.dim, List.getElem?_eq_none (show b.dims.length ≤ n + 1 by omega)]
        rw [h2] at h1
        obtain ⟨_, _, h3⟩ := canFuse_cases h1
        have h4 := ht (b.dim n) (List.mem_of_getElem? (dim_eq b n hnb))
        rcases h3 with h3 | h3
        · simp [Dim.broadcast] at h3
        · have := h3.1
          simp [Dim.broadcast] at this
          omega
      · unfold Buf.rank at ht hn; omega
    refine ⟨by rw [fuseBuf_eq]; exact hpl b hb hp, ?_, fun is his => ⟨?_, ?_⟩⟩
    · rcases ht with ht | ⟨ht, hq⟩
      · left; rw [fuseBuf_eq]; exact hstr b hb ht
      · right
        refine ⟨?_, ?_⟩
        · have h1 := fuseL_length n b.dims (by unfold Buf.rank at ht hn; omega)
          have h2 := fuseL_length n bs.first.dims hn
          rw [fuseBuf_eq, fuseBuf_eq]
          unfold Buf.rank at ht ⊢
          simp only
          omega
        · rw [fuseBuf_eq]
          rcases hq with hq | hq
          · left
            intro d hd
            rcases hfm b hb d hd with h | ⟨i, o, h1, h2, h3, rfl⟩
            · exact hq d h
            · obtain ⟨k1, k2, k3⟩ := canFuse_cases h3
              unfold fuseDim
              split
              · exact hq o h2
              · rintro ⟨g1, g2⟩
                simp only at g1 g2
                have hee : (o.max + 1 - o.min) * i.extent = 1 := by
                  have : (o.max + 1 - o.min) * i.extent = (o.max + 1) * i.extent - o.min * i.extent := by ring
                  omega
                have := (Int.eq_one_or_neg_one_of_mul_eq_one' hee).elim (fun h => h.2) (fun h => by omega)
                exact hq i h1 ⟨by omega, g2⟩
          · right
            intro d hd
            rcases hfm b hb d hd with h | ⟨i, o, h1, h2, h3, rfl⟩
            · exact hq d h
            · obtain ⟨k1, k2, k3⟩ := canFuse_cases h3
              unfold fuseDim
              split
              · exact hq o h2
              · rintro ⟨g1, g2, g3⟩
                simp only at g1 g2 g3
                have hee : (o.max + 1) * i.extent = 1 := by omega
                have he1 := (Int.eq_one_or_neg_one_of_mul_eq_one' hee).elim (fun h => h.2) (fun h => by omega)
                rw [he1] at g1 g2 k3
                refine hq o h2 ⟨by omega, by omega, ?_⟩
                rcases k3 with k3 | k3
                · exact k3.2
                · rw [k3.1]; simpa using g3
    · rw [fuseBuf_eq]
      refine inR_fuse mn e (by omega) n b.dims is (hlen is his) (fun h => ⟨hlen2 h, hcf' b hb⟩) (hbd b hb) ?_
      rintro i o hi ho ⟨⟨g1, g2⟩, g3, g4, g5⟩
      rcases ht with ht | ⟨-, hq | hq⟩
      · exact ht i hi g2
      · exact hq i hi ⟨g1, g2⟩
      · exact hq o ho ⟨g3, g4, g5⟩
    · intro hr
      rw [fuseBuf_eq]
      exact view_of_sameAt (hsame b hb hp is his hr.contains)
  · have : (fuseBuf n (n + 1) bs.first).rank + 1 = bs.first.rank := by
      rw [fuseBuf_eq]; exact fuseL_length n _ hn
    show bs.first.rank ≤ (fuseBuf n (n + 1) bs.first).rank + 1
    omega

theorem fuseLoop_steps (ok : Nat → Nat → Bool) : ∀ (n : Nat) (bs : Bufs), FirstOk bs.first → n < bs.first.rank ∨ n = 0 →
    Steps (fuseLoop ok n bs) bs
  | 0, bs, hf, _ => .refl hf
  | n + 1, bs, hf, hn => by
    obtain ⟨h1, h3⟩ := attemptFuse_steps ok n bs hf (by omega)
    exact (fuseLoop_steps ok n _ h1.first (by omega)).trans h1

theorem fuseContiguous_steps (ok : Nat → Nat → Bool) (bs : Bufs) (hf : FirstOk bs.first) : Steps (fuseContiguous ok bs) bs :=
  fuseLoop_steps ok _ bs hf (by omega)

/-! ## Sorting -/

theorem swap_steps (bs : Bufs) (i j : Nat) (hf : FirstOk bs.first) (hi : ∀ b ∈ bs.all, i < b.rank) (hj : ∀ b ∈ bs.all, j < b.rank) :
    Steps (bs.map (swapDims i j)) bs := by
  have h0 : bs.first ∈ bs.all := by simp [Bufs.all]
  have hφ : Set.BijOn (fun is => swapL is i j) {is | (swapDims i j bs.first).InBounds is} {is | bs.first.InBounds is} := by
    apply Set.InvOn.bijOn (f' := fun is => swapL is i j)
    · constructor
      · intro is his
        have := InB.length his
        simp only [swapDims, swapL_length] at this
        exact swapL_swapL is i j (by have := hi _ h0; unfold Buf.rank at this; omega)
          (by have := hj _ h0; unfold Buf.rank at this; omega)
      · intro is his
        have := InB.length his
        exact swapL_swapL is i j (by have := hi _ h0; unfold Buf.rank at this; omega)
          (by have := hj _ h0; unfold Buf.rank at this; omega)
    · intro is his
      have := inB_swap (swapL bs.first.dims i j) is i j (by rw [swapL_length]; exact hi _ h0)
        (by rw [swapL_length]; exact hj _ h0) his
      rw [swapL_swapL _ _ _ (hi _ h0) (hj _ h0)] at this
      exact this
    · intro is his; exact inB_swap _ _ _ _ (hi _ h0) (hj _ h0) his
  have hl' : ∀ is, (swapDims i j bs.first).InBounds is → i < is.length ∧ j < is.length := by
    intro is his
    have hl := InB.length his
    simp only [swapDims, swapL_length] at hl
    exact ⟨by rw [hl]; exact hi _ h0, by rw [hl]; exact hj _ h0⟩
  have hsame : ∀ b ∈ bs.all, ∀ is, (swapDims i j bs.first).InBounds is →
      SameAt (swapL b.dims i j) is b.dims (swapL is i j) := fun b hb is his =>
    swap_sameAt _ _ _ _ (hi b hb) (hj b hb) (hl' is his).1 (hl' is his).2
  have hmem : ∀ (b : Buf) (d : Dim), d ∈ swapL b.dims i j ↔ d ∈ b.dims := fun b d => (swapL_perm _ _ _).mem_iff
  refine ⟨swapDims i j, _, rfl, hφ, fun d hd => hf d ((hmem _ _).1 hd), fun _ => rfl, ?_, ?_, ?_⟩
  · intro b hb
    simp only [swapDims, Buf.rank, swapL_length] at hb ⊢
    exact hb
  · intro b hb hp hc
    refine ⟨fun d hd => hp d ((hmem _ _).1 hd), fun is his => ?_, fun is his => view_of_sameAt (hsame b hb is his)⟩
    show Buf.containsL (swapL b.dims i j) is = true
    rw [(hsame b hb is his).1]
    exact hc _ (hφ.1 his)
  · intro b hb hp ht
    refine ⟨fun d hd => hp d ((hmem _ _).1 hd), ?_, fun is his => ⟨?_, fun _ => view_of_sameAt (hsame b hb is his)⟩⟩
    · rcases ht with ht | ⟨ht, hq⟩
      · exact .inl fun d hd => ht d ((hmem _ _).1 hd)
      · right
        refine ⟨by simpa only [swapDims, Buf.rank, swapL_length] using ht, ?_⟩
        rcases hq with hq | hq
        · exact .inl fun d hd => hq d ((hmem _ _).1 hd)
        · exact .inr fun d hd => hq d ((hmem _ _).1 hd)
    · show InR (swapL b.dims i j) is ↔ _
      have h1 := hl' is his
      have hp : ((swapL b.dims i j).zip is).Perm (b.dims.zip (swapL is i j)) := by
        have : (swapL b.dims i j).zip is = swapL (b.dims.zip (swapL is i j)) i j := by
          rw [← zip_swapL b.dims (swapL is i j) i j (hi b hb) (hj b hb) (by rw [swapL_length]; exact h1.1) (by rw [swapL_length]; exact h1.2),
            swapL_swapL is i j h1.1 h1.2]
        rw [this]; exact swapL_perm _ _ _
      rw [inR_zip, inR_zip]
      simp only [hp.mem_iff]

theorem sortInner_steps (ok : Nat → Nat → Bool) (i r : Nat) : ∀ (n j : Nat) (bs : Bufs) (m : Bool), FirstOk bs.first →
    (∀ b ∈ bs.all, r ≤ b.rank) → i < r → j + n ≤ r →
    Steps (sortInner ok i n j (bs, m)).1 bs ∧ (∀ b ∈ (sortInner ok i n j (bs, m)).1.all, r ≤ b.rank)
  | 0, j, bs, m, hf, hr, _, _ => ⟨.refl hf, hr⟩
  | n + 1, j, bs, m, hf, hr, hi, hj => by
    rw [sortInner]
    split
    · have h1 := swap_steps bs i j hf (fun b hb => by have := hr b hb; omega) (fun b hb => by have := hr b hb; omega)
      obtain ⟨h3, h5⟩ := sortInner_steps ok i r n (j + 1) _ true h1.first (map_swap_rank bs i j r hr) hi (by omega)
      exact ⟨h3.trans h1, h5⟩
    · exact sortInner_steps ok i r n (j + 1) bs m hf hr hi (by omega)

theorem sortOuter_steps (ok : Nat → Nat → Bool) (r : Nat) : ∀ (n i : Nat) (bs : Bufs) (m : Bool), FirstOk bs.first →
    (∀ b ∈ bs.all, r ≤ b.rank) → i + n < r ∨ n = 0 → Steps (sortOuter ok r n i (bs, m)).1 bs
  | 0, i, bs, m, hf, hr, _ => .refl hf
  | n + 1, i, bs, m, hf, hr, hi => by
    rw [sortOuter]
    obtain ⟨h1, h3⟩ := sortInner_steps ok i r (r - (i + 1)) (i + 1) bs m hf hr (by omega) (by omega)
    have h4 := sortOuter_steps ok r n (i + 1) (sortInner ok i (r - (i + 1)) (i + 1) (bs, m)).1
      (sortInner ok i (r - (i + 1)) (i + 1) (bs, m)).2 h1.first h3 (by omega)
    exact h4.trans h1

theorem sortDims_steps (ok : Nat → Nat → Bool) (bs : Bufs) (hf : FirstOk bs.first) : Steps (sortDims ok bs).1 bs :=
  sortOuter_steps ok _ _ _ bs false hf (minRank_le bs) (by omega)

/-! ## Removing dimensions of extent 1 -/

theorem inR_erase : ∀ (ds : List Dim) (is : List Int) (d : Nat) (x : Int), d ≤ is.length →
    (∀ dd, ds[d]? = some dd → dd.min ≤ x ∧ x ≤ dd.max) → (InR (ds.eraseIdx d) is ↔ InR ds (is.insertIdx d x))
  | [], is, d, x, _, _ => by simp [InR]
  | e :: ds, is, 0, x, _, h => by
    have := h e (by simp)
    simp [InR, this]
  | e :: ds, [], d + 1, x, hl, _ => by simp at hl
  | e :: ds, i :: is, d + 1, x, hl, h => by
    have := inR_erase ds is d x (by simpa using hl) (by simpa using h)
    simp only [List.eraseIdx_cons_succ, List.insertIdx_succ_cons, InR, this]

theorem inR_erase_beyond : ∀ (ds : List Dim) (is : List Int) (d : Nat), is.length ≤ d → (InR (ds.eraseIdx d) is ↔ InR ds is)
  | [], _, _, _ => by simp
  | _ :: ds, [], d, _ => by simp [inR_zip]
  | _ :: _, _ :: _, 0, h => by simp at h
  | e :: ds, i :: is, d + 1, h => by
    have := inR_erase_beyond ds is d (by simpa using h)
    simp only [List.eraseIdx_cons_succ, InR, this]

theorem slicePoint_steps (bs : Bufs) (d : Nat) (x : Int) (hf : FirstOk bs.first)
    (hp : ∀ b ∈ bs.all, (b.dim d).min = x ∧ (b.dim d).max = x) : Steps (bs.map (·.slice d x)) bs := by
  have h0 : bs.first ∈ bs.all := by simp [Bufs.all]
  have hdims : ∀ b : Buf, (b.slice d x).dims = b.dims.eraseIdx d := by
    intro b
    by_cases h : d < b.rank
    · rw [slice_eq b d x h]
    · rw [slice_broadcast b d x (by omega), List.eraseIdx_of_length_le (by unfold Buf.rank at h; omega)]
  obtain ⟨φ, hφdef⟩ : ∃ φ : List Int → List Int,
      φ = if d < bs.first.rank then (fun is => is.insertIdx d x) else id := ⟨_, rfl⟩
  have hφ : Set.BijOn φ {is | (bs.first.slice d x).InBounds is} {is | bs.first.InBounds is} := by
    by_cases hr : d < bs.first.rank
    · rw [hφdef, if_pos hr]
      apply Set.InvOn.bijOn (f' := fun is => is.eraseIdx d)
      · constructor
        · intro is his
          have hl := InB.length his
          rw [hdims, List.length_eraseIdx] at hl
          simp
        · intro is his
          obtain ⟨y, hy, h1, h2⟩ := InB.get his (dim_eq bs.first d hr)
          have := hp _ h0
          exact insertIdx_eraseIdx_of is d x (by rw [hy]; congr 1; omega)
      · intro is his
        have hl := InB.length his
        rw [hdims, List.length_eraseIdx] at hl
        have hr' : d < bs.first.dims.length := hr
        rw [if_pos hr'] at hl
        exact (slice_inBounds bs.first d x is hr (by have := hp _ h0; omega) (by omega)).1 his
      · intro is his
        have hl := InB.length his
        have hr' : d < bs.first.dims.length := hr
        have hle : (is.eraseIdx d).length = is.length - 1 := by rw [List.length_eraseIdx, if_pos (by omega)]
        obtain ⟨y, hy, h1, h2⟩ := InB.get his (dim_eq bs.first d hr)
        have := hp _ h0
        apply (slice_inBounds bs.first d x _ hr (by omega) (by show d ≤ (is.eraseIdx d).length; omega)).2
        show bs.first.InBounds ((is.eraseIdx d).insertIdx d x)
        rw [insertIdx_eraseIdx_of is d x (by rw [hy]; congr 1; omega)]
        exact his
    · rw [hφdef, if_neg hr, slice_broadcast _ _ _ (by omega)]; exact Set.bijOn_id _
  have hlen : ∀ is, (bs.first.slice d x).InBounds is →
      (d < bs.first.rank → d ≤ is.length) ∧ (¬ d < bs.first.rank → is.length ≤ d) := by
    intro is his
    have hl := InB.length his
    rw [hdims, List.length_eraseIdx] at hl
    unfold Buf.rank
    split at hl <;> omega
  have hpt : ∀ b ∈ bs.all, (b.dim d).contains x = true := by
    intro b hb; rw [dim_contains_iff]; have := hp b hb; omega
  have hcon : ∀ b ∈ bs.all, ∀ is, (bs.first.slice d x).InBounds is → (b.slice d x).contains is = b.contains (φ is) := by
    intro b hb is his
    unfold Buf.contains
    rw [hdims]
    by_cases hr : d < bs.first.rank
    · rw [hφdef, if_pos hr]
      by_cases hb' : d < b.rank
      · exact containsL_eraseIdx b.dims is d _ x (dim_eq b d hb') ((hlen is his).1 hr) (hpt b hb)
      · have : b.dims.length ≤ d := by unfold Buf.rank at hb'; omega
        rw [List.eraseIdx_of_length_le this, (offset_insert b.dims is d x this).2]
    · rw [hφdef, if_neg hr]
      exact (offset_erase_beyond b.dims is d ((hlen is his).2 hr)).2
  have hadd : ∀ b ∈ bs.all, PlainB b → ∀ is, (bs.first.slice d x).InBounds is → (b.slice d x).address is = b.address (φ is) := by
    intro b hb hplain is his
    by_cases hr : d < bs.first.rank
    · rw [hφdef, if_pos hr]
      by_cases hb' : d < b.rank
      · exact slice_address b d x is hb' (by have := hp b hb; omega) ((hlen is his).1 hr)
      · rw [slice_broadcast _ _ _ (by omega)]
        unfold Buf.address
        rw [(offset_insert b.dims is d x (by unfold Buf.rank at hb'; omega)).1]
    · rw [hφdef, if_neg hr]
      by_cases hb' : d < b.rank
      · rw [slice_eq b d x hb']
        unfold Buf.address
        simp only [(offset_erase_beyond b.dims is d ((hlen is his).2 hr)).1, id]
        cases hbase : b.base with
        | none => simp [sliceBase]
        | some p =>
          have : (b.dim d).flatOffset x = 0 := by
            have h1 := hplain _ (List.mem_of_getElem? (dim_eq b d hb'))
            have h2 := hp b hb
            rcases h1 with h1 | h1
            · simp [Dim.flatOffset, h1, h2.1]
            · simp [Dim.flatOffset, h1]
          simp [sliceBase, hpt b hb, this]
      · rw [slice_broadcast _ _ _ (by omega)]; rfl
  have hview : ∀ b ∈ bs.all, PlainB b → ∀ is, (bs.first.slice d x).InBounds is → (b.slice d x).view is = b.view (φ is) := by
    intro b hb hpl is his
    unfold Buf.view
    rw [hcon b hb is his, hadd b hb hpl is his]
  have hplain : ∀ b : Buf, PlainB b → PlainB (b.slice d x) := fun b h e he => by
    rw [hdims] at he
    exact h e (List.mem_of_mem_eraseIdx he)
  have hrank : ∀ b : Buf, (b.slice d x).rank = if d < b.rank then b.rank - 1 else b.rank := fun b => by
    unfold Buf.rank
    rw [hdims, List.length_eraseIdx]
  refine ⟨fun b => b.slice d x, φ, rfl, hφ, ?_, ?_, ?_, ?_, ?_⟩
  · intro e he
    rw [hdims] at he
    exact hf e (List.mem_of_mem_eraseIdx he)
  · intro b
    by_cases h : d < b.rank
    · exact (slice_rank b d x h).2
    · rw [slice_broadcast b d x (by omega)]
  · intro b hb
    simp only [hrank]
    split <;> split <;> omega
  · intro b hb hpl hc
    refine ⟨hplain b hpl, fun is his => ?_, hview b hb hpl⟩
    rw [hcon b hb is his]
    exact hc _ (hφ.1 his)
  · intro b hb hpl ht
    refine ⟨hplain b hpl, ?_, fun is his => ⟨?_, fun _ => hview b hb hpl is his⟩⟩
    · rcases ht with ht | ⟨ht, hq⟩
      · left; intro e he; rw [hdims] at he; exact ht e (List.mem_of_mem_eraseIdx he)
      · right
        refine ⟨by simp only [hrank, ht], ?_⟩
        simp only [hdims]
        rcases hq with hq | hq
        · exact .inl fun e he => hq e (List.mem_of_mem_eraseIdx he)
        · exact .inr fun e he => hq e (List.mem_of_mem_eraseIdx he)
    · simp only [hdims]
      by_cases hr : d < bs.first.rank
      · rw [hφdef, if_pos hr]
        refine inR_erase _ _ _ _ ((hlen is his).1 hr) fun dd hdd => ?_
        have := hp b hb
        rw [Buf.dim, hdd] at this
        simp only [Option.getD_some] at this
        omega
      · rw [hφdef, if_neg hr]
        exact inR_erase_beyond _ _ _ ((hlen is his).2 hr)

theorem slicePoints_steps : ∀ (n : Nat) (bs : Bufs), FirstOk bs.first → Steps (slicePoints n bs) bs
  | 0, bs, hf => .refl hf
  | d + 1, bs, hf => by
    rw [slicePoints]
    split
    · rename_i h
      simp only [Bool.and_eq_true, List.all_eq_true, Dim.isPoint, Dim.isPointAt, decide_eq_true_eq] at h
      have h1 := slicePoint_steps bs d (bs.first.dim d).min hf (by
        intro b hb
        simp [Bufs.all] at hb
        rcases hb with rfl | hb
        · exact ⟨rfl, h.1.symm⟩
        · exact h.2 b hb)
      exact (slicePoints_steps d _ h1.first).trans h1
    · exact slicePoints_steps d bs hf

theorem optimizeDims_steps (bs : Bufs) (hf : FirstOk bs.first) : Steps (optimizeDims bs) bs := by
  have g1 := slicePoints_steps bs.maxRank bs hf
  have h1 := fuseContiguous_steps (fun _ _ => true) _ g1.first
  have h2 := fuseContiguous_steps (fun _ _ => true) _ h1.first
  have h3 := sortDims_steps (fun _ _ => true) _ h2.first
  unfold optimizeDims
  simp only
  split
  · rename_i bs' heq
    rw [heq] at h3
    exact (fuseContiguous_steps _ _ h3.first).trans (h3.trans (h2.trans (h1.trans g1)))
  · rename_i bs' heq
    rw [heq] at h3
    exact h3.trans (h2.trans (h1.trans g1))

end Track
end Slinky
