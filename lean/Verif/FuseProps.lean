import Verif.BufferProps
import Mathlib.Tactic.Ring
import Mathlib.Tactic.Linarith
import Mathlib.Data.List.Perm.Basic
import Mathlib.Algebra.BigOperators.Group.List.Basic

/-!
# Fusing, sorting and optimizing the dimensions of a set of buffers (C21)

Specification: `SameElements new old` says that there is a bijection between the in-bounds index tuples of the first buffer
before and after, such that at corresponding tuples every buffer gives the same address (null when the tuple is out of
bounds of that buffer).
-/

namespace Slinky

/-- What an operation on elements observes of a buffer at an index tuple: the address, or null if it is out of bounds. -/
def Buf.view (b : Buf) (is : List Int) : Option Int := if b.contains is then b.address is else none

/-- Specification of C21. -/
def SameElements (new old : Bufs) : Prop :=
  new.rest.length = old.rest.length ∧ ∃ φ : List Int → List Int,
    Set.BijOn φ {is | new.first.InBounds is} {is | old.first.InBounds is} ∧
    ∀ is, new.first.InBounds is →
      ∀ (j : Nat) (bn bo : Buf), new.all[j]? = some bn → old.all[j]? = some bo → bn.view is = bo.view (φ is)

theorem SameElements.refl (bs : Bufs) : SameElements bs bs :=
  ⟨rfl, id, Set.bijOn_id _, fun is _ j bn bo h1 h2 => by rw [h1] at h2; cases h2; rfl⟩

theorem SameElements.trans {a b c : Bufs} (h1 : SameElements a b) (h2 : SameElements b c) : SameElements a c := by
  obtain ⟨l1, φ, b1, v1⟩ := h1
  obtain ⟨l2, ψ, b2, v2⟩ := h2
  refine ⟨l1.trans l2, ψ ∘ φ, b2.comp b1, fun is hi j ba bc ha hc => ?_⟩
  have hb : j < b.all.length := by
    have : j < c.all.length := (List.getElem?_eq_some_iff.1 hc).1
    simp [Bufs.all] at this ⊢; omega
  rw [v1 is hi j ba _ ha (List.getElem?_eq_getElem hb), Function.comp,
    v2 (φ is) (b1.1 hi) j _ bc (List.getElem?_eq_getElem hb) hc]

/-- The dimension is not folded (or has no stride, so that folding does not matter). -/
def Dim.Plain (d : Dim) : Prop := d.fold = Dim.unfolded ∨ d.stride = 0

/-- The conditions of the theorems about several buffers: no dimension is folded; the first buffer has no dimension with
stride 0; every other buffer either has no dimension with stride 0, or is in bounds wherever the first buffer is. -/
structure Fusable (bs : Bufs) : Prop where
  first_plain : ∀ d ∈ bs.first.dims, d.fold = Dim.unfolded ∧ d.stride ≠ 0
  rest_plain : ∀ b ∈ bs.rest, ∀ d ∈ b.dims, d.Plain
  rest_covers : ∀ b ∈ bs.rest, (∀ d ∈ b.dims, d.stride ≠ 0) ∨ ∀ is, bs.first.InBounds is → b.contains is = true

/-! ## One pair of dimensions -/

theorem extent_pos {i : Dim} (h : i.empty = false) : i.extent = i.max - i.min + 1 ∧ 0 < i.extent := by
  simp [Dim.empty] at h
  unfold Dim.extent; split <;> omega

theorem fused_emod (y e r F : Int) (hF : 0 < F) (hr : 0 ≤ r ∧ r < e) : (y * e + r) % (F * e) = y % F * e + r := by
  have h1 := Int.emod_add_mul_ediv y F
  have h2 := Int.emod_nonneg y (show F ≠ 0 by omega)
  have h3 := Int.emod_lt_of_pos y hF
  have e1 : y * e + r = (y % F * e + r) + (F * e) * (y / F) := by
    conv_lhs => rw [← h1]
    ring
  rw [e1, Int.add_mul_emod_self_left]
  apply Int.emod_eq_of_lt
  · nlinarith [hr.1, hr.2]
  · nlinarith [hr.1, hr.2]

theorem canFuse_cases {i o : Dim} (h : canFuse i o = true) :
    i.extent = i.max - i.min + 1 ∧ 0 < i.extent ∧
      ((o.min = o.max ∧ o.stride ≠ 0) ∨
        (o.stride = i.stride * i.extent ∧ (i.stride = 0 ∨ i.fold = Dim.unfolded))) := by
  unfold canFuse at h
  split at h
  · cases h
  · rename_i he
    have he' := extent_pos (by simpa using he)
    refine ⟨he'.1, he'.2, ?_⟩
    split at h
    · left; assumption
    · right
      simp only [← he'.1] at h
      split at h
      · cases h
      · rename_i hs
        simp only [Bool.or_eq_true, decide_eq_true_eq] at h
        refine ⟨by omega, ?_⟩
        rcases h with h | h
        · left; rcases mul_eq_zero.1 h with h | h <;> omega
        · right; exact h

/-- C21, one pair of dimensions: `x` in the inner and `y` in the outer dimension have the same offset as `y * extent + (x -
min)` in the fused dimension. The outer dimension can be folded if it has the stride that follows the inner dimension. -/
theorem fuse_offset (i o : Dim) (x y : Int) (h : canFuse i o = true) (hi : i.Plain)
    (ho : o.Plain ∨ (0 < o.fold ∧ o.stride = i.stride * i.extent))
    (hx : i.min ≤ x ∧ x ≤ i.max) (hy : o.contains y = true) :
    (fuseDim i o).flatOffset (y * i.extent + (x - i.min)) = i.flatOffset x + o.flatOffset y := by
  obtain ⟨he, hpos, hc⟩ := canFuse_cases h
  rw [dim_contains_iff] at hy
  by_cases his : i.stride = 0
  · have h1 : (fuseDim i o).stride = 0 := by
      unfold fuseDim; split
      · rename_i hb; simp [Dim.isBroadcast] at hb; exact hb.2.2
      · exact his
    have h2 : o.flatOffset y = 0 := by
      by_cases hos : o.stride = 0
      · simp [Dim.flatOffset, hos]
      · rcases hc with hc | hc
        · have hyo : y = o.min := by omega
          have hf : o.fold = Dim.unfolded := by
            rcases ho with ho | ho
            · exact ho.resolve_right hos
            · rw [his] at ho; omega
          simp [Dim.flatOffset, hf, hyo]
        · rw [hc.1, his] at hos; simp at hos
    simp [Dim.flatOffset, h1, his] at h2 ⊢
    exact h2.symm
  · have hif : i.fold = Dim.unfolded := hi.resolve_right his
    have hos : o.stride ≠ 0 := by
      rcases hc with hc | hc
      · exact hc.2
      · rw [hc.1]; exact mul_ne_zero his (by omega)
    have hb : o.isBroadcast = false := by simp [Dim.isBroadcast, hos]
    by_cases hof : o.fold = Dim.unfolded
    · simp only [fuseDim, hb, Dim.flatOffset, hof, hif]
      simp
      rcases hc with hc | hc
      · have hyo : y = o.min := by omega
        rw [hyo]; ring
      · rw [hc.1]; ring
    · have hFs : 0 < o.fold ∧ o.stride = i.stride * i.extent := by
        rcases ho with ho | ho
        · exact absurd (ho.resolve_right hos) hof
        · exact ho
      have hnf : ¬ (o.fold * i.extent = Dim.unfolded) := by
        unfold Dim.unfolded; nlinarith [hFs.1]
      have hem := fused_emod y i.extent (x - i.min) o.fold hFs.1 (by omega)
      simp only [fuseDim, hb, Dim.flatOffset, hof, hif, his, hos, hnf, hem]
      simp
      rw [hFs.2]
      simp [hof, hnf, hem, his]; ring

theorem fuse_contains (i o : Dim) (x y : Int) (h : canFuse i o = true) (hx : i.min ≤ x ∧ x ≤ i.max)
    (hs : (i.stride = 0 → o.stride = 0) ∨ o.contains y = true) :
    (fuseDim i o).contains (y * i.extent + (x - i.min)) = (i.contains x && o.contains y) := by
  obtain ⟨he, hpos, hc⟩ := canFuse_cases h
  rw [Bool.eq_iff_iff, Bool.and_eq_true]
  have hix : i.contains x = true := (dim_contains_iff _ _).2 (Or.inr hx)
  simp only [hix, true_and]
  by_cases his : i.stride = 0
  · have h1 : (fuseDim i o).stride = 0 := by
      unfold fuseDim; split
      · rename_i hb; simp [Dim.isBroadcast] at hb; exact hb.2.2
      · exact his
    have h2 : (fuseDim i o).contains (y * i.extent + (x - i.min)) = true := (dim_contains_iff _ _).2 (Or.inl h1)
    have h3 : o.contains y = true := by
      rcases hs with hs | hs
      · exact (dim_contains_iff _ _).2 (Or.inl (hs his))
      · exact hs
    simp [h2, h3]
  · have hos : o.stride ≠ 0 := by
      rcases hc with hc | hc
      · exact hc.2
      · rw [hc.1]; exact mul_ne_zero his (by omega)
    have hb : o.isBroadcast = false := by simp [Dim.isBroadcast, hos]
    rw [dim_contains_iff, dim_contains_iff]
    simp only [fuseDim, hb, his, hos, false_or, Bool.false_eq_true, if_false]
    constructor
    · rintro ⟨h1, h2⟩
      constructor
      · by_contra hlt
        have : y + 1 ≤ o.min := by omega
        nlinarith
      · by_contra hlt
        have : o.max + 1 ≤ y := by omega
        nlinarith
    · rintro ⟨h1, h2⟩
      constructor
      · nlinarith
      · nlinarith

/-! ## The lists of dimensions -/

/-- Fuse the `n`-th and `n+1`-th dimension. -/
def fuseL : Nat → List Dim → List Dim
  | 0, i :: o :: ds => fuseDim i o :: ds
  | n + 1, d :: ds => d :: fuseL n ds
  | _, ds => ds

/-- The index tuple of the original dimensions. -/
def splitIdx (mn e : Int) : Nat → List Int → List Int
  | 0, k :: is => (mn + k % e) :: (k / e) :: is
  | n + 1, k :: is => k :: splitIdx mn e n is
  | _, [] => []

/-- The index tuple of the fused dimensions. -/
def joinIdx (mn e : Int) : Nat → List Int → List Int
  | 0, x :: y :: is => (y * e + (x - mn)) :: is
  | n + 1, k :: is => k :: joinIdx mn e n is
  | _, is => is

theorem fuseL_short : ∀ (n : Nat) (ds : List Dim), ds.length ≤ n + 1 → fuseL n ds = ds
  | 0, [], _ => rfl
  | 0, [_], _ => rfl
  | 0, _ :: _ :: _, h => by simp at h
  | n + 1, [], _ => rfl
  | n + 1, d :: ds, h => by simp only [fuseL]; rw [fuseL_short n ds (by simpa using h)]

theorem fuseL_eq : ∀ (n : Nat) (ds : List Dim) (i o : Dim), ds[n]? = some i → ds[n + 1]? = some o →
    (ds.set n (fuseDim i o)).eraseIdx (n + 1) = fuseL n ds
  | 0, [], _, _, h, _ => by simp at h
  | 0, [_], _, _, _, h => by simp at h
  | 0, a :: b :: ds, i, o, h, h' => by simp at h h'; subst h h'; simp [fuseL]
  | n + 1, [], _, _, h, _ => by simp at h
  | n + 1, d :: ds, i, o, h, h' => by
    simp at h h'
    simp [fuseL, fuseL_eq n ds i o h h']

theorem fuseBuf_eq (n : Nat) (b : Buf) : fuseBuf n (n + 1) b = { b with dims := fuseL n b.dims } := by
  unfold fuseBuf
  split
  · rename_i h; rw [fuseL_short n b.dims h]
  · rename_i h
    rw [if_neg (by omega), sliceDim_eq]
    simp only
    rw [fuseL_eq n b.dims _ _ (dim_eq b n (by omega)) (dim_eq b (n + 1) (by omega))]

theorem joinIdx_splitIdx (mn e : Int) : ∀ (n : Nat) (is : List Int), joinIdx mn e n (splitIdx mn e n is) = is
  | 0, [] => rfl
  | 0, k :: is => by
    simp only [splitIdx, joinIdx]
    congr 1
    have := Int.emod_add_mul_ediv k e
    linarith [this]
  | n + 1, [] => rfl
  | n + 1, k :: is => by simp [splitIdx, joinIdx, joinIdx_splitIdx mn e n is]

theorem split_of_join (mn e x y : Int) (h : mn ≤ x ∧ x < mn + e) :
    mn + (y * e + (x - mn)) % e = x ∧ (y * e + (x - mn)) / e = y := by
  have h0 : (x - mn) % e = x - mn := Int.emod_eq_of_lt (by omega) (by omega)
  have h1 : (x - mn) / e = 0 := Int.ediv_eq_zero_of_lt (by omega) (by omega)
  constructor
  · rw [add_comm (y * e), Int.add_mul_emod_self_right, h0]; ring
  · rw [add_comm (y * e), Int.add_mul_ediv_right _ _ (by omega), h1]; ring

theorem splitIdx_joinIdx (mn e : Int) : ∀ (n : Nat) (is : List Int) (x : Int), is[n]? = some x → mn ≤ x ∧ x < mn + e →
    n + 1 < is.length → splitIdx mn e n (joinIdx mn e n is) = is
  | 0, [], _, h, _, _ => by simp at h
  | 0, [_], _, _, _, h => by simp at h
  | 0, a :: y :: is, x, h, hx, _ => by
    simp at h; subst h
    have := split_of_join mn e a y hx
    simp only [joinIdx, splitIdx, this.1, this.2]
  | n + 1, [], _, h, _, _ => by simp at h
  | n + 1, k :: is, x, h, hx, hl => by
    simp at h hl
    simp [joinIdx, splitIdx, splitIdx_joinIdx mn e n is x h hx hl]

theorem inB_split : ∀ (n : Nat) (ds : List Dim) (is : List Int) (i o : Dim), ds[n]? = some i → ds[n + 1]? = some o →
    canFuse i o = true → o.isBroadcast = false →
    InB (fuseL n ds) is → InB ds (splitIdx i.min i.extent n is)
  | 0, [], _, _, _, h, _, _, _, _ => by simp at h
  | 0, [_], _, _, _, _, h, _, _, _ => by simp at h
  | 0, a :: b :: ds, [], i, o, h, h', hc, hb, hi => hi.elim
  | 0, a :: b :: ds, k :: is, i, o, h, h', hc, hb, hi => by
    simp at h h'; subst h h'
    obtain ⟨he, hpos, _⟩ := canFuse_cases hc
    simp only [fuseL, InB, fuseDim, hb, Bool.false_eq_true, if_false] at hi
    obtain ⟨⟨h1, h2⟩, h3⟩ := hi
    have := Int.emod_add_mul_ediv k a.extent
    have g1 := Int.emod_nonneg k (show a.extent ≠ 0 by omega)
    have g2 := Int.emod_lt_of_pos k hpos
    refine ⟨⟨by omega, by omega⟩, ⟨?_, ?_⟩, h3⟩
    · exact (Int.le_ediv_iff_mul_le hpos).2 h1
    · have : k / a.extent < b.max + 1 := (Int.ediv_lt_iff_lt_mul hpos).2 (by omega)
      omega
  | n + 1, [], _, _, _, h, _, _, _, _ => by simp at h
  | n + 1, d :: ds, [], i, o, h, h', hc, hb, hi => hi.elim
  | n + 1, d :: ds, k :: is, i, o, h, h', hc, hb, hi => by
    simp at h h'
    exact ⟨hi.1, inB_split n ds is i o h h' hc hb hi.2⟩

theorem inB_join : ∀ (n : Nat) (ds : List Dim) (is : List Int) (i o : Dim), ds[n]? = some i → ds[n + 1]? = some o →
    canFuse i o = true → o.isBroadcast = false →
    InB ds is → InB (fuseL n ds) (joinIdx i.min i.extent n is)
  | 0, [], _, _, _, h, _, _, _, _ => by simp at h
  | 0, [_], _, _, _, _, h, _, _, _ => by simp at h
  | 0, a :: b :: ds, [], i, o, h, h', hc, hb, hi => hi.elim
  | 0, a :: b :: ds, [_], i, o, h, h', hc, hb, hi => hi.2.elim
  | 0, a :: b :: ds, x :: y :: is, i, o, h, h', hc, hb, hi => by
    simp at h h'; subst h h'
    obtain ⟨he, hpos, _⟩ := canFuse_cases hc
    simp only [fuseL, joinIdx, InB, fuseDim, hb, Bool.false_eq_true, if_false] at hi ⊢
    obtain ⟨⟨h1, h2⟩, ⟨h3, h4⟩, h5⟩ := hi
    refine ⟨⟨by nlinarith, by nlinarith⟩, h5⟩
  | n + 1, [], _, _, _, h, _, _, _, _ => by simp at h
  | n + 1, d :: ds, [], i, o, h, h', hc, hb, hi => hi.elim
  | n + 1, d :: ds, k :: is, i, o, h, h', hc, hb, hi => by
    simp at h h'
    exact ⟨hi.1, inB_join n ds is i o h h' hc hb hi.2⟩

/-- What a step does to one buffer, at one index tuple: the same bounds, and the same address within them. -/
def SameAt (dn : List Dim) (is : List Int) (dO : List Dim) (js : List Int) : Prop :=
  Buf.containsL dn is = Buf.containsL dO js ∧ (Buf.containsL dO js = true → Buf.offset dn is = Buf.offset dO js)

theorem fuseL_sameAt (mn e : Int) (he : 0 < e) : ∀ (n : Nat) (ds : List Dim) (is : List Int),
    n < is.length →
    (n < ds.length → canFuse ((ds[n]?).getD Dim.broadcast) ((ds[n + 1]?).getD Dim.broadcast) = true) →
    (∀ d ∈ ds, d.Plain) →
    (∀ i, ds[n]? = some i → i.min = mn ∧ i.extent = e) →
    ((∀ d ∈ ds, d.stride ≠ 0) ∨ Buf.containsL ds (splitIdx mn e n is) = true) →
    SameAt (fuseL n ds) is ds (splitIdx mn e n is)
  | n, [], is, _, _, _, _, _ => by
    rw [fuseL_short n [] (by simp)]; exact ⟨by simp [Buf.containsL], fun _ => by simp [Buf.offset]⟩
  | _, _ :: _, [], h, _, _, _, _ => by simp at h
  | 0, [i], k :: is, _, hc, _, _, _ => by
    have hc' := hc (by simp)
    simp at hc'
    obtain ⟨he, hpos, hc''⟩ := canFuse_cases hc'
    have : i.stride = 0 := by
      rcases hc'' with h | h
      · simp [Dim.broadcast] at h
      · have := h.1; simp [Dim.broadcast] at this; omega
    simp [SameAt, fuseL, splitIdx, Buf.containsL, Buf.offset, Dim.contains, Dim.containsI, this, Dim.flatOffset]
  | 0, i :: o :: ds, k :: is, _, hc, hp, hb, hs => by
    have hc' := hc (by simp)
    simp at hc'
    obtain ⟨hb1, hb2⟩ := hb i (by simp)
    obtain ⟨hext, hpos, hc''⟩ := canFuse_cases hc'
    have g0 := Int.emod_add_mul_ediv k e
    have g1 := Int.emod_nonneg k (show e ≠ 0 by omega)
    have g2 := Int.emod_lt_of_pos k he
    have hx : i.min ≤ mn + k % e ∧ mn + k % e ≤ i.max := by omega
    have hk : (k / e) * i.extent + ((mn + k % e) - i.min) = k := by
      rw [hb1, hb2]; linarith
    have hs' : (i.stride = 0 → o.stride = 0) ∨ o.contains (k / e) = true := by
      rcases hs with hs | hs
      · left; intro h; exact absurd h (hs i (by simp))
      · right; simp [splitIdx, Buf.containsL] at hs; exact hs.2.1
    have c1 := fuse_contains i o _ (k / e) hc' hx hs'
    rw [hk] at c1
    refine ⟨?_, ?_⟩
    · simp only [fuseL, splitIdx, Buf.containsL, c1, Bool.and_assoc]
    · intro hcon
      simp [splitIdx, Buf.containsL] at hcon
      have c2 := fuse_offset i o _ (k / e) hc' (hp i (by simp)) (Or.inl (hp o (by simp))) hx hcon.2.1
      rw [hk] at c2
      simp only [fuseL, splitIdx, Buf.offset, c2]; ring
  | n + 1, d :: ds, k :: is, hl, hc, hp, hb, hs => by
    have ih := fuseL_sameAt mn e he n ds is (by simpa using hl) (by simpa using hc) (fun x hx => hp x (by simp [hx]))
      (by simpa using hb) (by
        rcases hs with hs | hs
        · left; exact fun x hx => hs x (by simp [hx])
        · right; simp [splitIdx, Buf.containsL] at hs; exact hs.2)
    refine ⟨?_, ?_⟩
    · simp only [fuseL, splitIdx, Buf.containsL, ih.1]
    · intro hcon
      simp [splitIdx, Buf.containsL] at hcon
      simp only [fuseL, splitIdx, Buf.offset, ih.2 hcon.2]

/-! ## Steps on all the buffers -/

theorem view_of_sameAt {dn dO : List Dim} {is js : List Int} {p : Option Int} {e e' : Int} (h : SameAt dn is dO js) :
    (⟨p, e, dn⟩ : Buf).view is = (⟨p, e', dO⟩ : Buf).view js := by
  unfold Buf.view Buf.contains Buf.address
  simp only [h.1]
  split
  · rename_i hc; rw [h.2 hc]
  · rfl

/-- A step `f` on every buffer. -/
theorem step_same (bs : Bufs) (f : Buf → Buf) (φ : List Int → List Int)
    (hb : Set.BijOn φ {is | (f bs.first).InBounds is} {is | bs.first.InBounds is})
    (hv : ∀ b ∈ bs.all, ∀ is, (f bs.first).InBounds is → (f b).view is = b.view (φ is)) :
    SameElements (bs.map f) bs := by
  refine ⟨by simp [Bufs.map], φ, hb, fun is hi j bn bo h1 h2 => ?_⟩
  have : (bs.map f).all = bs.all.map f := by simp [Bufs.all, Bufs.map]
  rw [this, List.getElem?_map, h2] at h1
  simp at h1
  rw [← h1]
  exact hv bo (List.mem_of_getElem? h2) is hi

theorem mem_fuseL : ∀ (n : Nat) (ds : List Dim) (d : Dim), d ∈ fuseL n ds →
    d ∈ ds ∨ ∃ i o, ds[n]? = some i ∧ ds[n + 1]? = some o ∧ d = fuseDim i o
  | 0, [], d, h => by simp [fuseL] at h
  | 0, [a], d, h => by left; simpa [fuseL] using h
  | 0, i :: o :: ds, d, h => by
    simp [fuseL] at h
    rcases h with h | h
    · right; exact ⟨i, o, by simp, by simp, h⟩
    · left; simp [h]
  | n + 1, [], d, h => by simp [fuseL] at h
  | n + 1, a :: ds, d, h => by
    simp [fuseL] at h
    rcases h with h | h
    · left; simp [h]
    · rcases mem_fuseL n ds d h with h | ⟨i, o, h1, h2, h3⟩
      · left; simp [h]
      · right; exact ⟨i, o, by simpa using h1, by simpa using h2, h3⟩

theorem fuseDim_plain {i o : Dim} (h : canFuse i o = true) (hi : i.Plain) (ho : o.Plain) : (fuseDim i o).Plain := by
  obtain ⟨_, hpos, hc⟩ := canFuse_cases h
  unfold fuseDim
  split
  · exact ho
  · unfold Dim.Plain at *
    simp only
    rcases hi with hi | hi
    · rcases ho with ho | ho
      · left; rw [if_neg (by simpa using ho)]; exact hi
      · right
        rcases hc with hc | hc
        · exact absurd ho hc.2
        · have := hc.1; rw [ho] at this
          rcases mul_eq_zero.1 this.symm with h | h
          · exact h
          · omega
    · right; exact hi

theorem fuseL_length : ∀ (n : Nat) (ds : List Dim), n + 1 < ds.length → (fuseL n ds).length + 1 = ds.length
  | 0, [], h => by simp at h
  | 0, [_], h => by simp at h
  | 0, _ :: _ :: _, _ => by simp [fuseL]
  | n + 1, [], h => by simp at h
  | n + 1, d :: ds, h => by simp [fuseL]; exact fuseL_length n ds (by simpa using h)

/-- C21: one attempt to fuse two adjacent dimensions of all the buffers preserves the elements. -/
theorem attemptFuse_same (ok : Nat → Nat → Bool) (n : Nat) (bs : Bufs) (hf : Fusable bs) (hn : n + 1 < bs.first.rank) :
    SameElements (attemptFuse ok n (n + 1) bs) bs ∧ Fusable (attemptFuse ok n (n + 1) bs) ∧
      bs.first.rank ≤ (attemptFuse ok n (n + 1) bs).first.rank + 1 := by
  unfold attemptFuse
  split
  swap
  · exact ⟨SameElements.refl bs, hf, by omega⟩
  rename_i h
  simp only [Bool.and_eq_true] at h
  obtain ⟨⟨_, hsb⟩, hcf⟩ := h
  have hcf' : ∀ b ∈ bs.all, canFuse (b.dim n) (b.dim (n + 1)) = true := by simpa [canFuseAll] using hcf
  have hi0 := dim_eq bs.first n (by omega)
  have ho0 := dim_eq bs.first (n + 1) hn
  have hc0 := hcf' bs.first (by simp [Bufs.all])
  have hos : (bs.first.dim (n + 1)).stride ≠ 0 := (hf.first_plain _ (List.mem_of_getElem? ho0)).2
  have hbc : (bs.first.dim (n + 1)).isBroadcast = false := by simp [Dim.isBroadcast, hos]
  obtain ⟨hext, hpos, _⟩ := canFuse_cases hc0
  obtain ⟨mn, hmn⟩ : ∃ mn, (bs.first.dim n).min = mn := ⟨_, rfl⟩
  obtain ⟨e, he⟩ : ∃ e, (bs.first.dim n).extent = e := ⟨_, rfl⟩
  have hφ : Set.BijOn (splitIdx mn e n) {is | (fuseBuf n (n + 1) bs.first).InBounds is} {is | bs.first.InBounds is} := by
    rw [fuseBuf_eq]
    apply Set.InvOn.bijOn (f' := joinIdx mn e n)
    · constructor
      · intro is _; exact joinIdx_splitIdx mn e n is
      · intro is his
        obtain ⟨x, hx, hx1, hx2⟩ := InB.get his hi0
        apply splitIdx_joinIdx mn e n is x hx
        · omega
        · rw [InB.length his]; exact hn
    · intro is his; rw [← hmn, ← he]; exact inB_split n _ _ _ _ hi0 ho0 hc0 hbc his
    · intro is his; rw [← hmn, ← he]; exact inB_join n _ _ _ _ hi0 ho0 hc0 hbc his
  have hplain : ∀ b ∈ bs.all, ∀ d ∈ b.dims, d.Plain := by
    intro b hb
    simp [Bufs.all] at hb
    rcases hb with rfl | hb
    · intro d hd; exact Or.inl (hf.first_plain d hd).1
    · exact hf.rest_plain b hb
  have hcov : ∀ b ∈ bs.all, (∀ d ∈ b.dims, d.stride ≠ 0) ∨ ∀ is, bs.first.InBounds is → b.contains is = true := by
    intro b hb
    simp [Bufs.all] at hb
    rcases hb with rfl | hb
    · left; intro d hd; exact (hf.first_plain d hd).2
    · exact hf.rest_covers b hb
  have hsame : ∀ b ∈ bs.all, ∀ is, (fuseBuf n (n + 1) bs.first).InBounds is →
      SameAt (fuseL n b.dims) is b.dims (splitIdx mn e n is) := by
    intro b hb is his
    have hin := hφ.1 his
    apply fuseL_sameAt mn e (by omega) n b.dims is
    · have := InB.length hin
      by_contra hlt
      have hs : ∀ (n : Nat) (is : List Int), is.length ≤ n → (splitIdx mn e n is).length ≤ n := by
        intro n
        induction n with
        | zero => intro is h; simp at h; subst h; simp [splitIdx]
        | succ n ih =>
          intro is h
          cases is with
          | nil => simp [splitIdx]
          | cons k is => simp [splitIdx]; exact ih is (by simpa using h)
      have := hs n is (by omega)
      unfold Buf.rank at hn; omega
    · intro _; exact hcf' b hb
    · exact hplain b hb
    · intro i hi
      have hbd : b.dim n = i := by simp [Buf.dim, hi]
      have hbr : n < b.rank := (List.getElem?_eq_some_iff.1 hi).1
      simp [Bufs.all] at hb
      rcases hb with rfl | hb
      · rw [← hbd]; exact ⟨hmn, he⟩
      · have := List.all_eq_true.1 hsb b hb
        simp only [Bool.or_eq_true, decide_eq_true_eq, Dim.sameBounds] at this
        rcases this with (h | h) | h
        · omega
        · omega
        · rw [hbd] at h
          refine ⟨by omega, ?_⟩
          rw [← he]; unfold Dim.extent; rw [h.1, h.2]
    · rcases hcov b hb with h | h
      · exact Or.inl h
      · exact Or.inr (h _ hin)
  refine ⟨step_same bs (fuseBuf n (n + 1)) (splitIdx mn e n) hφ ?_, ?_, ?_⟩
  · intro b hb is his
    rw [fuseBuf_eq]
    exact view_of_sameAt (hsame b hb is his)
  · have hfm : ∀ b ∈ bs.all, ∀ d ∈ fuseL n b.dims, d ∈ b.dims ∨ ∃ i o, i ∈ b.dims ∧ o ∈ b.dims ∧ canFuse i o = true ∧
        d = fuseDim i o := by
      intro b hb d hd
      rcases mem_fuseL n _ _ hd with h | ⟨i, o, h1, h2, h3⟩
      · exact Or.inl h
      · right
        refine ⟨i, o, List.mem_of_getElem? h1, List.mem_of_getElem? h2, ?_, h3⟩
        have := hcf' b hb
        simpa [Buf.dim, h1, h2] using this
    have hstr : ∀ b ∈ bs.all, (∀ d ∈ b.dims, d.stride ≠ 0) → ∀ d ∈ fuseL n b.dims, d.stride ≠ 0 := by
      intro b hb hs d hd
      rcases hfm b hb d hd with h | ⟨i, o, h1, h2, h3, rfl⟩
      · exact hs d h
      · unfold fuseDim; split
        · exact hs o h2
        · exact hs i h1
    have hpl : ∀ b ∈ bs.all, ∀ d ∈ fuseL n b.dims, d.Plain := by
      intro b hb d hd
      rcases hfm b hb d hd with h | ⟨i, o, h1, h2, h3, rfl⟩
      · exact hplain b hb d h
      · exact fuseDim_plain h3 (hplain b hb i h1) (hplain b hb o h2)
    refine ⟨?_, ?_, ?_⟩
    · intro d hd
      simp only [Bufs.map, fuseBuf_eq] at hd
      have h1 := hstr bs.first (by simp [Bufs.all]) (fun d hd => (hf.first_plain d hd).2) d hd
      exact ⟨(hpl bs.first (by simp [Bufs.all]) d hd).resolve_right h1, h1⟩
    · intro b hb d hd
      simp only [Bufs.map, List.mem_map] at hb
      obtain ⟨b, hb, rfl⟩ := hb
      rw [fuseBuf_eq] at hd
      exact hpl b (by simp [Bufs.all, hb]) d hd
    · intro b hb
      simp only [Bufs.map, List.mem_map] at hb
      obtain ⟨b, hb, rfl⟩ := hb
      have hba : b ∈ bs.all := by simp [Bufs.all, hb]
      rcases hcov b hba with h | h
      · left; intro d hd
        rw [fuseBuf_eq] at hd
        exact hstr b hba h d hd
      · right; intro is his
        have := (hsame b hba is his).1
        rw [fuseBuf_eq]
        show Buf.containsL (fuseL n b.dims) is = true
        rw [this]
        exact h _ (hφ.1 his)
  · have : (fuseBuf n (n + 1) bs.first).rank + 1 = bs.first.rank := by
      rw [fuseBuf_eq]; exact fuseL_length n _ hn
    show bs.first.rank ≤ (fuseBuf n (n + 1) bs.first).rank + 1
    omega

theorem fuseLoop_same (ok : Nat → Nat → Bool) : ∀ (n : Nat) (bs : Bufs), Fusable bs → n < bs.first.rank ∨ n = 0 →
    SameElements (fuseLoop ok n bs) bs ∧ Fusable (fuseLoop ok n bs)
  | 0, bs, hf, _ => ⟨SameElements.refl bs, hf⟩
  | n + 1, bs, hf, hn => by
    obtain ⟨h1, h2, h3⟩ := attemptFuse_same ok n bs hf (by omega)
    obtain ⟨h4, h5⟩ := fuseLoop_same ok n _ h2 (by omega)
    exact ⟨h4.trans h1, h5⟩

/-- C21: `fuse_contiguous_dims` preserves the elements. -/
theorem fuseContiguous_same (ok : Nat → Nat → Bool) (bs : Bufs) (hf : Fusable bs) :
    SameElements (fuseContiguous ok bs) bs ∧ Fusable (fuseContiguous ok bs) :=
  fuseLoop_same ok _ bs hf (by omega)

/-! ## Sorting -/

theorem swapL_eq {α : Type} (l : List α) (i j : Nat) (hi : i < l.length) (hj : j < l.length) :
    swapL l i j = (l.set i l[j]).set j l[i] := by
  simp [swapL, List.getElem?_eq_getElem hi, List.getElem?_eq_getElem hj]

theorem swapL_length {α : Type} (l : List α) (i j : Nat) : (swapL l i j).length = l.length := by
  unfold swapL; split <;> simp

theorem swapL_perm {α : Type} (l : List α) (i j : Nat) : (swapL l i j).Perm l := by
  by_cases hi : i < l.length
  · by_cases hj : j < l.length
    · rw [swapL_eq l i j hi hj]; exact List.set_set_perm hi hj
    · simp [swapL, List.getElem?_eq_none (Nat.le_of_not_lt hj)]
  · simp [swapL, List.getElem?_eq_none (Nat.le_of_not_lt hi)]

theorem swapL_getElem? {α : Type} (l : List α) (i j k : Nat) (hi : i < l.length) (hj : j < l.length) :
    (swapL l i j)[k]? = l[if k = j then i else if k = i then j else k]? := by
  rw [swapL_eq l i j hi hj, List.getElem?_set, List.getElem?_set]
  by_cases hk : k = j
  · subst hk; simp [hj, List.getElem?_eq_getElem hi]
  · by_cases hk' : k = i
    · subst hk'; simp [hk, Ne.symm hk, hi, List.getElem?_eq_getElem hj]
    · simp [hk, hk', Ne.symm hk, Ne.symm hk']

theorem swapL_swapL {α : Type} (l : List α) (i j : Nat) (hi : i < l.length) (hj : j < l.length) :
    swapL (swapL l i j) i j = l := by
  apply List.ext_getElem?
  intro k
  rw [swapL_getElem? _ _ _ _ (by rwa [swapL_length]) (by rwa [swapL_length]), swapL_getElem? _ _ _ _ hi hj]
  congr 1
  split_ifs <;> omega

theorem zip_swapL {α β : Type} (l : List α) (m : List β) (i j : Nat) (hi : i < l.length) (hj : j < l.length)
    (hi' : i < m.length) (hj' : j < m.length) : (swapL l i j).zip (swapL m i j) = swapL (l.zip m) i j := by
  apply List.ext_getElem?
  intro k
  rw [swapL_getElem? _ _ _ _ (by simp; omega) (by simp; omega)]
  simp only [List.zip, List.getElem?_zipWith, swapL_getElem? _ _ _ _ hi hj, swapL_getElem? _ _ _ _ hi' hj']

theorem offset_zip : ∀ (ds : List Dim) (is : List Int),
    Buf.offset ds is = ((ds.zip is).map fun p => p.1.flatOffset p.2).sum
  | [], _ => by simp [Buf.offset]
  | _ :: _, [] => by simp [Buf.offset]
  | d :: ds, i :: is => by simp [Buf.offset, offset_zip ds is]

theorem containsL_zip : ∀ (ds : List Dim) (is : List Int),
    Buf.containsL ds is = (ds.zip is).all fun p => p.1.contains p.2
  | [], _ => by simp [Buf.containsL]
  | _ :: _, [] => by simp [Buf.containsL]
  | d :: ds, i :: is => by simp [Buf.containsL, containsL_zip ds is]

theorem swap_sameAt (ds : List Dim) (is : List Int) (i j : Nat) (hi : i < ds.length) (hj : j < ds.length)
    (hi' : i < is.length) (hj' : j < is.length) : SameAt (swapL ds i j) is ds (swapL is i j) := by
  have hp : ((swapL ds i j).zip is).Perm (ds.zip (swapL is i j)) := by
    have : (swapL ds i j).zip is = swapL (ds.zip (swapL is i j)) i j := by
      rw [← zip_swapL ds (swapL is i j) i j hi hj (by rwa [swapL_length]) (by rwa [swapL_length]),
        swapL_swapL is i j hi' hj']
    rw [this]; exact swapL_perm _ _ _
  refine ⟨?_, fun _ => ?_⟩
  · rw [containsL_zip, containsL_zip]; exact hp.all_eq
  · rw [offset_zip, offset_zip]; exact (hp.map _).sum_eq

theorem inB_iff : ∀ (ds : List Dim) (is : List Int),
    InB ds is ↔ is.length = ds.length ∧ ∀ p ∈ ds.zip is, p.1.min ≤ p.2 ∧ p.2 ≤ p.1.max
  | [], [] => by simp [InB]
  | [], _ :: _ => by simp [InB]
  | _ :: _, [] => by simp [InB]
  | d :: ds, i :: is => by
    simp only [InB, inB_iff ds is, List.length_cons, List.zip_cons_cons, List.mem_cons, Nat.add_right_cancel_iff]
    constructor
    · rintro ⟨h1, h2, h3⟩
      refine ⟨h2, ?_⟩
      rintro p (rfl | hp)
      · exact h1
      · exact h3 p hp
    · rintro ⟨h1, h2⟩
      exact ⟨h2 (d, i) (Or.inl rfl), h1, fun p hp => h2 p (Or.inr hp)⟩

theorem inB_swap (ds : List Dim) (is : List Int) (i j : Nat) (hi : i < ds.length) (hj : j < ds.length) :
    InB ds is → InB (swapL ds i j) (swapL is i j) := by
  intro h
  have hl := InB.length h
  rw [inB_iff] at h ⊢
  refine ⟨by rw [swapL_length, swapL_length]; exact h.1, ?_⟩
  rw [zip_swapL _ _ _ _ hi hj (by omega) (by omega)]
  intro p hp
  exact h.2 p ((swapL_perm _ _ _).mem_iff.1 hp)

/-- C21: swapping two dimensions of all the buffers preserves the elements. -/
theorem swap_same (bs : Bufs) (i j : Nat) (hf : Fusable bs) (hi : ∀ b ∈ bs.all, i < b.rank) (hj : ∀ b ∈ bs.all, j < b.rank) :
    SameElements (bs.map (swapDims i j)) bs ∧ Fusable (bs.map (swapDims i j)) := by
  have h0 : bs.first ∈ bs.all := by simp [Bufs.all]
  have hφ : Set.BijOn (fun is => swapL is i j) {is | (swapDims i j bs.first).InBounds is} {is | bs.first.InBounds is} := by
    apply Set.InvOn.bijOn (f' := fun is => swapL is i j)
    · constructor
      · intro is his
        have := InB.length his
        simp only [swapDims, swapL_length] at this
        exact swapL_swapL is i j (by have := hi _ h0; unfold Buf.rank at this; omega)
          (by have := hj _ h0; unfold Buf.rank at this; omega)
      · intro is his
        have := InB.length his
        exact swapL_swapL is i j (by have := hi _ h0; unfold Buf.rank at this; omega)
          (by have := hj _ h0; unfold Buf.rank at this; omega)
    · intro is his
      have := inB_swap (swapL bs.first.dims i j) is i j (by rw [swapL_length]; exact hi _ h0)
        (by rw [swapL_length]; exact hj _ h0) his
      rw [swapL_swapL _ _ _ (hi _ h0) (hj _ h0)] at this
      exact this
    · intro is his; exact inB_swap _ _ _ _ (hi _ h0) (hj _ h0) his
  have hsame : ∀ b ∈ bs.all, ∀ is, (swapDims i j bs.first).InBounds is →
      SameAt (swapL b.dims i j) is b.dims (swapL is i j) := by
    intro b hb is his
    have hl := InB.length his
    simp only [swapDims, swapL_length] at hl
    exact swap_sameAt _ _ _ _ (hi b hb) (hj b hb) (by rw [hl]; exact hi _ h0) (by rw [hl]; exact hj _ h0)
  refine ⟨step_same bs _ _ hφ fun b hb is his => view_of_sameAt (hsame b hb is his), ?_, ?_, ?_⟩
  · intro d hd
    exact hf.first_plain d ((swapL_perm _ _ _).mem_iff.1 hd)
  · intro b hb d hd
    simp only [Bufs.map, List.mem_map] at hb
    obtain ⟨b, hb, rfl⟩ := hb
    exact hf.rest_plain b hb d ((swapL_perm _ _ _).mem_iff.1 hd)
  · intro b hb
    simp only [Bufs.map, List.mem_map] at hb
    obtain ⟨b, hb, rfl⟩ := hb
    rcases hf.rest_covers b hb with h | h
    · left; intro d hd; exact h d ((swapL_perm _ _ _).mem_iff.1 hd)
    · right; intro is his
      have := (hsame b (by simp [Bufs.all, hb]) is his).1
      show Buf.containsL (swapL b.dims i j) is = true
      rw [this]; exact h _ (hφ.1 his)

theorem map_swap_rank (bs : Bufs) (i j r : Nat) (h : ∀ b ∈ bs.all, r ≤ b.rank) :
    ∀ b ∈ (bs.map (swapDims i j)).all, r ≤ b.rank := by
  intro b hb
  have : (bs.map (swapDims i j)).all = bs.all.map (swapDims i j) := by simp [Bufs.all, Bufs.map]
  rw [this, List.mem_map] at hb
  obtain ⟨c, hc, rfl⟩ := hb
  have := h c hc
  simpa [swapDims, Buf.rank, swapL_length] using this

theorem sortInner_same (ok : Nat → Nat → Bool) (i r : Nat) : ∀ (n j : Nat) (bs : Bufs) (m : Bool), Fusable bs →
    (∀ b ∈ bs.all, r ≤ b.rank) → i < r → j + n ≤ r →
    SameElements (sortInner ok i n j (bs, m)).1 bs ∧ Fusable (sortInner ok i n j (bs, m)).1 ∧
      (∀ b ∈ (sortInner ok i n j (bs, m)).1.all, r ≤ b.rank)
  | 0, j, bs, m, hf, hr, _, _ => ⟨SameElements.refl bs, hf, hr⟩
  | n + 1, j, bs, m, hf, hr, hi, hj => by
    rw [sortInner]
    split
    · obtain ⟨h1, h2⟩ := swap_same bs i j hf (fun b hb => by have := hr b hb; omega) (fun b hb => by have := hr b hb; omega)
      obtain ⟨h3, h4, h5⟩ := sortInner_same ok i r n (j + 1) _ true h2 (map_swap_rank bs i j r hr) hi (by omega)
      exact ⟨h3.trans h1, h4, h5⟩
    · exact sortInner_same ok i r n (j + 1) bs m hf hr hi (by omega)

theorem sortOuter_same (ok : Nat → Nat → Bool) (r : Nat) : ∀ (n i : Nat) (bs : Bufs) (m : Bool), Fusable bs →
    (∀ b ∈ bs.all, r ≤ b.rank) → i + n < r ∨ n = 0 →
    SameElements (sortOuter ok r n i (bs, m)).1 bs ∧ Fusable (sortOuter ok r n i (bs, m)).1
  | 0, i, bs, m, hf, hr, _ => ⟨SameElements.refl bs, hf⟩
  | n + 1, i, bs, m, hf, hr, hi => by
    rw [sortOuter]
    obtain ⟨h1, h2, h3⟩ := sortInner_same ok i r (r - (i + 1)) (i + 1) bs m hf hr (by omega) (by omega)
    obtain ⟨h4, h5⟩ := sortOuter_same ok r n (i + 1) (sortInner ok i (r - (i + 1)) (i + 1) (bs, m)).1
      (sortInner ok i (r - (i + 1)) (i + 1) (bs, m)).2 h2 h3 (by omega)
    exact ⟨h4.trans h1, h5⟩

theorem minRank_le (bs : Bufs) : ∀ b ∈ bs.all, bs.minRank ≤ b.rank := by
  have key : ∀ (l : List Buf) (r : Nat), l.foldl (fun r b => Min.min r b.rank) r ≤ r ∧
      ∀ b ∈ l, l.foldl (fun r b => Min.min r b.rank) r ≤ b.rank := by
    intro l
    induction l with
    | nil => intro r; simp
    | cons c l ih =>
      intro r
      obtain ⟨h1, h2⟩ := ih (Min.min r c.rank)
      refine ⟨by simp only [List.foldl_cons]; omega, ?_⟩
      intro b hb
      simp only [List.mem_cons] at hb
      simp only [List.foldl_cons]
      rcases hb with rfl | hb
      · omega
      · exact h2 b hb
  intro b hb
  simp only [Bufs.all, List.mem_cons] at hb
  rcases hb with rfl | hb
  · exact (key bs.rest bs.first.rank).1
  · exact (key bs.rest bs.first.rank).2 b hb

/-- C21: `sort_dims` preserves the elements. -/
theorem sortDims_same (ok : Nat → Nat → Bool) (bs : Bufs) (hf : Fusable bs) :
    SameElements (sortDims ok bs).1 bs ∧ Fusable (sortDims ok bs).1 :=
  sortOuter_same ok _ _ _ bs false hf (minRank_le bs) (by omega)

/-- The strides of the first buffer. -/
def Bufs.str (bs : Bufs) (k : Nat) : Int := (bs.first.dim k).stride

theorem str_swap (bs : Bufs) (i j k : Nat) (hi : i < bs.first.rank) (hj : j < bs.first.rank) :
    (bs.map (swapDims i j)).str k = bs.str (if k = j then i else if k = i then j else k) := by
  simp only [Bufs.str, Bufs.map, swapDims, Buf.dim, swapL_getElem? _ _ _ _ hi hj]

theorem sortInner_sorted (i r : Nat) : ∀ (n j : Nat) (bs : Bufs) (m : Bool), j + n = r → i < j → r ≤ bs.first.rank →
    (∀ a b, a < i → a < b → b < r → bs.str a ≤ bs.str b) → (∀ k, i < k → k < j → bs.str i ≤ bs.str k) →
    (∀ a b, a < i + 1 → a < b → b < r →
      (sortInner (fun _ _ => true) i n j (bs, m)).1.str a ≤ (sortInner (fun _ _ => true) i n j (bs, m)).1.str b) ∧
    (sortInner (fun _ _ => true) i n j (bs, m)).1.first.rank = bs.first.rank
  | 0, j, bs, m, hj, _, _, hP, hQ => by
    refine ⟨fun a b ha hab hb => ?_, rfl⟩
    by_cases h : a < i
    · exact hP a b h hab hb
    · have : a = i := by omega
      subst this
      exact hQ b hab (by omega)
  | n + 1, j, bs, m, hj, hij, hr, hP, hQ => by
    rw [sortInner]
    split
    · rename_i h
      simp only [Bool.true_and, decide_eq_true_eq] at h
      have h' : bs.str j < bs.str i := h
      have hrk : (bs.map (swapDims i j)).first.rank = bs.first.rank := by
        simp [Bufs.map, swapDims, Buf.rank, swapL_length]
      obtain ⟨h1, h2⟩ := sortInner_sorted i r n (j + 1) (bs.map (swapDims i j)) true (by omega) (by omega) (by omega)
        (by
          intro a b ha hab hb
          rw [str_swap _ _ _ _ (by omega) (by omega), str_swap _ _ _ _ (by omega) (by omega),
            if_neg (by omega), if_neg (by omega)]
          apply hP a _ ha <;> split_ifs <;> omega)
        (by
          intro k hk hk'
          rw [str_swap _ _ _ _ (by omega) (by omega), str_swap _ _ _ _ (by omega) (by omega), if_neg (by omega), if_pos rfl]
          split_ifs with h1 h2
          · exact le_of_lt h'
          · omega
          · exact le_trans (le_of_lt h') (hQ k hk (by omega)))
      exact ⟨h1, h2.trans hrk⟩
    · rename_i h
      simp only [Bool.true_and, decide_eq_true_eq] at h
      have h' : bs.str i ≤ bs.str j := not_lt.1 h
      exact sortInner_sorted i r n (j + 1) bs m (by omega) (by omega) hr hP (by
        intro k hk hk'
        by_cases hkj : k = j
        · rw [hkj]; exact h'
        · exact hQ k hk (by omega))

theorem sortOuter_sorted (r : Nat) : ∀ (n i : Nat) (bs : Bufs) (m : Bool), i + n = r - 1 → r ≤ bs.first.rank →
    (∀ a b, a < i → a < b → b < r → bs.str a ≤ bs.str b) →
    ∀ a b, a < b → b < r → (sortOuter (fun _ _ => true) r n i (bs, m)).1.str a ≤ (sortOuter (fun _ _ => true) r n i (bs, m)).1.str b
  | 0, i, bs, m, hi, _, hP => fun a b hab hb => hP a b (by omega) hab hb
  | n + 1, i, bs, m, hi, hr, hP => by
    rw [sortOuter]
    obtain ⟨h1, h2⟩ := sortInner_sorted i r (r - (i + 1)) (i + 1) bs m (by omega) (by omega) hr hP (by intro k; omega)
    exact sortOuter_sorted r n (i + 1) (sortInner (fun _ _ => true) i (r - (i + 1)) (i + 1) (bs, m)).1
      (sortInner (fun _ _ => true) i (r - (i + 1)) (i + 1) (bs, m)).2 (by omega) (by omega) h1

/-- C21: after `sort_dims(bufs...)` the strides of the first buffer are in ascending order, in the dimensions that exist in
all the buffers. -/
theorem sortDims_sorted (bs : Bufs) (a b : Nat) (hab : a < b) (hb : b < bs.minRank) :
    ((sortDims (fun _ _ => true) bs).1.first.dim a).stride ≤ ((sortDims (fun _ _ => true) bs).1.first.dim b).stride :=
  sortOuter_sorted bs.minRank _ 0 bs false (by omega) (minRank_le bs _ (by simp [Bufs.all])) (by intro a b h; omega) a b hab hb

/-- C21: `optimize_dims(dim_sets, ...)` preserves the elements. -/
theorem optimizeDimsSets_same (ok : Nat → Nat → Bool) (bs : Bufs) (hf : Fusable bs) :
    SameElements (optimizeDimsSets ok bs) bs := by
  obtain ⟨h1, h2⟩ := fuseContiguous_same ok bs hf
  obtain ⟨h3, h4⟩ := sortDims_same ok _ h2
  unfold optimizeDimsSets
  split
  · rename_i bs' heq
    rw [heq] at h3 h4
    exact (fuseContiguous_same ok _ h4).1.trans (h3.trans h1)
  · rename_i bs' heq
    rw [heq] at h3 h4
    exact h3.trans h1

/-! ## Removing dimensions of extent 1 -/

theorem offset_insert : ∀ (ds : List Dim) (is : List Int) (d : Nat) (x : Int), ds.length ≤ d →
    Buf.offset ds (is.insertIdx d x) = Buf.offset ds is ∧ Buf.containsL ds (is.insertIdx d x) = Buf.containsL ds is
  | [], _, _, _, _ => by simp [Buf.offset, Buf.containsL]
  | _ :: _, _, 0, _, h => by simp at h
  | e :: ds, [], d + 1, x, h => by simp
  | e :: ds, i :: is, d + 1, x, h => by
    obtain ⟨h1, h2⟩ := offset_insert ds is d x (by simpa using h)
    simp [List.insertIdx_succ_cons, Buf.offset, Buf.containsL, h1, h2]

theorem offset_erase_beyond : ∀ (ds : List Dim) (is : List Int) (d : Nat), is.length ≤ d →
    Buf.offset (ds.eraseIdx d) is = Buf.offset ds is ∧ Buf.containsL (ds.eraseIdx d) is = Buf.containsL ds is
  | [], _, _, _ => by simp
  | _ :: _, [], _, _ => by simp [Buf.offset, Buf.containsL, offset_zip, containsL_zip]
  | _ :: _, _ :: _, 0, h => by simp at h
  | e :: ds, i :: is, d + 1, h => by
    obtain ⟨h1, h2⟩ := offset_erase_beyond ds is d (by simpa using h)
    simp [Buf.offset, Buf.containsL, h1, h2]

theorem containsL_eraseIdx : ∀ (ds : List Dim) (is : List Int) (d : Nat) (dd : Dim) (x : Int),
    ds[d]? = some dd → d ≤ is.length → dd.contains x = true →
    Buf.containsL (ds.eraseIdx d) is = Buf.containsL ds (is.insertIdx d x)
  | [], _, _, _, _, h, _, _ => by simp at h
  | e :: ds, is, 0, dd, x, h, _, hc => by
    simp at h; subst h; simp [Buf.containsL, hc]
  | e :: ds, [], d + 1, dd, x, h, hl, _ => by simp at hl
  | e :: ds, i :: is, d + 1, dd, x, h, hl, hc => by
    simp at h hl
    simp only [List.eraseIdx_cons_succ, List.insertIdx_succ_cons, Buf.containsL]
    rw [← containsL_eraseIdx ds is d dd x h hl hc]

theorem insertIdx_eraseIdx_of : ∀ (is : List Int) (d : Nat) (x : Int), is[d]? = some x →
    (is.eraseIdx d).insertIdx d x = is
  | [], _, _, h => by simp at h
  | i :: is, 0, x, h => by simp at h; subst h; simp
  | i :: is, d + 1, x, h => by
    simp at h; simp [List.insertIdx_succ_cons, insertIdx_eraseIdx_of is d x h]

/-- C21: slicing a dimension in which all the buffers have only the index `x` preserves the elements. -/
theorem slicePoint_same (bs : Bufs) (d : Nat) (x : Int) (hf : Fusable bs)
    (hp : ∀ b ∈ bs.all, (b.dim d).min = x ∧ (b.dim d).max = x) :
    SameElements (bs.map (·.slice d x)) bs ∧ Fusable (bs.map (·.slice d x)) := by
  have h0 : bs.first ∈ bs.all := by simp [Bufs.all]
  have hdims : ∀ b : Buf, (b.slice d x).dims = b.dims.eraseIdx d := by
    intro b
    by_cases h : d < b.rank
    · rw [slice_eq b d x h]
    · rw [slice_broadcast b d x (by omega), List.eraseIdx_of_length_le (by unfold Buf.rank at h; omega)]
  have hplain : ∀ b ∈ bs.all, ∀ d ∈ b.dims, d.Plain := by
    intro b hb
    simp [Bufs.all] at hb
    rcases hb with rfl | hb
    · intro d hd; exact Or.inl (hf.first_plain d hd).1
    · exact hf.rest_plain b hb
  obtain ⟨φ, hφdef⟩ : ∃ φ : List Int → List Int,
      φ = if d < bs.first.rank then (fun is => is.insertIdx d x) else id := ⟨_, rfl⟩
  have hφ : Set.BijOn φ {is | (bs.first.slice d x).InBounds is} {is | bs.first.InBounds is} := by
    by_cases hr : d < bs.first.rank
    · rw [hφdef, if_pos hr]
      apply Set.InvOn.bijOn (f' := fun is => is.eraseIdx d)
      · constructor
        · intro is his
          have hl := InB.length his
          rw [hdims, List.length_eraseIdx] at hl
          simp
        · intro is his
          obtain ⟨y, hy, h1, h2⟩ := InB.get his (dim_eq bs.first d hr)
          have := hp _ h0
          exact insertIdx_eraseIdx_of is d x (by rw [hy]; congr 1; omega)
      · intro is his
        have hl := InB.length his
        rw [hdims, List.length_eraseIdx] at hl
        have hr' : d < bs.first.dims.length := hr
        rw [if_pos hr'] at hl
        exact (slice_inBounds bs.first d x is hr (by have := hp _ h0; omega) (by omega)).1 his
      · intro is his
        have hl := InB.length his
        have hr' : d < bs.first.dims.length := hr
        have hle : (is.eraseIdx d).length = is.length - 1 := by rw [List.length_eraseIdx, if_pos (by omega)]
        obtain ⟨y, hy, h1, h2⟩ := InB.get his (dim_eq bs.first d hr)
        have := hp _ h0
        apply (slice_inBounds bs.first d x _ hr (by omega) (by show d ≤ (is.eraseIdx d).length; omega)).2
        show bs.first.InBounds ((is.eraseIdx d).insertIdx d x)
        rw [insertIdx_eraseIdx_of is d x (by rw [hy]; congr 1; omega)]
        exact his
    · rw [hφdef, if_neg hr, slice_broadcast _ _ _ (by omega)]; exact Set.bijOn_id _
  have hlen : ∀ is, (bs.first.slice d x).InBounds is →
      (d < bs.first.rank → d ≤ is.length) ∧ (¬ d < bs.first.rank → is.length ≤ d) := by
    intro is his
    have hl := InB.length his
    rw [hdims, List.length_eraseIdx] at hl
    unfold Buf.rank
    split at hl <;> omega
  have hpt : ∀ b ∈ bs.all, (b.dim d).contains x = true := by
    intro b hb; rw [dim_contains_iff]; have := hp b hb; omega
  have hcon : ∀ b ∈ bs.all, ∀ is, (bs.first.slice d x).InBounds is → (b.slice d x).contains is = b.contains (φ is) := by
    intro b hb is his
    unfold Buf.contains
    rw [hdims]
    by_cases hr : d < bs.first.rank
    · rw [hφdef, if_pos hr]
      by_cases hb' : d < b.rank
      · exact containsL_eraseIdx b.dims is d _ x (dim_eq b d hb') ((hlen is his).1 hr) (hpt b hb)
      · have : b.dims.length ≤ d := by unfold Buf.rank at hb'; omega
        rw [List.eraseIdx_of_length_le this, (offset_insert b.dims is d x this).2]
    · rw [hφdef, if_neg hr]
      exact (offset_erase_beyond b.dims is d ((hlen is his).2 hr)).2
  have hadd : ∀ b ∈ bs.all, ∀ is, (bs.first.slice d x).InBounds is → (b.slice d x).address is = b.address (φ is) := by
    intro b hb is his
    by_cases hr : d < bs.first.rank
    · rw [hφdef, if_pos hr]
      by_cases hb' : d < b.rank
      · exact slice_address b d x is hb' (by have := hp b hb; omega) ((hlen is his).1 hr)
      · rw [slice_broadcast _ _ _ (by omega)]
        unfold Buf.address
        rw [(offset_insert b.dims is d x (by unfold Buf.rank at hb'; omega)).1]
    · rw [hφdef, if_neg hr]
      by_cases hb' : d < b.rank
      · rw [slice_eq b d x hb']
        unfold Buf.address
        simp only [(offset_erase_beyond b.dims is d ((hlen is his).2 hr)).1, id]
        cases hbase : b.base with
        | none => simp [sliceBase]
        | some p =>
          have : (b.dim d).flatOffset x = 0 := by
            have h1 := hplain b hb _ (List.mem_of_getElem? (dim_eq b d hb'))
            have h2 := hp b hb
            rcases h1 with h1 | h1
            · simp [Dim.flatOffset, h1, h2.1]
            · simp [Dim.flatOffset, h1]
          simp [sliceBase, hpt b hb, this]
      · rw [slice_broadcast _ _ _ (by omega)]; rfl
  refine ⟨step_same bs _ φ hφ ?_, ?_, ?_, ?_⟩
  · intro b hb is his
    unfold Buf.view
    rw [hcon b hb is his, hadd b hb is his]
  · intro e he
    simp only [Bufs.map] at he
    rw [hdims] at he
    exact hf.first_plain e (List.mem_of_mem_eraseIdx he)
  · intro b hb e he
    simp only [Bufs.map, List.mem_map] at hb
    obtain ⟨b, hb, rfl⟩ := hb
    rw [hdims] at he
    exact hf.rest_plain b hb e (List.mem_of_mem_eraseIdx he)
  · intro b hb
    simp only [Bufs.map, List.mem_map] at hb
    obtain ⟨b, hb, rfl⟩ := hb
    rcases hf.rest_covers b hb with h | h
    · left; intro e he; rw [hdims] at he; exact h e (List.mem_of_mem_eraseIdx he)
    · right; intro is his
      rw [hcon b (by simp [Bufs.all, hb]) is his]
      exact h _ (hφ.1 his)

theorem slicePoints_same : ∀ (n : Nat) (bs : Bufs), Fusable bs →
    SameElements (slicePoints n bs) bs ∧ Fusable (slicePoints n bs)
  | 0, bs, hf => ⟨SameElements.refl bs, hf⟩
  | d + 1, bs, hf => by
    rw [slicePoints]
    split
    · rename_i h
      simp only [Bool.and_eq_true, List.all_eq_true, Dim.isPoint, Dim.isPointAt, decide_eq_true_eq] at h
      obtain ⟨h1, h2⟩ := slicePoint_same bs d (bs.first.dim d).min hf (by
        intro b hb
        simp [Bufs.all] at hb
        rcases hb with rfl | hb
        · exact ⟨rfl, h.1.symm⟩
        · exact h.2 b hb)
      obtain ⟨h3, h4⟩ := slicePoints_same d _ h2
      exact ⟨h3.trans h1, h4⟩
    · exact slicePoints_same d bs hf

/-- C21: `optimize_dims(bufs...)` preserves the elements, of buffers without folded dimensions, the first of which has no
dimension of stride 0. (The full claim fails without these conditions, see the counterexamples below.) -/
theorem optimizeDims_same_partial (bs : Bufs) (hf : Fusable bs) : SameElements (optimizeDims bs) bs := by
  obtain ⟨g1, g2⟩ := slicePoints_same bs.maxRank bs hf
  obtain ⟨h1, h2⟩ := fuseContiguous_same (fun _ _ => true) _ g2
  obtain ⟨h1', h2'⟩ := fuseContiguous_same (fun _ _ => true) _ h2
  obtain ⟨h3, h4⟩ := sortDims_same (fun _ _ => true) _ h2'
  unfold optimizeDims
  simp only
  split
  · rename_i bs' heq
    rw [heq] at h3 h4
    exact (fuseContiguous_same _ _ h4).1.trans (h3.trans (h1'.trans (h1.trans g1)))
  · rename_i bs' heq
    rw [heq] at h3 h4
    exact h3.trans (h1'.trans (h1.trans g1))

/-- The hypotheses are met by two buffers with different layouts (the second is a broadcast in one dimension), and
dimensions are fused. -/
example : Fusable ⟨⟨some 0, 1, [⟨0, 3, 1, -1⟩, ⟨2, 4, 4, -1⟩, ⟨0, 5, 12, -1⟩]⟩, [⟨some 1000, 1, [⟨0, 3, 1, -1⟩, ⟨2, 4, 4, -1⟩]⟩]⟩ := by
  refine ⟨by decide, ?_, ?_⟩
  · unfold Dim.Plain; decide
  · intro b hb; left; revert b hb; decide

example : fuseContiguous (fun _ _ => true)
    ⟨⟨some 0, 1, [⟨0, 3, 1, -1⟩, ⟨2, 4, 4, -1⟩, ⟨0, 5, 12, -1⟩]⟩, [⟨some 1000, 1, [⟨0, 3, 1, -1⟩, ⟨2, 4, 4, -1⟩]⟩]⟩ =
    ⟨⟨some 0, 1, [⟨8, 19, 1, -1⟩, ⟨0, 5, 12, -1⟩]⟩, [⟨some 1000, 1, [⟨8, 19, 1, -1⟩]⟩]⟩ := by decide

/-- Counterexample to the full claim: an outer dimension of extent 1 can be fused with a folded inner dimension; the fused
dimension has another address (4 instead of 1) for its only pair of indices with `x = 1`. -/
theorem fuse_folded_inner_counterexample :
    let b : Buf := ⟨some 0, 1, [⟨1, 2, 1, 4⟩, ⟨0, 0, 8, -1⟩]⟩
    canFuse (b.dim 0) (b.dim 1) = true ∧ b.address [1, 0] = some 1 ∧ b.address [2, 0] = some 2 ∧
      (fuseBuf 0 1 b).dims = [⟨0, 1, 1, 4⟩] ∧ (fuseBuf 0 1 b).address [0] = some 0 ∧
      (fuseBuf 0 1 b).address [1] = some 1 := by decide

/-- Counterexample to the full claim: fusing an outer dimension of extent 1 that is folded, with a stride other than the next
stride of the inner dimension. -/
theorem fuse_folded_outer_counterexample :
    let b : Buf := ⟨some 0, 1, [⟨0, 1, 1, -1⟩, ⟨1, 1, 8, 4⟩]⟩
    canFuse (b.dim 0) (b.dim 1) = true ∧ b.address [0, 1] = some 8 ∧
      (fuseBuf 0 1 b).dims = [⟨2, 3, 1, 8⟩] ∧ (fuseBuf 0 1 b).address [2] = some 2 := by decide

/-- Counterexample to the full claim: fusing a dimension of stride 0 of the first buffer with an explicit broadcast dimension
loses the bounds of the dimension: the second buffer has 5 elements in the bounds of the first before, and 1 after. -/
theorem fuse_broadcast_counterexample :
    let bs : Bufs := ⟨⟨some 0, 1, [⟨0, 4, 0, -1⟩, ⟨0, 0, 0, 0⟩]⟩, [⟨some 100, 1, [⟨0, 4, 1, -1⟩, ⟨0, 0, 5, -1⟩]⟩]⟩
    fuseContiguous (fun _ _ => true) bs = ⟨⟨some 0, 1, [⟨0, 0, 0, 0⟩]⟩, [⟨some 100, 1, [⟨0, 4, 1, -1⟩]⟩]⟩ := by decide

/-- Counterexample to the full claim: fusing a stride 0 dimension with a dimension of extent 1 makes the second buffer
in bounds where it was not (`y = 1`). -/
theorem fuse_bounds_counterexample :
    let bs : Bufs := ⟨⟨some 0, 1, [⟨0, 4, 1, -1⟩, ⟨0, 1, 5, -1⟩]⟩, [⟨some 100, 1, [⟨0, 4, 0, -1⟩, ⟨0, 0, 7, -1⟩]⟩]⟩
    bs.rest.map (·.view [0, 1]) = [none] ∧
      (fuseContiguous (fun _ _ => true) bs).rest.map (·.view [5]) = [some 100] := by decide

end Slinky
