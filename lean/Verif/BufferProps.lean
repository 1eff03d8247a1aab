import Verif.Buffer
import Mathlib.Data.Int.Basic
import Mathlib.Data.Set.Function
import Mathlib.Data.List.Nodup
import Mathlib.Algebra.Order.Ring.Abs
import Mathlib.Algebra.Order.Group.Int
import Mathlib.Algebra.Order.Ring.Int
import Mathlib.Algebra.Order.Group.Unbundled.Int
import Mathlib.Tactic.Linarith
import Mathlib.Tactic.Ring
import Mathlib.Tactic.LinearCombination

/-!
# Cropping, slicing, translating, fusing and folding buffers (C19, C20, C21, C39)

Vocabulary of the statements: `b.address is` is `address_at(is)` and `b.contains is` is `contains(is)`, both from the model;
`Buf.InBounds` below is the specification: one index per dimension, each between the min and the max of its dimension.
-/

namespace Slinky

/-- Specification: `is` has one index per dimension, and each is within the bounds of its dimension. -/
def InB : List Dim → List Int → Prop
  | [], [] => True
  | d :: ds, i :: is => (d.min ≤ i ∧ i ≤ d.max) ∧ InB ds is
  | _, _ => False

/-- Specification: the index tuples of the elements of a buffer. -/
def Buf.InBounds (b : Buf) (is : List Int) : Prop := InB b.dims is

theorem InB.length : ∀ {ds : List Dim} {is : List Int}, InB ds is → is.length = ds.length
  | [], [], _ => rfl
  | _ :: _, _ :: _, h => by simp [InB.length h.2]

theorem InB.get : ∀ {ds : List Dim} {is : List Int} {n : Nat} {d : Dim}, InB ds is → ds[n]? = some d →
    ∃ x, is[n]? = some x ∧ d.min ≤ x ∧ x ≤ d.max
  | [], _, _, _, _, h' => by simp at h'
  | _ :: _, [], _, _, h, _ => h.elim
  | d :: ds, i :: is, 0, d', h, h' => by simp at h'; subst h'; exact ⟨i, by simp, h.1⟩
  | d :: ds, i :: is, n + 1, d', h, h' => by simp at h'; simpa using InB.get h.2 h'

theorem dim_contains_iff (d : Dim) (x : Int) :
    d.contains x = true ↔ d.stride = 0 ∨ (d.min ≤ x ∧ x ≤ d.max) := by
  simp [Dim.contains, Dim.containsI]

/-! ## C19: crop -/

theorem offset_set : ∀ (ds : List Dim) (is : List Int) (d : Nat) (dd dn : Dim) (i : Int),
    ds[d]? = some dd → is[d]? = some i →
    Buf.offset (ds.set d dn) is = Buf.offset ds is - dd.flatOffset i + dn.flatOffset i
  | [], _, _, _, _, _, h, _ => by simp at h
  | _ :: _, [], _, _, _, _, _, h => by simp at h
  | e :: ds, x :: is, 0, dd, dn, i, h, h' => by
    simp at h h'; subst h h'; simp [Buf.offset]; ring
  | e :: ds, x :: is, d + 1, dd, dn, i, h, h' => by
    simp at h h'
    simp [Buf.offset, offset_set ds is d dd dn i h h']; ring

theorem dim_eq (b : Buf) (d : Nat) (h : d < b.rank) : b.dims[d]? = some (b.dim d) := by
  unfold Buf.rank at h; simp [Buf.dim, List.getElem?_eq_getElem h]

/-- C19: the bounds of the cropped dimension are the intersection of the old bounds and `[mn, mx]`; its stride and fold
factor are unchanged. -/
theorem crop_dim (b : Buf) (d : Nat) (mn mx : Int) (h : d < b.rank) :
    (b.crop d mn mx).dim d =
      ⟨max mn (b.dim d).min, min mx (b.dim d).max, (b.dim d).stride, (b.dim d).fold⟩ := by
  unfold Buf.rank at h
  simp [Buf.crop, Buf.rank, Buf.dim, h, Nat.not_le.2 h]

/-- C19: an index is within the cropped bounds exactly if it is within the old bounds and within `[mn, mx]`. -/
theorem crop_bounds (b : Buf) (d : Nat) (mn mx : Int) (h : d < b.rank) (i : Int) :
    (((b.crop d mn mx).dim d).min ≤ i ∧ i ≤ ((b.crop d mn mx).dim d).max) ↔
      ((b.dim d).min ≤ i ∧ i ≤ (b.dim d).max) ∧ (mn ≤ i ∧ i ≤ mx) := by
  rw [crop_dim b d mn mx h]; simp; omega

/-- C19: every other dimension, the rank and the element size are unchanged. -/
theorem crop_other (b : Buf) (d : Nat) (mn mx : Int) :
    (∀ j, j ≠ d → (b.crop d mn mx).dim j = b.dim j) ∧ (b.crop d mn mx).rank = b.rank ∧
      (b.crop d mn mx).elem = b.elem := by
  refine ⟨fun j hj => ?_, ?_, ?_⟩ <;> unfold Buf.crop <;> split <;> simp [Buf.dim, Buf.rank]
  rw [List.getElem?_set_ne (by omega)]

/-- C19: cropping a dimension beyond the rank (a broadcast) does nothing. -/
theorem crop_broadcast (b : Buf) (d : Nat) (mn mx : Int) (h : b.rank ≤ d) : b.crop d mn mx = b := by
  simp [Buf.crop, h]

/-- C19: every index tuple within the cropped bounds of `d` refers to the same address as before. Only the index in
dimension `d` needs to be in bounds. -/
theorem crop_address (b : Buf) (d : Nat) (mn mx : Int) (is : List Int) (i : Int) (h : d < b.rank)
    (hi : is[d]? = some i)
    (hb : ((b.crop d mn mx).dim d).min ≤ i ∧ i ≤ ((b.crop d mn mx).dim d).max) :
    (b.crop d mn mx).address is = b.address is := by
  rw [crop_dim b d mn mx h] at hb
  obtain ⟨h1, h2⟩ := hb
  simp only at h1 h2
  have hn : ¬ d ≥ b.rank := by omega
  cases hbase : b.base with
  | none => simp [Buf.crop, Buf.address, hbase, hn]
  | some p =>
    have hle : min mx (b.dim d).max ≥ max mn (b.dim d).min := le_trans h1 h2
    simp only [Buf.crop, Buf.address, hbase, hn, if_false, if_pos hle]
    have hs := offset_set b.dims is d (b.dim d)
      { b.dim d with min := max mn (b.dim d).min, max := min mx (b.dim d).max } i (dim_eq b d h) hi
    rw [hs]
    by_cases hf : (b.dim d).fold = Dim.unfolded
    · simp [hf, Dim.flatOffset]; ring
    · by_cases hs0 : (b.dim d).stride = 0
      · simp [hf, Dim.flatOffset, hs0]
      · simp [hf, Dim.flatOffset, hs0]

/-- C19: an empty crop yields a null base (and so every address is null). -/
theorem crop_empty (b : Buf) (d : Nat) (mn mx : Int) (h : d < b.rank)
    (he : min mx (b.dim d).max < max mn (b.dim d).min) :
    (b.crop d mn mx).base = none ∧ ∀ is, (b.crop d mn mx).address is = none := by
  have hn : ¬ d ≥ b.rank := by omega
  have : (b.crop d mn mx).base = none := by
    cases hb : b.base <;> simp [Buf.crop, hn, hb]
    simp at he; omega
  exact ⟨this, fun is => by simp [Buf.address, this]⟩

/-- C19: a crop that is not empty keeps a non-null base. -/
theorem crop_nonempty (b : Buf) (d : Nat) (mn mx : Int) (hb : b.base ≠ none)
    (he : max mn (b.dim d).min ≤ min mx (b.dim d).max) : (b.crop d mn mx).base ≠ none := by
  unfold Buf.crop
  split
  · exact hb
  · cases hb' : b.base with
    | none => exact absurd hb' hb
    | some p => simp only [ge_iff_le, if_pos he]; split <;> simp

/-- The base after cropping dimension `dd` of a buffer with base `p`. -/
def cropBase (p : Option Int) (dd : Dim) (mn mx : Int) : Option Int :=
  match p with
  | none => none
  | some p => if min mx dd.max ≥ max mn dd.min then
      (if dd.fold = Dim.unfolded then some (p + dd.flatOffset (max mn dd.min)) else some p) else none

theorem crop_eq (b : Buf) (d : Nat) (mn mx : Int) (h : ¬ d ≥ b.rank) :
    b.crop d mn mx = ⟨cropBase b.base (b.dim d) mn mx, b.elem, b.dims.set d
      ⟨max mn (b.dim d).min, min mx (b.dim d).max, (b.dim d).stride, (b.dim d).fold⟩⟩ := by
  simp only [Buf.crop, h, if_false, cropBase]
  cases b.base <;> rfl

theorem cropBase_cropBase (p : Option Int) (dd : Dim) (mn mx mn' mx' : Int) :
    cropBase (cropBase p dd mn mx) ⟨max mn dd.min, min mx dd.max, dd.stride, dd.fold⟩ mn' mx' =
      cropBase p dd (max mn mn') (min mx mx') := by
  have e1 : max mn' (max mn dd.min) = max (max mn mn') dd.min := by
    rw [← max_assoc, max_comm mn' mn]
  have e2 : min mx' (min mx dd.max) = min (min mx mx') dd.max := by
    rw [← min_assoc, min_comm mx' mx]
  cases p with
  | none => rfl
  | some p =>
    by_cases hc : min mx dd.max ≥ max mn dd.min
    · by_cases hf : dd.fold = Dim.unfolded
      · simp only [cropBase, e1, e2, hc, if_true, hf, Dim.flatOffset, or_true]
        split
        · congr 1; ring
        · rfl
      · simp only [cropBase, e1, e2, hc, if_true, hf, if_false]
    · have hc' : ¬ (min (min mx mx') dd.max ≥ max (max mn mn') dd.min) := by
        intro h'; apply hc; simp only [ge_iff_le] at h' ⊢; simp at h' ⊢; omega
      simp only [cropBase, hc, hc', if_false]

/-- C19: cropping twice equals cropping to the intersection. -/
theorem crop_crop (b : Buf) (d : Nat) (mn mx mn' mx' : Int) :
    (b.crop d mn mx).crop d mn' mx' = b.crop d (max mn mn') (min mx mx') := by
  by_cases h : d ≥ b.rank
  · simp [Buf.crop, h]
  have hr : ¬ d ≥ (b.crop d mn mx).rank := by rw [(crop_other b d mn mx).2.1]; exact h
  have e1 : max mn' (max mn (b.dim d).min) = max (max mn mn') (b.dim d).min := by
    rw [← max_assoc, max_comm mn' mn]
  have e2 : min mx' (min mx (b.dim d).max) = min (min mx mx') (b.dim d).max := by
    rw [← min_assoc, min_comm mx' mx]
  rw [crop_eq _ _ _ _ hr, crop_dim b d mn mx (by omega), crop_eq b _ _ _ h, crop_eq b _ _ _ h]
  simp only [cropBase_cropBase, e1, e2, List.set_set]

/-- The hypotheses are met: a folded and an unfolded dimension, both cropped. -/
example : (⟨some 1000, 4, [⟨0, 9, 4, -1⟩, ⟨3, 7, 40, 3⟩]⟩ : Buf).crop 0 2 20 = ⟨some 1008, 4, [⟨2, 9, 4, -1⟩, ⟨3, 7, 40, 3⟩]⟩ ∧
    ((⟨some 1000, 4, [⟨0, 9, 4, -1⟩, ⟨3, 7, 40, 3⟩]⟩ : Buf).crop 0 2 20).address [5, 7] = some 1060 ∧
    ((⟨some 1000, 4, [⟨0, 9, 4, -1⟩, ⟨3, 7, 40, 3⟩]⟩ : Buf).crop 1 5 6).address [5, 6] = some 1020 ∧
    (⟨some 1000, 4, [⟨0, 9, 4, -1⟩, ⟨3, 7, 40, 3⟩]⟩ : Buf).address [5, 6] = some 1020 := by decide

/-! ## C20: slice -/

theorem offset_eraseIdx : ∀ (ds : List Dim) (is : List Int) (d : Nat) (dd : Dim) (x : Int),
    ds[d]? = some dd → d ≤ is.length →
    Buf.offset (ds.eraseIdx d) is + dd.flatOffset x = Buf.offset ds (is.insertIdx d x)
  | [], _, _, _, _, h, _ => by simp at h
  | e :: ds, is, 0, dd, x, h, _ => by
    simp at h; subst h; simp [Buf.offset]; ring
  | e :: ds, [], d + 1, dd, x, h, hl => by simp at hl
  | e :: ds, i :: is, d + 1, dd, x, h, hl => by
    simp at h hl
    simp only [List.eraseIdx_cons_succ, List.insertIdx_succ_cons, Buf.offset]
    rw [← offset_eraseIdx ds is d dd x h hl]; ring

/-- The base after slicing dimension `dd` of a buffer with base `p` at `x`. -/
def sliceBase (p : Option Int) (dd : Dim) (x : Int) : Option Int :=
  match p with
  | none => none
  | some p => if dd.contains x then some (p + dd.flatOffset x) else none

theorem slice_eq (b : Buf) (d : Nat) (x : Int) (h : d < b.rank) :
    b.slice d x = ⟨sliceBase b.base (b.dim d) x, b.elem, b.dims.eraseIdx d⟩ := by
  rw [Buf.slice, if_neg (by omega), Buf.sliceDim]
  rw [if_neg (by simpa [Buf.rank] using h)]
  cases hb : b.base <;> simp [sliceBase]

/-- C20: slicing removes one dimension. -/
theorem slice_rank (b : Buf) (d : Nat) (x : Int) (h : d < b.rank) :
    (b.slice d x).rank + 1 = b.rank ∧ (b.slice d x).elem = b.elem := by
  rw [slice_eq b d x h]
  simp only [Buf.rank] at *
  simp [List.length_eraseIdx, h]; omega

/-- C20: the remaining dimensions keep their order. -/
theorem slice_dim (b : Buf) (d : Nat) (x : Int) (h : d < b.rank) (j : Nat) :
    (b.slice d x).dim j = b.dim (if j < d then j else j + 1) := by
  rw [slice_eq b d x h]
  simp [Buf.dim, List.getElem?_eraseIdx]
  split <;> rfl

/-- C20: with `x` in bounds, an index tuple refers to the address that the tuple with `x` inserted at `d` referred to. -/
theorem slice_address (b : Buf) (d : Nat) (x : Int) (is : List Int) (h : d < b.rank)
    (hx : (b.dim d).min ≤ x ∧ x ≤ (b.dim d).max) (hl : d ≤ is.length) :
    (b.slice d x).address is = b.address (is.insertIdx d x) := by
  have hc : (b.dim d).contains x = true := by simp [Dim.contains, Dim.containsI, hx.1, hx.2]
  have hs := offset_eraseIdx b.dims is d (b.dim d) x (dim_eq b d h) hl
  rw [slice_eq b d x h]
  cases hb : b.base with
  | none => simp [Buf.address, hb, sliceBase]
  | some p => simp [Buf.address, hb, sliceBase, hc, ← hs]; ring

/-- C20: the in-bounds tuples of the slice are those whose extension by `x` was in bounds. -/
theorem slice_inBounds (b : Buf) (d : Nat) (x : Int) (is : List Int) (h : d < b.rank)
    (hx : (b.dim d).min ≤ x ∧ x ≤ (b.dim d).max) (hl : d ≤ is.length) :
    (b.slice d x).InBounds is ↔ b.InBounds (is.insertIdx d x) := by
  have key : ∀ (ds : List Dim) (is : List Int) (d : Nat) (dd : Dim), ds[d]? = some dd → d ≤ is.length →
      (dd.min ≤ x ∧ x ≤ dd.max) → (InB (ds.eraseIdx d) is ↔ InB ds (is.insertIdx d x)) := by
    intro ds
    induction ds with
    | nil => intro is d dd h; simp at h
    | cons e ds ih =>
      intro is d dd h hl hx
      cases d with
      | zero => simp at h; subst h; simp [InB, hx]
      | succ d =>
        cases is with
        | nil => simp at hl
        | cons i is =>
          simp at h hl
          simp only [List.eraseIdx_cons_succ, List.insertIdx_succ_cons, InB, ih is d dd h hl hx]
  rw [slice_eq b d x h]
  exact key b.dims is d (b.dim d) (dim_eq b d h) hl hx

/-- C20: an out of bounds slice (of a dimension that is not a broadcast) yields a null base. -/
theorem slice_out_of_bounds (b : Buf) (d : Nat) (x : Int) (h : d < b.rank) (hs : (b.dim d).stride ≠ 0)
    (hx : ¬ ((b.dim d).min ≤ x ∧ x ≤ (b.dim d).max)) :
    (b.slice d x).base = none ∧ ∀ is, (b.slice d x).address is = none := by
  have hc : (b.dim d).contains x = false := by
    rw [Bool.eq_false_iff]; simp [Dim.contains, Dim.containsI, hs]; omega
  have : (b.slice d x).base = none := by
    rw [slice_eq b d x h]; cases hb : b.base <;> simp [sliceBase, hc]
  exact ⟨this, fun is => by simp [Buf.address, this]⟩

/-- C20: slicing a dimension beyond the rank (a broadcast) does nothing. -/
theorem slice_broadcast (b : Buf) (d : Nat) (x : Int) (h : b.rank ≤ d) : b.slice d x = b := by
  simp [Buf.slice, h]

/-! ### Slicing several dimensions at once -/

/-- The dimensions that remain: from `start`, without those in `ds`. -/
def kept (l : List Dim) : Nat → List Nat → List Dim
  | start, [] => l.drop start
  | start, d :: ds => (l.take d).drop start ++ kept l (d + 1) ds

theorem kept_nil (l : List Dim) : ∀ (ds : List Nat) (start : Nat), l.length ≤ start → (∀ x ∈ ds, l.length ≤ x) →
    kept l start ds = []
  | [], start, h, _ => by simp [kept, h]
  | x :: xs, start, h, hx => by
    have h1 := hx x (by simp)
    have := kept_nil l xs (x + 1) (by omega) (fun y hy => hx y (by simp [hy]))
    simp [kept, this, h]

theorem foldr_eraseIdx (l : List Dim) : ∀ (ds : List Nat) (start : Nat), (∀ d ∈ ds, start ≤ d) → ds.Pairwise (· < ·) →
    ds.foldr (fun d l => l.eraseIdx d) l = l.take start ++ kept l start ds
  | [], start, _, _ => by simp [kept]
  | d :: ds, start, hs, hp => by
    rw [List.pairwise_cons] at hp
    have := foldr_eraseIdx l ds (d + 1) (fun e he => hp.1 e he) hp.2
    simp only [List.foldr_cons, this, kept]
    have hsd : start ≤ d := hs d (by simp)
    have e : (l.take (d + 1) ++ kept l (d + 1) ds).eraseIdx d = l.take d ++ kept l (d + 1) ds := by
      by_cases hd : d < l.length
      · rw [List.eraseIdx_append_of_lt_length (by simp; omega), List.eraseIdx_eq_take_drop_succ]
        simp [List.take_take]
      · have hk := kept_nil l ds (d + 1) (by omega) (fun x hx => by have := hp.1 x hx; omega)
        rw [hk]
        simp [List.take_of_length_le (show l.length ≤ d + 1 by omega),
          List.take_of_length_le (show l.length ≤ d by omega), List.eraseIdx_of_length_le (show l.length ≤ d by omega)]
    rw [e, ← List.append_assoc]
    congr 1
    rw [show l.take start = (l.take d).take start by rw [List.take_take]; congr 1; omega, List.take_append_drop]

theorem sliceDim_eq (b : Buf) (d : Nat) : b.sliceDim d = { b with dims := b.dims.eraseIdx d } := by
  unfold Buf.sliceDim
  split
  · rename_i h; rw [List.eraseIdx_of_length_le h]
  · rfl

theorem foldr_sliceDim (b : Buf) : ∀ (ds : List Nat),
    ds.foldr (fun d b => b.sliceDim d) b = { b with dims := ds.foldr (fun d l => l.eraseIdx d) b.dims }
  | [] => rfl
  | d :: ds => by
    rw [List.foldr_cons, foldr_sliceDim b ds, List.foldr_cons, sliceDim_eq]

theorem moveDown_eq (s : Nat) : ∀ (n j : Nat) (a : Nat → Dim) (k : Nat), s ≤ j →
    moveDown s n j a k = if j - s ≤ k ∧ k < j + n - s then a (k + s + 1) else a k
  | 0, j, a, k, _ => by rw [if_neg (by omega)]; rfl
  | n + 1, j, a, k, h => by
    rw [moveDown, moveDown_eq s n (j + 1) _ k (by omega)]
    simp only [setAt]
    by_cases h1 : k = j - s
    · subst h1
      rw [if_neg (by omega), if_pos rfl, if_pos (by omega)]
      congr 1; omega
    · by_cases h2 : j + 1 - s ≤ k ∧ k < j + 1 + n - s
      · rw [if_pos h2, if_neg (by omega), if_pos (by omega)]
      · rw [if_neg h2, if_neg h1, if_neg (by omega)]

theorem take_drop_eq (b : Buf) (x y : Nat) (h : y ≤ b.rank) :
    (b.dims.take y).drop x = (List.range (y - x)).map fun k => b.dim (x + k) := by
  unfold Buf.rank at h
  apply List.ext_getElem
  · simp; omega
  · intro n h1 h2
    simp at h1 h2
    have : x + n < b.dims.length := by omega
    simp [Buf.dim, List.getElem?_eq_getElem this]

theorem sliceLoop_eq (b : Buf) (lead : Nat) : ∀ (ds : List Nat) (s : Nat) (a : Nat → Dim) (d0 : Nat),
    ds.head?.getD b.rank = d0 → ds.Pairwise (· < ·) → (∀ d ∈ ds, d ≤ b.rank) → lead + s ≤ d0 →
    (∀ k, d0 ≤ k → a k = b.dim k) →
    ∃ a' s', sliceLoop b.rank ds s a = some (a', s') ∧
      (List.range (b.rank - (lead + s'))).map (fun k => a' (lead + k)) =
        (List.range (d0 - (lead + s))).map (fun k => a (lead + k)) ++ kept b.dims (d0 + 1) ds.tail
  | [], s, a, d0, h0, _, _, _, _ => by
    simp at h0; subst h0
    exact ⟨a, s, rfl, by simp [kept, Buf.rank]⟩
  | d :: ds, s, a, d0, h0, hp, hr, hle, ha => by
    simp at h0; subst h0
    rw [List.pairwise_cons] at hp
    have hd := hr d (by simp)
    by_cases hdr : d ≥ b.rank
    · refine ⟨a, s, by simp [sliceLoop, hdr], ?_⟩
      rw [List.tail_cons, kept_nil _ _ _ (by unfold Buf.rank at *; omega)
        (fun x hx => by have := hp.1 x hx; unfold Buf.rank at *; omega)]
      rw [show b.rank = d by omega, List.append_nil]
    · have hnext : ∀ next, ds.head?.getD b.rank = next → next > d ∧ next ≤ b.rank := by
        intro next hn
        cases ds with
        | nil => simp at hn; omega
        | cons x xs => simp at hn; subst hn; exact ⟨hp.1 _ (by simp), hr _ (by simp)⟩
      obtain ⟨next, hn⟩ : ∃ next, ds.head?.getD b.rank = next := ⟨_, rfl⟩
      have hn2 := hnext next hn
      obtain ⟨a', s', h1, h2⟩ := sliceLoop_eq b lead ds (s + 1) (moveDown s (next - 1 - d) d a) next hn hp.2
        (fun x hx => hr x (by simp [hx])) (by omega) (by
          intro k hk
          rw [moveDown_eq _ _ _ _ _ (by omega), if_neg (by omega), ha k (by omega)])
      refine ⟨a', s', ?_, ?_⟩
      · rw [sliceLoop.eq_def]
        simp only [if_neg hdr, hn, if_pos hn2, h1]
      · rw [h2, List.tail_cons]
        have hk : kept b.dims (d + 1) ds = (b.dims.take next).drop (d + 1) ++ kept b.dims (next + 1) ds.tail := by
          cases ds with
          | nil => simp at hn; subst hn; simp [kept, Buf.rank]
          | cons x xs => simp at hn; subst hn; simp [kept]
        rw [hk, ← List.append_assoc, take_drop_eq b _ _ hn2.2]
        congr 1
        apply List.ext_getElem
        · simp; omega
        · intro n g1 g2
          simp at g1
          rw [List.getElem_append]
          simp only [List.getElem_map, List.getElem_range, List.length_map, List.length_range]
          rw [moveDown_eq _ _ _ _ _ (by omega)]
          by_cases hc : n < d - (lead + s)
          · rw [dif_pos hc, if_neg (by omega)]
          · rw [dif_neg hc, if_pos (by omega), ha _ (by omega)]
            congr 1; omega

theorem kept_lead (l : List Dim) : ∀ (ds : List Nat) (n m : Nat), n ≤ m → m ≤ countLeading n ds →
    kept l n ds = kept l m (ds.drop (m - n))
  | [], n, m, h, h' => by simp [countLeading] at h'; simp [show m = n by omega]
  | d :: ds, n, m, h, h' => by
    by_cases hm : m = n
    · simp [hm]
    · simp only [countLeading] at h'
      split at h'
      · rename_i hd; subst hd
        rw [kept]
        have := kept_lead l ds (d + 1) m (by omega) h'
        rw [this, show m - d = (m - (d + 1)) + 1 by omega, List.drop_succ_cons]
        simp
      · omega

theorem countLeading_drop : ∀ (ds : List Nat) (n m : Nat), n ≤ m → m ≤ countLeading n ds → ds.Pairwise (· < ·) →
    (∀ d ∈ ds, n ≤ d) → ∀ d ∈ ds.drop (m - n), m ≤ d
  | [], _, _, _, _, _, _ => by simp
  | d :: ds, n, m, h, h', hp, hn => by
    rw [List.pairwise_cons] at hp
    by_cases hm : m = n
    · subst hm; simpa using hn
    · simp only [countLeading] at h'
      split at h'
      · rename_i hd; subst hd
        rw [show m - d = (m - (d + 1)) + 1 by omega, List.drop_succ_cons]
        exact countLeading_drop ds (d + 1) m (by omega) h' hp.2 (fun x hx => hp.1 x hx)
      · omega

/-- C20: slicing several dimensions (in ascending order, none beyond the first implicit one) at once equals slicing them one
at a time, from the last to the first. -/
theorem slice_many (b : Buf) (ds : List Nat) (hp : ds.Pairwise (· < ·)) (hr : ∀ d ∈ ds, d ≤ b.rank) :
    b.sliceDims ds = some (ds.foldr (fun d b => b.sliceDim d) b) := by
  have key : ∀ ds : List Nat, ds.Pairwise (· < ·) → (∀ d ∈ ds, d ≤ b.rank) →
      ((sliceLoop b.rank (ds.drop (min (countLeading 0 ds) b.rank)) 0 b.dim).map fun (p : (Nat → Dim) × Nat) =>
      (Buf.mk b.base b.elem ((List.range (b.rank - (min (countLeading 0 ds) b.rank + p.2))).map
          (fun k => p.1 (min (countLeading 0 ds) b.rank + k))))) =
        some (ds.foldr (fun d b => b.sliceDim d) b) := by
    intro ds hp hr
    obtain ⟨lead, hlead⟩ : ∃ lead, min (countLeading 0 ds) b.rank = lead := ⟨_, rfl⟩
    rw [hlead]
    have hl1 : lead ≤ countLeading 0 ds := by omega
    have hl2 : lead ≤ b.rank := by omega
    have hge := countLeading_drop ds 0 lead (by omega) hl1 hp (by simp)
    rw [Nat.sub_zero] at hge
    obtain ⟨d0, hd0⟩ : ∃ d0, (ds.drop lead).head?.getD b.rank = d0 := ⟨_, rfl⟩
    have hd0' : lead ≤ d0 ∧ d0 ≤ b.rank := by
      cases hds : ds.drop lead with
      | nil => rw [hds] at hd0; simp at hd0; omega
      | cons x xs =>
        rw [hds] at hd0; simp at hd0; subst hd0
        exact ⟨hge _ (by rw [hds]; simp), hr _ (List.mem_of_mem_drop (by rw [hds]; simp))⟩
    obtain ⟨a', s', h1, h2⟩ := sliceLoop_eq b lead (ds.drop lead) 0 b.dim d0 hd0 (hp.sublist (List.drop_sublist _ _))
      (fun d hd => hr d (List.mem_of_mem_drop hd)) (by omega) (fun _ _ => rfl)
    rw [h1, foldr_sliceDim, foldr_eraseIdx _ ds 0 (by simp) hp, kept_lead _ ds 0 lead (by omega) hl1]
    simp only [Option.map_some, h2, List.take_zero, List.nil_append, Nat.sub_zero, Nat.add_zero]
    rw [← take_drop_eq b _ _ hd0'.2]
    cases hds : ds.drop lead with
    | nil => rw [hds] at hd0; simp at hd0; subst hd0; simp [kept, Buf.rank]
    | cons x xs => rw [hds] at hd0; simp at hd0; subst hd0; simp [kept]
  match ds with
  | [] => exact key [] hp hr
  | [d] => simp [Buf.sliceDims]
  | d :: e :: ds => exact key (d :: e :: ds) hp hr

/-- The full claim of C20 fails when a dimension that exists is followed by one beyond the first implicit one: the assertion
`next_d <= rank` of `slice` fails (and without assertions, it reads `dims` out of bounds). One at a time, the same slices
are allowed. -/
theorem slice_many_beyond_rank :
    (⟨some 0, 1, [⟨0, 1, 1, -1⟩, ⟨0, 1, 2, -1⟩, ⟨0, 1, 4, -1⟩]⟩ : Buf).sliceDims [1, 4] = none := by decide

example : (⟨some 0, 1, [⟨0, 1, 1, -1⟩, ⟨0, 2, 2, -1⟩, ⟨0, 3, 4, -1⟩, ⟨0, 4, 5, -1⟩]⟩ : Buf).sliceDims [0, 2] =
    some ⟨some 0, 1, [⟨0, 2, 2, -1⟩, ⟨0, 4, 5, -1⟩]⟩ ∧
  ((⟨some 0, 1, [⟨0, 1, 1, -1⟩, ⟨0, 2, 2, -1⟩]⟩ : Buf).slice 1 2).address [1] = some 5 := by decide

/-! ## C21: translate -/

/-- C21: translating shifts all indices without moving elements: the tuple `is`, shifted by `os`, refers to the address that
`is` referred to, for unfolded dimensions. -/
theorem translate_address (b b' : Buf) (os is : List Int) (h : b.translate os = some b') (hl : is.length = os.length)
    (hu : ∀ d ∈ b.dims, d.fold = Dim.unfolded ∨ d.stride = 0) :
    b'.address (List.zipWith (· + ·) is os) = b.address is ∧
      (b'.contains (List.zipWith (· + ·) is os) = b.contains is) ∧
      ∀ j, b'.dim j = (b.dim j).translate (os.getD j 0) := by
  have key : ∀ (ds : List Dim) (os is : List Int) (ds' : List Dim), Buf.translateL ds os = some ds' →
      is.length = os.length → (∀ d ∈ ds, d.fold = Dim.unfolded ∨ d.stride = 0) →
      Buf.offset ds' (List.zipWith (· + ·) is os) = Buf.offset ds is ∧
      Buf.containsL ds' (List.zipWith (· + ·) is os) = Buf.containsL ds is ∧
      ∀ j, (ds'[j]?) = (ds[j]?).map (fun d : Dim => d.translate (os.getD j 0)) := by
    intro ds
    induction ds with
    | nil =>
      intro os is ds' h hl _
      cases os with
      | nil => simp [Buf.translateL] at h; subst h; simp [Buf.offset, Buf.containsL]
      | cons o os => simp [Buf.translateL] at h
    | cons d ds ih =>
      intro os is ds' h hl hu
      cases os with
      | nil =>
        simp [Buf.translateL] at h; subst h
        simp at hl; subst hl
        simp [Buf.offset, Buf.containsL, Dim.translate]
      | cons o os =>
        cases is with
        | nil => simp at hl
        | cons i is =>
          simp [Buf.translateL] at h
          obtain ⟨ds1, h1, rfl⟩ := h
          obtain ⟨e1, e2, e3⟩ := ih os is ds1 h1 (by simpa using hl) (fun x hx => hu x (by simp [hx]))
          have hd := hu d (by simp)
          refine ⟨?_, ?_, ?_⟩
          · simp only [List.zipWith_cons_cons, Buf.offset, e1]
            congr 1
            rcases hd with hd | hd <;> simp [Dim.flatOffset, Dim.translate, hd]
          · simp only [List.zipWith_cons_cons, Buf.containsL, e2]
            congr 1
            have g1 : (d.min + o ≤ i + o) ↔ d.min ≤ i := by omega
            have g2 : (i + o ≤ d.max + o) ↔ i ≤ d.max := by omega
            rw [Bool.eq_iff_iff, dim_contains_iff, dim_contains_iff]
            simp only [Dim.translate, g1, g2]
          · intro j
            cases j with
            | zero => simp
            | succ j => simpa using e3 j
  simp only [Buf.translate, Option.map_eq_some_iff] at h
  obtain ⟨ds', h1, rfl⟩ := h
  obtain ⟨e1, e2, e3⟩ := key b.dims os is ds' h1 hl hu
  refine ⟨?_, e2, ?_⟩
  · simp [Buf.address, e1]
  · intro j
    simp only [Buf.dim, e3 j]
    cases hj : b.dims[j]? with
    | none =>
      simp [Dim.translate, Dim.broadcast]
      have : ∀ (ds : List Dim) (os : List Int) ds', Buf.translateL ds os = some ds' → os.length ≤ ds.length := by
        intro ds
        induction ds with
        | nil => intro os ds' h; cases os <;> simp [Buf.translateL] at h ⊢
        | cons d ds ih =>
          intro os ds' h
          cases os with
          | nil => simp
          | cons o os =>
            simp [Buf.translateL] at h
            obtain ⟨x, hx, _⟩ := h
            simpa using ih os x hx
      have := this _ _ _ h1
      simp at hj
      rw [List.getElem?_eq_none (by omega)]; rfl
    | some d => simp

/-- For a folded dimension, translating keeps the elements in place only when the offset is a multiple of the fold factor. -/
theorem translate_folded (d : Dim) (o i : Int) (hf : d.fold ∣ o) : (d.translate o).flatOffset (i + o) = d.flatOffset i := by
  have : (i + o) % d.fold = i % d.fold := by
    obtain ⟨k, rfl⟩ := hf; simp
  unfold Dim.flatOffset Dim.translate
  simp only [this]
  split
  · congr 1; ring
  · rfl

/-- ... and otherwise it does not: the full claim of C21 about `translate` fails for folded dimensions. -/
theorem translate_folded_counterexample :
    ((⟨0, 3, 4, 4⟩ : Dim).translate 1).flatOffset (2 + 1) ≠ (⟨0, 3, 4, 4⟩ : Dim).flatOffset 2 := by decide

/-! ## C39: folding -/

/-- C39: in a folded dimension, two indices share storage iff they are congruent modulo the fold factor. -/
theorem fold_share_iff (d : Dim) (i j : Int) (hs : d.stride ≠ 0) (hf : 0 < d.fold) :
    d.flatOffset i = d.flatOffset j ↔ i % d.fold = j % d.fold := by
  have hu : ¬ (d.stride = 0 ∨ d.fold = Dim.unfolded) := by unfold Dim.unfolded; omega
  simp only [Dim.flatOffset, hu, if_false]
  constructor
  · intro h; exact Int.eq_of_mul_eq_mul_right hs h
  · intro h; rw [h]

/-- C39: two different indices in a window of at most `fold` consecutive positions never share storage, whatever the
position of the window; the offsets are at least a stride apart. -/
theorem fold_window (d : Dim) (i j : Int) (hf : 0 < d.fold) (hs : d.stride ≠ 0) (hne : i ≠ j)
    (hw : i < j + d.fold ∧ j < i + d.fold) :
    |d.stride| ≤ |d.flatOffset i - d.flatOffset j| := by
  have hu : ¬ (d.stride = 0 ∨ d.fold = Dim.unfolded) := by unfold Dim.unfolded; omega
  simp only [Dim.flatOffset, hu, if_false]
  rw [← sub_mul, abs_mul]
  have hm : i % d.fold - j % d.fold ≠ 0 := by
    intro h
    have h' : i % d.fold = j % d.fold := by omega
    have := Int.emod_emod_of_dvd
    have hd : d.fold ∣ i - j := Int.dvd_of_emod_eq_zero (by rw [Int.sub_emod, h']; simp)
    obtain ⟨k, hk⟩ := hd
    have : k = 0 := by
      by_contra hk0
      rcases lt_or_gt_of_ne hk0 with h1 | h1
      · nlinarith
      · nlinarith
    subst this; omega
  have h1 : 1 ≤ |i % d.fold - j % d.fold| := Int.one_le_abs hm
  nlinarith [abs_nonneg d.stride]

/-- C39, in terms of the contents of the buffer: writing index `j` of a folded dimension does not change the value stored at
any other index `i` of a window of at most `fold` positions that contains both (elements of at most `|stride|` bytes).
Memory is a function of byte addresses; `write mem a n v` changes the bytes `a .. a + n - 1`. -/
theorem fold_window_write (d : Dim) (base elem lo i j : Int) (mem : Int → Nat) (v : Int → Nat)
    (hf : 0 < d.fold) (he : elem ≤ |d.stride|) (hs : d.stride ≠ 0) (hne : i ≠ j)
    (hi : lo ≤ i ∧ i < lo + d.fold) (hj : lo ≤ j ∧ j < lo + d.fold) (k : Int) (hk : 0 ≤ k ∧ k < elem) :
    (fun a => if base + d.flatOffset j ≤ a ∧ a < base + d.flatOffset j + elem then v a else mem a)
      (base + d.flatOffset i + k) = mem (base + d.flatOffset i + k) := by
  have := fold_window d i j hf hs hne (by omega)
  simp only
  rw [if_neg]
  rintro ⟨h1, h2⟩
  rcases abs_cases (d.flatOffset i - d.flatOffset j) with ⟨h, _⟩ | ⟨h, _⟩ <;> rw [h] at this <;> omega

/-- Conversely a window of more than `fold` positions has two indices that share storage. -/
theorem fold_window_sharp (d : Dim) (lo : Int) (hf : 0 < d.fold) (hs : d.stride ≠ 0) :
    d.flatOffset lo = d.flatOffset (lo + d.fold) :=
  (fold_share_iff d _ _ hs hf).2 (by simp)

/-- `is_folded(min, max)` is true exactly when the interval crosses a multiple of the fold factor; if it does not, the
addresses of the interval are at consecutive multiples of the stride. -/
theorem isFolded_iff (d : Dim) (a b : Int) (hf : 0 < d.fold) (hs : d.stride ≠ 0) (hab : a ≤ b) :
    d.isFolded a b = false ↔ ∀ i, a ≤ i → i ≤ b → d.flatOffset i = d.flatOffset a + (i - a) * d.stride := by
  have hu : ¬ (d.stride = 0 ∨ d.fold = Dim.unfolded) := by unfold Dim.unfolded; omega
  have hu' : ¬ (d.stride = 0 ∨ d.fold ≤ 0) := by omega
  simp only [Dim.isFolded, hu', if_false, Dim.flatOffset, hu, decide_eq_false_iff_not, not_not]
  have e : ∀ i, i % d.fold = i - d.fold * (i / d.fold) := fun i => by
    have := Int.emod_add_mul_ediv i d.fold; linarith
  constructor
  · intro h i h1 h2
    have h3 : a / d.fold ≤ i / d.fold := Int.ediv_le_ediv hf h1
    have h4 : i / d.fold ≤ b / d.fold := Int.ediv_le_ediv hf h2
    have h5 : i / d.fold = a / d.fold := by omega
    rw [e i, e a, h5]; ring
  · intro h
    have := h b hab le_rfl
    rw [e a, e b] at this
    have h2 : d.stride * (d.fold * (a / d.fold - b / d.fold)) = 0 := by linear_combination this
    rcases mul_eq_zero.1 h2 with h3 | h3
    · exact absurd h3 hs
    · rcases mul_eq_zero.1 h3 with h4 | h4 <;> omega

example : (⟨0, 99, 40, 3⟩ : Dim).flatOffset 7 = 40 ∧ (⟨0, 99, 40, 3⟩ : Dim).flatOffset 4 = 40 ∧
  (⟨0, 99, 40, 3⟩ : Dim).isFolded 3 5 = false ∧ (⟨0, 99, 40, 3⟩ : Dim).isFolded 4 6 = true := by decide

end Slinky
