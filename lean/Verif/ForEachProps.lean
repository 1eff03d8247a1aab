import Verif.ForEach
import Verif.BufferProps
import Verif.StridesProps
import Mathlib.Data.List.Perm.Basic
import Mathlib.Data.Multiset.Bind
import Mathlib.Tactic.Ring
import Mathlib.Tactic.Linarith

/-! # C24, C25: lemmas about the loops of `for_each_element` and `for_each_contiguous_slice` -/

namespace Slinky
namespace FE

/-- The pointer of a buffer at the index `i` of a dimension; null if it is out of bounds. -/
def ptr1 (d : Dim) (p : Option Int) (i : Int) : Option Int := if d.contains i then offs p (d.flatOffset i) else none

@[simp] theorem offs_none (o : Int) : offs none o = none := rfl
@[simp] theorem offs_zero (p : Option Int) : offs p 0 = p := by cases p <;> simp [offs]
theorem offs_offs (p : Option Int) (a b : Int) : offs (offs p a) b = offs p (a + b) := by
  cases p <;> simp [offs, add_assoc]
@[simp] theorem ptr1_none (d : Dim) (i : Int) : ptr1 d none i = none := by simp [ptr1]
theorem ptr1_offs (d : Dim) (p : Option Int) (i v : Int) : ptr1 d (offs p v) i = offs (ptr1 d p i) v := by
  unfold ptr1; split
  · rw [offs_offs, offs_offs, add_comm]
  · rfl
theorem ptr1_stride0 {d : Dim} (h : d.stride = 0) (p : Option Int) (i : Int) : ptr1 d p i = p := by
  simp [ptr1, Dim.contains, Dim.containsI, Dim.flatOffset, h]
@[simp] theorem ptr1_broadcast (p : Option Int) (i : Int) : ptr1 .broadcast p i = p := ptr1_stride0 rfl p i

/-! ### Lists -/

/-- The integers from `lo` to `hi`. -/
def rng (lo hi : Int) : List Int := (List.range (hi - lo + 1).toNat).map fun j : Nat => lo + j

theorem mem_rng {lo hi x : Int} : x ∈ rng lo hi ↔ lo ≤ x ∧ x ≤ hi := by
  simp only [rng, List.mem_map, List.mem_range]
  constructor
  · rintro ⟨j, h, rfl⟩; omega
  · intro h; exact ⟨(x - lo).toNat, by omega, by omega⟩

theorem rng_empty {lo hi : Int} (h : hi < lo) : rng lo hi = [] := by
  have : (hi - lo + 1).toNat = 0 := by omega
  simp [rng, this]

theorem rng_append {a b c : Int} (h1 : a ≤ b + 1) (h2 : b ≤ c) : rng a b ++ rng (b + 1) c = rng a c := by
  unfold rng
  have e : (c - a + 1).toNat = (b - a + 1).toNat + (c - (b + 1) + 1).toNat := by omega
  rw [e, List.range_add, List.map_append, List.map_map]
  congr 1
  apply List.map_congr_left
  intro j _
  simp only [Function.comp, Nat.cast_add]
  omega

theorem rng_nodup (lo hi : Int) : (rng lo hi).Nodup :=
  List.nodup_range.map fun a b h => by simpa using h

theorem perm_flatMap_comm {α β γ : Type} (l : List α) (m : List β) (f : α → β → List γ) :
    (l.flatMap fun a => m.flatMap fun b => f a b).Perm (m.flatMap fun b => l.flatMap fun a => f a b) := by
  rw [← Multiset.coe_eq_coe]
  simp only [← Multiset.coe_bind]
  exact Multiset.bind_bind _ _

theorem perm_flatMap_congr {α γ : Type} {l : List α} {f g : α → List γ} (h : ∀ a ∈ l, (f a).Perm (g a)) :
    (l.flatMap f).Perm (l.flatMap g) := by
  induction l with
  | nil => exact .refl _
  | cons a l ih =>
    simp only [List.flatMap_cons]
    exact (h a (by simp)).append (ih fun b hb => h b (by simp [hb]))

theorem flatMap_congr' {α γ : Type} {l : List α} {f g : α → List γ} (h : ∀ a ∈ l, f a = g a) : l.flatMap f = l.flatMap g := by
  induction l with
  | nil => rfl
  | cons a l ih => simp only [List.flatMap_cons, h a (by simp), ih fun b hb => h b (by simp [hb])]

/-- Two nested loops are one loop. -/
theorem flatMap_range_mul {γ : Type} (m n : Nat) (f : Nat → List γ) :
    ((List.range m).flatMap fun j => (List.range n).flatMap fun i => f (j * n + i)) = (List.range (m * n)).flatMap f := by
  induction m with
  | zero => simp
  | succ m ih =>
    rw [List.range_succ, List.flatMap_append, ih, Nat.succ_mul, List.range_add, List.flatMap_append, List.flatMap_map]
    simp

/-! ### Operations on the pointers of all the buffers -/

section
variable (bs : Bufs)

/-- Apply a function to the pointer of each buffer. -/
def mapB (f : Buf → Option Int → Option Int) (B : Ptrs) : Ptrs := List.zipWith f bs.all B
/-- The pointers at the index `i` of the dimension `d`. -/
def atD (d : Nat) (i : Int) (B : Ptrs) : Ptrs := mapB bs (fun b p => ptr1 (b.dim d) p i) B
/-- Move the pointers. -/
def shiftB (v : Buf → Int) (B : Ptrs) : Ptrs := mapB bs (fun b p => offs p (v b)) B

/-- There is one pointer per buffer, and it is null if the base of the buffer is. -/
structure Fits (B : Ptrs) : Prop where
  len : B.length = bs.all.length
  null : ∀ q ∈ bs.all.zip B, q.1.base = none → q.2 = none

end

section
variable {bs : Bufs}

theorem zipWith_congr' {α β γ : Type} {f g : α → β → γ} : ∀ {l : List α} {m : List β}, (∀ q ∈ l.zip m, f q.1 q.2 = g q.1 q.2) →
    List.zipWith f l m = List.zipWith g l m
  | [], _, _ => by simp
  | _ :: _, [], _ => by simp
  | a :: l, b :: m, h => by
    simp only [List.zipWith_cons_cons]
    rw [h (a, b) (by simp), zipWith_congr' fun q hq => h q (by simp [hq])]

theorem zipWith_zipWith_self {α β : Type} (f g : α → β → β) : ∀ (l : List α) (m : List β),
    List.zipWith f l (List.zipWith g l m) = List.zipWith (fun a b => f a (g a b)) l m
  | [], _ => by simp
  | _ :: _, [] => by simp
  | a :: l, b :: m => by simp [zipWith_zipWith_self f g l m]

theorem mapB_mapB (f g : Buf → Option Int → Option Int) (B : Ptrs) : mapB bs f (mapB bs g B) = mapB bs (fun b p => f b (g b p)) B :=
  zipWith_zipWith_self f g _ _

theorem mapB_congr {B : Ptrs} (hB : Fits bs B) {f g : Buf → Option Int → Option Int} (h0 : ∀ b ∈ bs.all, f b none = g b none)
    (h : ∀ b ∈ bs.all, b.base.isSome → ∀ p, f b p = g b p) : mapB bs f B = mapB bs g B := by
  refine zipWith_congr' fun q hq => ?_
  have hm := (List.of_mem_zip (show (q.1, q.2) ∈ bs.all.zip B from hq)).1
  cases hb : q.1.base with
  | none => rw [hB.null q hq hb]; exact h0 _ hm
  | some _ => exact h _ hm (by simp [hb]) _

theorem mapB_id {B : Ptrs} (hB : Fits bs B) : mapB bs (fun _ p => p) B = B := by
  have : ∀ {l : List Buf} {B : Ptrs}, B.length = l.length → List.zipWith (fun _ p => p) l B = B := by
    intro l
    induction l with
    | nil => intro B h; simp at h; simp [h]
    | cons a l ih => intro B h; cases B with
      | nil => simp at h
      | cons b B => simp at h; simp [ih h]
  exact this hB.len

theorem mem_zip_zipWith {α β : Type} {f : α → β → β} : ∀ {l : List α} {m : List β} {q : α × β}, q ∈ l.zip (List.zipWith f l m) →
    ∃ p, (q.1, p) ∈ l.zip m ∧ q.2 = f q.1 p
  | [], _, _, h => by simp at h
  | _ :: _, [], _, h => by simp at h
  | a :: l, b :: m, q, h => by
    simp only [List.zipWith_cons_cons, List.zip_cons_cons, List.mem_cons] at h ⊢
    rcases h with rfl | h
    · exact ⟨b, by simp, rfl⟩
    · obtain ⟨p, h1, h2⟩ := mem_zip_zipWith h
      exact ⟨p, .inr h1, h2⟩

theorem Fits.mapB {B : Ptrs} (hB : Fits bs B) {f : Buf → Option Int → Option Int} (h0 : ∀ b, f b none = none) : Fits bs (mapB bs f B) := by
  refine ⟨by simp [FE.mapB, hB.len], fun q hq hb => ?_⟩
  obtain ⟨p, h1, h2⟩ := mem_zip_zipWith hq
  have h3 : p = none := hB.null _ h1 hb
  rw [h2, h3, h0]

theorem Fits.atD {B : Ptrs} (hB : Fits bs B) (d : Nat) (i : Int) : Fits bs (atD bs d i B) := hB.mapB fun _ => ptr1_none _ _
theorem Fits.shiftB {B : Ptrs} (hB : Fits bs B) (v : Buf → Int) : Fits bs (shiftB bs v B) := hB.mapB fun _ => rfl

theorem atD_shiftB (d : Nat) (i : Int) (v : Buf → Int) (B : Ptrs) : atD bs d i (shiftB bs v B) = shiftB bs v (atD bs d i B) := by
  simp only [atD, shiftB, mapB_mapB, ptr1_offs]

theorem shiftB_shiftB (v w : Buf → Int) (B : Ptrs) : shiftB bs v (shiftB bs w B) = shiftB bs (fun b => w b + v b) B := by
  simp only [shiftB, mapB_mapB, offs_offs]

theorem shiftB_zero {B : Ptrs} (hB : Fits bs B) {v : Buf → Int} (h : ∀ b, v b = 0) : shiftB bs v B = B := by
  simp only [shiftB, h, offs_zero]; exact mapB_id hB

theorem shiftB_congr {B : Ptrs} (hB : Fits bs B) {v w : Buf → Int} (h : ∀ b ∈ bs.all, b.base.isSome → v b = w b) :
    shiftB bs v B = shiftB bs w B := mapB_congr hB (fun _ _ => rfl) fun b hb hs p => by rw [h b hb hs]

/-! ### Specification: the pointers at all indices -/

variable (bs) in
/-- The pointers at all the indices of the first `k` dimensions. -/
def enumB : Nat → Ptrs → List Ptrs
  | 0, B => [B]
  | d + 1, B => (rng (bs.first.dim d).min (bs.first.dim d).max).flatMap fun i => enumB d (atD bs d i B)

theorem enumB_shift (v : Buf → Int) : ∀ (k : Nat) (B : Ptrs), enumB bs k (shiftB bs v B) = (enumB bs k B).map (shiftB bs v)
  | 0, B => rfl
  | d + 1, B => by
    simp only [enumB, List.map_flatMap, atD_shiftB, enumB_shift v d]

/-! ### Loops -/

theorem increment_eq (s : Buf → Int) (B : Ptrs) : increment B (bs.all.map s) = shiftB bs s B := by
  simp only [increment, shiftB, mapB, List.zipWith_map_right]
  exact List.zipWith_comm

theorem steps_eq {α : Type} (f : Ptrs → List α) (s : Buf → Int) : ∀ (n : Nat) {B : Ptrs}, Fits bs B →
    steps f (bs.all.map s) n B = (List.range (n + 1)).flatMap fun j : Nat => f (shiftB bs (fun b => j * s b) B)
  | 0, B, hB => by simp [steps, shiftB_zero hB]
  | n + 1, B, hB => by
    rw [steps, increment_eq, steps_eq f s n (hB.shiftB s), List.range_succ_eq_map (n := n + 1), List.flatMap_cons, List.flatMap_map]
    congr 1
    · rw [shiftB_zero hB]; simp
    · refine flatMap_congr' fun j _ => ?_
      rw [shiftB_shiftB]
      congr 2
      funext b
      push_cast; ring

theorem doWhile_eq {α : Type} {e : Int} (he : 1 ≤ e) {B : Ptrs} (hB : Fits bs B) (s : Buf → Int) (f : Ptrs → List α) :
    doWhile e B (bs.all.map s) f = (List.range e.toNat).flatMap fun j : Nat => f (shiftB bs (fun b => j * s b) B) := by
  rw [doWhile, steps_eq f s _ hB, show (e - 1).toNat + 1 = e.toNat by omega]

/-! ### Linear dimensions -/

/-- The fold factor is one that the code supports. -/
def OkDim (d : Dim) : Prop := d.Valid ∨ d.stride = 0

theorem okDim_broadcast : OkDim .broadcast := .inr rfl

theorem flat_linear {d : Dim} (hd : OkDim d) {lo hi x y : Int} (hf : d.isFolded lo hi = false) (h1 : lo ≤ x) (h2 : x ≤ y) (h3 : y ≤ hi) :
    d.flatOffset y = d.flatOffset x + (y - x) * d.stride := by
  unfold Dim.flatOffset
  by_cases hs : d.stride = 0
  · simp [hs]
  by_cases hu : d.fold = Dim.unfolded
  · simp only [hu, or_true, if_true]; ring
  have hp : 0 < d.fold := by
    rcases hd with hd | hd
    · rcases hd with hd | hd
      · exact absurd hd hu
      · exact hd
    · exact absurd hd hs
  simp only [hs, hu, or_self, if_false]
  have hq : lo / d.fold = hi / d.fold := by
    simp only [Dim.isFolded, hs, false_or] at hf
    rw [if_neg (by omega)] at hf
    simpa using hf
  have a1 := Int.ediv_le_ediv hp h1
  have a2 := Int.ediv_le_ediv hp h2
  have a3 := Int.ediv_le_ediv hp h3
  have e : x / d.fold = y / d.fold := by omega
  have b1 := Int.mul_ediv_add_emod x d.fold
  have b2 := Int.mul_ediv_add_emod y d.fold
  rw [e] at b1
  have : y % d.fold = x % d.fold + (y - x) := by linarith
  rw [this]; ring

/-- The dimensions of the buffers are ones that the code supports. -/
def OkBufs (bs : Bufs) : Prop := ∀ b ∈ bs.all, ∀ d ∈ b.dims, OkDim d

theorem OkBufs.dim (h : OkBufs bs) {b : Buf} (hb : b ∈ bs.all) (d : Nat) : OkDim (b.dim d) := by
  unfold Buf.dim
  cases hd : b.dims[d]? with
  | none => exact okDim_broadcast
  | some dd => exact h b hb dd (List.mem_of_getElem? hd)

theorem dim_beyond {b : Buf} {d : Nat} (h : b.rank ≤ d) : b.dim d = .broadcast := by
  unfold Buf.dim
  rw [List.getElem?_eq_none (by simpa [Buf.rank] using h)]; rfl

/-- The dimension does not need a nonlinear loop. -/
def Linear (bs : Bufs) (d : Nat) : Prop :=
  (bs.first.dim d).min = (bs.first.dim d).max ∨ ((bs.first.dim d).min < (bs.first.dim d).max ∧ useNonlinear bs d = false)

theorem Linear.other {d : Nat} (hne : (bs.first.dim d).min < (bs.first.dim d).max ∧ useNonlinear bs d = false) {b : Buf} (hb : b ∈ bs.all)
    (hs : b.base.isSome) : (b.dim d).isFolded (bs.first.dim d).min (bs.first.dim d).max = false ∧
      (b.dim d).containsI (bs.first.dim d).min (bs.first.dim d).max = true := by
  have h2 := hne.2
  simp only [useNonlinear, Bool.or_eq_false_iff] at h2
  simp only [Bufs.all, List.mem_cons] at hb
  rcases hb with rfl | hb
  · exact ⟨h2.1, by simp [Dim.containsI]⟩
  · have := h2.2
    rw [List.any_eq_false] at this
    have := this b hb
    by_cases hr : d < b.rank
    · simp only [hs, hr, decide_true, Bool.and_self, Bool.true_and, Bool.or_eq_true, Bool.not_eq_true', not_or,
        Bool.not_eq_true, Bool.not_eq_false] at this
      exact this
    · rw [dim_beyond (by omega)]
      simp [Dim.isFolded, Dim.containsI, Dim.broadcast]

theorem isFolded_first {d : Nat} (h2 : useNonlinear bs d = false) :
    (bs.first.dim d).isFolded (bs.first.dim d).min (bs.first.dim d).max = false := by
  simp only [useNonlinear, Bool.or_eq_false_iff] at h2
  exact h2.1

theorem contains_of_containsI {d : Dim} {a b x : Int} (h : d.containsI a b = true) (h1 : a ≤ x) (h2 : x ≤ b) : d.contains x = true := by
  simp only [Dim.contains, Dim.containsI, Bool.or_eq_true, Bool.and_eq_true, decide_eq_true_eq] at h ⊢
  omega

/-- In a linear dimension, the pointers move by the stride. -/
theorem atD_linear (hv : OkBufs bs) {d : Nat} (hl : Linear bs d) {B : Ptrs} (hB : Fits bs B) {i : Int}
    (hi : (bs.first.dim d).min ≤ i ∧ i ≤ (bs.first.dim d).max) :
    atD bs d i B = shiftB bs (fun b => (i - (bs.first.dim d).min) * (b.dim d).stride) (atD bs d (bs.first.dim d).min B) := by
  rcases hl with hl | hl
  · have : i = (bs.first.dim d).min := by omega
    rw [this, shiftB_zero (hB.atD _ _) (by simp)]
  · simp only [atD, shiftB, mapB_mapB]
    refine mapB_congr hB (fun _ _ => by simp) fun b hb hs p => ?_
    obtain ⟨h1, h2⟩ := Linear.other hl hb hs
    simp only [ptr1, contains_of_containsI h2 hi.1 hi.2, contains_of_containsI h2 le_rfl hl.1.le, if_true, offs_offs]
    rw [flat_linear (hv.dim hb d) h1 le_rfl hi.1 hi.2]

theorem alignBases_eq (hv : OkBufs bs) {d : Nat} (hl : Linear bs d) {B : Ptrs} (hB : Fits bs B) :
    alignBases bs d B = atD bs d (bs.first.dim d).min B := by
  cases B with
  | nil => simp [alignBases, atD, mapB, Bufs.all]
  | cons p ps =>
    have hrest : ∀ b ∈ bs.rest, b.base.isSome → ∀ q, alignOther (bs.first.dim d) d b q = ptr1 (b.dim d) q (bs.first.dim d).min := by
      intro b hb hs q
      cases q with
      | none => simp [alignOther]
      | some a =>
        simp only [alignOther]
        split
        · next hr =>
          have : (b.dim d).containsI (bs.first.dim d).min (bs.first.dim d).max = (b.dim d).contains (bs.first.dim d).min := by
            rcases hl with hl | hl
            · rw [← hl]; rfl
            · have := (Linear.other hl (by simp [Bufs.all, hb] : b ∈ bs.all) hs).2
              rw [this, contains_of_containsI this le_rfl hl.1.le]
          rw [this]
          simp [ptr1, offs]
        · next hr => rw [dim_beyond (by omega)]; simp
    have hfirst : (if (bs.first.dim d).fold > 0 then offs p ((bs.first.dim d).flatOffset (bs.first.dim d).min) else p) =
        ptr1 (bs.first.dim d) p (bs.first.dim d).min := by
      have hc : (bs.first.dim d).contains (bs.first.dim d).min = true := by
        rcases hl with hl | hl
        · simp [Dim.contains, Dim.containsI, hl]
        · have := hl.1.le
          simp [Dim.contains, Dim.containsI, this]
      rw [ptr1, if_pos hc]
      split
      · rfl
      · next hf =>
        have : (bs.first.dim d).flatOffset (bs.first.dim d).min = 0 := by
          rcases hv.dim (b := bs.first) (by simp [Bufs.all]) d with h | h
          · rcases h with h | h
            · simp [Dim.flatOffset, h]
            · omega
          · simp [Dim.flatOffset, h]
        rw [this, offs_zero]
    simp only [alignBases, atD, mapB, Bufs.all, List.zipWith_cons_cons, hfirst]
    congr 1
    refine zipWith_congr' fun q hq => ?_
    have hm := (List.of_mem_zip (show (q.1, q.2) ∈ bs.rest.zip ps from hq)).1
    cases hb : q.1.base with
    | none =>
      rw [hB.null q (by simp [Bufs.all]; exact .inr hq) hb]; simp [alignOther]
    | some _ => exact hrest _ hm (by simp [hb]) _

end

end FE
end Slinky
