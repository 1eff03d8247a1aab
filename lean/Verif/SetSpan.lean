import Mathlib.Order.Defs.LinearOrder
import Mathlib.Data.List.Sort
import Mathlib.Data.List.Basic
import Mathlib.Order.Lattice

/-!
# Set and span utilities

`slinky/base/set.h` and `slinky/base/span.h`.
-/

namespace Slinky

/-- `empty_intersection` (set.h:10-25): the two iterators are the two lists of elements not yet
passed. -/
def emptyIntersection {A : Type} [LinearOrder A] : List A → List A → Bool
  | [], _ => true
  | _ :: _, [] => true
  | a :: as, b :: bs =>
    if a = b then false
    else if a < b then emptyIntersection as (b :: bs)
    else emptyIntersection (a :: as) bs
termination_by as bs => as.length + bs.length

/-- `static_cast<std::size_t>(p)` for a 32-bit `int` and a 64-bit `size_t`. -/
def toSizeT (p : Int) : Nat := (p % 2 ^ 64).toNat

/-- `permute` (span.h:163-170). -/
def permute {A : Type} (p : List Int) (x : List A) (d : A) : List A :=
  p.map (fun i => if h : toSizeT i < x.length then x[toSizeT i] else d)

/-- A `span<T>`: the memory it points into, the offset and the size (span.h:68-104). -/
structure Span (A : Type) where
  mem : List A
  off : Nat
  size : Nat

/-- The elements of a span: `data_[0] .. data_[size - 1]`; `none` if outside the memory. -/
def Span.get? {A : Type} (s : Span A) (i : Nat) : Option A := if i < s.size then s.mem[s.off + i]? else none

/-- `subspan(offset)` (span.h:102); the subtraction wraps around in C++ if `offset > size`. -/
def Span.subspan {A : Type} (s : Span A) (offset : Nat) : Span A :=
  ⟨s.mem, s.off + offset, ((s.size : Int) - offset) % 2 ^ 64 |>.toNat⟩

/-- `subspan(offset, size)` (span.h:103). -/
def Span.subspan2 {A : Type} (s : Span A) (offset size : Nat) : Span A := ⟨s.mem, s.off + offset, size⟩

/-- C37: on increasing ranges, the result is true exactly if no element is common. -/
theorem emptyIntersection_correct {A : Type} [LinearOrder A] (as bs : List A)
    (ha : as.Pairwise (· ≤ ·)) (hb : bs.Pairwise (· ≤ ·)) :
    emptyIntersection as bs = true ↔ ∀ x, x ∈ as → x ∈ bs → False := by
  fun_induction emptyIntersection as bs with
  | case1 bs => simp
  | case2 a as => simp
  | case3 as b bs =>
    simp only [Bool.false_eq_true, false_iff]
    intro h
    exact h b (by simp) (by simp)
  | case4 a as b bs hne hlt ih =>
    rw [ih (List.pairwise_cons.mp ha).2 hb]
    constructor
    · intro h x hx hx'
      rcases List.mem_cons.mp hx with rfl | hx
      · rcases List.mem_cons.mp hx' with e | h'
        · exact hne e
        · exact absurd (lt_of_lt_of_le hlt ((List.pairwise_cons.mp hb).1 x h')) (lt_irrefl _)
      · exact h x hx hx'
    · intro h x hx hx'
      exact h x (List.mem_cons_of_mem _ hx) hx'
  | case5 a as b bs hne hlt ih =>
    rw [ih ha (List.pairwise_cons.mp hb).2]
    have hba : b < a := lt_of_le_of_ne (le_of_not_gt hlt) (Ne.symm hne)
    constructor
    · intro h x hx hx'
      rcases List.mem_cons.mp hx' with rfl | hx'
      · rcases List.mem_cons.mp hx with e | h'
        · exact hne e.symm
        · exact absurd (lt_of_lt_of_le hba ((List.pairwise_cons.mp ha).1 x h')) (lt_irrefl _)
      · exact h x hx hx'
    · intro h x hx hx'
      exact h x hx (List.mem_cons_of_mem _ hx')

/-- The overload for `std::set` (set.h:27-30): the elements of a set are visited in increasing order. -/
theorem emptyIntersection_sets {A : Type} [LinearOrder A] (as bs : List A)
    (ha : as.Pairwise (· < ·)) (hb : bs.Pairwise (· < ·)) :
    emptyIntersection as bs = true ↔ ∀ x, x ∈ as → x ∈ bs → False :=
  emptyIntersection_correct as bs (ha.imp le_of_lt) (hb.imp le_of_lt)

/-- `empty_intersection` is symmetric on increasing ranges. -/
theorem emptyIntersection_comm {A : Type} [LinearOrder A] (as bs : List A)
    (ha : as.Pairwise (· ≤ ·)) (hb : bs.Pairwise (· ≤ ·)) :
    emptyIntersection as bs = emptyIntersection bs as := by
  rw [Bool.eq_iff_iff, emptyIntersection_correct _ _ ha hb, emptyIntersection_correct _ _ hb ha]
  exact ⟨fun h x h1 h2 => h x h2 h1, fun h x h1 h2 => h x h2 h1⟩

/-- The hypothesis is needed: on unsorted ranges a common element can be missed. -/
theorem emptyIntersection_unsorted : emptyIntersection [2, 1] [(1 : Int)] = true := by
  simp [emptyIntersection]

example : emptyIntersection [1, 3, 5] [(2 : Int), 4, 5] = false := by simp [emptyIntersection]

theorem toSizeT_of_nonneg {p : Int} (h0 : 0 ≤ p) (h1 : p < 2 ^ 31) : toSizeT p = p.toNat := by
  unfold toSizeT; omega

theorem toSizeT_of_neg {p : Int} (h0 : p < 0) (h1 : -2 ^ 31 ≤ p) : 2 ^ 63 ≤ toSizeT p := by
  unfold toSizeT; omega

/-- C37: `permute` has one element for each index, the element of `x` at that index if there is one and
the default value otherwise, also for negative indices. -/
theorem permute_correct {A : Type} (p : List Int) (x : List A) (d : A)
    (hp : ∀ i ∈ p, -2 ^ 31 ≤ i ∧ i < 2 ^ 31) (hx : x.length < 2 ^ 63) :
    (permute p x d).length = p.length ∧
    ∀ (k : Nat) (i : Int), p[k]? = some i →
      (permute p x d)[k]? = some (if 0 ≤ i then (x[i.toNat]?).getD d else d) := by
  refine ⟨by simp [permute], ?_⟩
  intro k i hk
  have hi := hp i (List.mem_of_getElem? hk)
  simp only [permute, List.getElem?_map, hk, Option.map_some, Option.some.injEq]
  by_cases h0 : 0 ≤ i
  · rw [if_pos h0]
    have e := toSizeT_of_nonneg h0 hi.2
    split
    · next h => rw [← e, List.getElem?_eq_getElem h]; rfl
    · next h => rw [← e, List.getElem?_eq_none (by omega)]; rfl
  · rw [if_neg h0]
    have e := toSizeT_of_neg (by omega) hi.1
    rw [dif_neg (by omega)]

/-- C37: permuting by a permutation of the indices rearranges the elements, and permuting by the
identity changes nothing. -/
theorem permute_identity {A : Type} (x : List A) (d : A) (hx : x.length < 2 ^ 31) :
    permute ((List.range x.length).map Int.ofNat) x d = x := by
  apply List.ext_getElem?
  intro k
  by_cases hk : k < x.length
  · have h := (permute_correct ((List.range x.length).map Int.ofNat) x d (by
      intro i hi
      simp only [List.mem_map, List.mem_range] at hi
      obtain ⟨j, hj, rfl⟩ := hi
      constructor
      · have : (0 : Int) ≤ Int.ofNat j := Int.natCast_nonneg j
        omega
      · show ((j : Nat) : Int) < 2 ^ 31
        omega) (by omega)).2 k (k : Int) (by simp [hk])
    rw [h]
    simp [hk]
  · rw [List.getElem?_eq_none (by simp [permute]; omega), List.getElem?_eq_none (by omega)]

theorem permute_perm {A : Type} (p : List Int) (x : List A) (d : A) (hx : x.length < 2 ^ 31)
    (hp : p.Perm ((List.range x.length).map Int.ofNat)) : (permute p x d).Perm x := by
  have h1 : (permute p x d).Perm (permute ((List.range x.length).map Int.ofNat) x d) := hp.map _
  rwa [permute_identity x d hx] at h1

example : permute [2, -1, 0, 7] ["a", "b", "c"] "z" = ["c", "z", "a", "z"] := by decide

/-- C37: the elements of a sub-span are the elements of the span from `offset` on. -/
theorem subspan_correct {A : Type} (s : Span A) (offset i : Nat) (h : offset ≤ s.size) (hs : s.size < 2 ^ 64) :
    (s.subspan offset).size = s.size - offset ∧ (s.subspan offset).get? i = s.get? (offset + i) := by
  have e : (s.subspan offset).size = s.size - offset := by
    simp only [Span.subspan]; omega
  refine ⟨e, ?_⟩
  unfold Span.get?
  rw [e]
  simp only [Span.subspan]
  by_cases hi : i < s.size - offset
  · rw [if_pos hi, if_pos (by omega), Nat.add_assoc]
  · rw [if_neg hi, if_neg (by omega)]

theorem subspan2_correct {A : Type} (s : Span A) (offset size i : Nat) (h : offset + size ≤ s.size) :
    (s.subspan2 offset size).get? i = if i < size then s.get? (offset + i) else none := by
  by_cases hi : i < size
  · have : offset + i < s.size := by omega
    simp [Span.get?, Span.subspan2, hi, this, Nat.add_assoc]
  · simp [Span.get?, Span.subspan2, hi]

/-- An offset beyond the end wraps around: the size of the sub-span is huge. -/
theorem subspan_beyond : (Span.subspan (⟨["a"], 0, 1⟩ : Span String) 2).size = 2 ^ 64 - 1 := by
  decide

example : ((Span.subspan (⟨["a", "b", "c"], 0, 3⟩ : Span String) 1).get? 1) = some "c" := by decide

end Slinky
