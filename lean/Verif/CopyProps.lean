import Verif.Copy
import Verif.ForEachApi

/-! # C26: lemmas about memory, and `copy_impl` -/

namespace Slinky
namespace Copy

open FE (Ptrs)

/-- Two ranges of `e` bytes do not overlap. -/
def Apart (e a b : Int) : Prop := a + e ≤ b ∨ b + e ≤ a

theorem Apart.symm {e a b : Int} (h : Apart e a b) : Apart e b a := by unfold Apart at *; omega

/-- The memory `m'` is `m` after copying elements of `e` bytes: for each pair, from the second address to the first. -/
structure Copied (e : Int) (R : Set (Int × Int)) (m m' : Mem) : Prop where
  copied : ∀ p ∈ R, ∀ k, 0 ≤ k → k < e → m' (p.1 + k) = m (p.2 + k)
  other : ∀ a, (∀ p ∈ R, ¬ (p.1 ≤ a ∧ a < p.1 + e)) → m' a = m a

/-- The elements can be copied in any order. -/
structure Safe (e : Int) (R : Set (Int × Int)) : Prop where
  dst : ∀ p ∈ R, ∀ q ∈ R, p ≠ q → Apart e p.1 q.1
  src : ∀ p ∈ R, ∀ q ∈ R, Apart e p.1 q.2

theorem Safe.mono {e : Int} {R S : Set (Int × Int)} (h : Safe e R) (hs : S ⊆ R) : Safe e S :=
  ⟨fun p hp q hq => h.dst p (hs hp) q (hs hq), fun p hp q hq => h.src p (hs hp) q (hs hq)⟩

/-- The sources are not changed. -/
theorem Copied.agree {e : Int} {R S : Set (Int × Int)} {m m' : Mem} (h : Copied e S m m') (hs : Safe e R) (hsub : S ⊆ R) {p : Int × Int}
    (hp : p ∈ R) {k : Int} (h0 : 0 ≤ k) (hk : k < e) : m' (p.2 + k) = m (p.2 + k) := by
  apply h.other
  intro q hq
  have := hs.src q (hsub hq) p hp
  unfold Apart at this
  omega

theorem Copied.union {e : Int} {R S : Set (Int × Int)} {m m1 m2 : Mem} (hs : Safe e (R ∪ S)) (h1 : Copied e R m m1) (h2 : Copied e S m1 m2) :
    Copied e (R ∪ S) m m2 := by
  refine ⟨fun p hp k h0 hk => ?_, fun a ha => ?_⟩
  · have hS : p ∈ S → m2 (p.1 + k) = m (p.2 + k) := fun hS => by
      rw [h2.copied p hS k h0 hk, h1.agree hs Set.subset_union_left hp h0 hk]
    rcases hp with hp | hp
    · by_cases hq : ∃ q ∈ S, q.1 ≤ p.1 + k ∧ p.1 + k < q.1 + e
      · obtain ⟨q, hq, hk1, hk2⟩ := hq
        by_cases hpq : p = q
        · exact hS (hpq ▸ hq)
        · have := hs.dst p (.inl hp) q (.inr hq) hpq
          unfold Apart at this
          omega
      · rw [h2.other _ (by simpa using hq), h1.copied p hp k h0 hk]
    · exact hS hp
  · rw [h2.other a fun p hp => ha p (.inr hp), h1.other a fun p hp => ha p (.inl hp)]

theorem Copied.empty (e : Int) (m : Mem) : Copied e ∅ m m := ⟨by simp, by simp⟩

/-! ### `memcpy` and `fill` -/

/-- The elements of a run of `n` elements; the source advances by `t`. -/
def rowOf (e t d s n : Int) : Set (Int × Int) := {p | ∃ j, 0 ≤ j ∧ j < n ∧ p = (d + j * e, s + j * t)}

/-- Each byte of a row is in an element. -/
theorem in_row {e n x : Int} (he : 0 < e) (hx : 0 ≤ x) (hn : x < n * e) : 0 ≤ x / e ∧ x / e < n ∧ x = x / e * e + x % e ∧ 0 ≤ x % e ∧ x % e < e := by
  refine ⟨Int.ediv_nonneg hx he.le, Int.ediv_lt_of_lt_mul he hn, ?_, Int.emod_nonneg _ (by omega), Int.emod_lt_of_pos _ he⟩
  have := Int.mul_ediv_add_emod x e
  rw [mul_comm] at this
  omega

theorem memcpy_row {e d s n : Int} {m : Mem} (he : 0 < e) (hs : Safe e (rowOf e e d s n)) :
    ∃ m', memcpy (some d) (some s) (n * e) m = some m' ∧ Copied e (rowOf e e d s n) m m' := by
  simp only [memcpy]
  have hno : n * e ≤ 0 ∨ d + n * e ≤ s ∨ s + n * e ≤ d := by
    by_contra hc
    simp only [not_or, not_le] at hc
    obtain ⟨h0, h1, h2⟩ := hc
    -- the byte at the larger of the two pointers is in both rows
    have hx : ∃ x, d ≤ x ∧ x < d + n * e ∧ s ≤ x ∧ x < s + n * e := ⟨max d s, by omega, by omega, by omega, by omega⟩
    obtain ⟨x, x1, x2, x3, x4⟩ := hx
    obtain ⟨a1, a2, a3, a4, a5⟩ := in_row (n := n) he (show 0 ≤ x - d by omega) (by omega)
    obtain ⟨b1, b2, b3, b4, b5⟩ := in_row (n := n) he (show 0 ≤ x - s by omega) (by omega)
    have := hs.src (d + (x - d) / e * e, s + (x - d) / e * e) ⟨_, a1, a2, rfl⟩ (d + (x - s) / e * e, s + (x - s) / e * e) ⟨_, b1, b2, rfl⟩
    unfold Apart at this
    simp only at this
    omega
  rw [if_pos hno]
  refine ⟨_, rfl, ?_, ?_⟩
  · rintro p ⟨j, hj0, hjn, rfl⟩ k h0 hk
    have h1 : 0 ≤ j * e := mul_nonneg hj0 he.le
    have h2 : (j + 1) * e ≤ n * e := mul_le_mul_of_nonneg_right (by omega) he.le
    rw [add_mul] at h2
    simp only
    rw [if_pos ⟨by omega, by omega⟩]
    congr 1
    omega
  · intro a ha
    split
    · next h =>
      exfalso
      obtain ⟨a1, a2, a3, a4, a5⟩ := in_row (n := n) he (show 0 ≤ a - d by omega) (by omega)
      exact ha (d + (a - d) / e * e, _) ⟨_, a1, a2, rfl⟩ (by simp only; omega)
    · rfl

/-- The byte `k` of a value. -/
def Val.byte (v : Val) (m : Mem) (k : Int) : UInt8 :=
  match v with
  | .ptr p => m (p.getD 0 + k)
  | .buf l => (l[k.toNat]?).getD 0

/-- The value has `e` bytes that are not in the range that is filled. -/
def Val.Ok (v : Val) (e d size : Int) : Prop :=
  match v with
  | .ptr p => ∃ s, p = some s ∧ (d + size ≤ s ∨ s + e ≤ d)
  | .buf l => e ≤ l.length

theorem memcpyVal_ok {v : Val} {e d size n : Int} {m : Mem} (hv : v.Ok e d size) (hn : n ≤ e) (hns : n ≤ size) :
    memcpyVal (some d) v n m = some fun a => if d ≤ a ∧ a < d + n then v.byte m (a - d) else m a := by
  cases v with
  | ptr p =>
    obtain ⟨s, rfl, hs⟩ := hv
    simp only [memcpyVal, memcpy, Val.byte, Option.getD_some]
    rw [if_pos (by omega)]
  | buf l =>
    simp only [memcpyVal, Val.byte]
    rw [if_pos (by unfold Val.Ok at hv; simp only at hv; omega)]

theorem Val.byte_congr {v : Val} {e d size : Int} (hv : v.Ok e d size) {m m' : Mem} (h : ∀ a, ¬ (d ≤ a ∧ a < d + size) → m' a = m a)
    {k : Int} (h0 : 0 ≤ k) (hk : k < e) : v.byte m' k = v.byte m k := by
  cases v with
  | ptr p =>
    obtain ⟨s, rfl, hs⟩ := hv
    simp only [Val.byte, Option.getD_some]
    exact h _ (by omega)
  | buf l => rfl

theorem fillLoop_ok {v : Val} {e : Int} (he : 0 < e) : ∀ (n : Nat) {d size : Int} {m : Mem}, size.toNat ≤ n → 0 ≤ size → v.Ok e d size →
    fillLoop v e n (some d) size m = some fun a => if d ≤ a ∧ a < d + size then v.byte m ((a - d) % e) else m a
  | 0, d, size, m, hn, h0, hv => by
    have : size = 0 := by omega
    subst this
    simp only [fillLoop]
    rw [memcpyVal_ok hv (by omega) le_rfl]
    congr 1
    funext a
    rw [if_neg (by omega), if_neg (by omega)]
  | n + 1, d, size, m, hn, h0, hv => by
    simp only [fillLoop]
    split
    · next hge =>
      rw [memcpyVal_ok hv le_rfl hge]
      simp only [Option.bind_some, FE.offs, Option.map_some]
      have hv' : v.Ok e (d + e) (size - e) := by
        cases v with
        | ptr p => obtain ⟨s, rfl, hs⟩ := hv; exact ⟨s, rfl, by omega⟩
        | buf l => exact hv
      rw [fillLoop_ok he n (by omega) (by omega) hv']
      congr 1
      funext a
      have hb : ∀ k, 0 ≤ k → k < e → v.byte (fun a => if d ≤ a ∧ a < d + e then v.byte m (a - d) else m a) k = v.byte m k := by
        intro k hk0 hke
        refine Val.byte_congr hv (fun a ha => ?_) hk0 hke
        rw [if_neg (by omega)]
      by_cases h1 : d + e ≤ a ∧ a < d + e + (size - e)
      · rw [if_pos h1, if_pos (by omega), hb _ (Int.emod_nonneg _ (by omega)) (Int.emod_lt_of_pos _ he)]
        congr 1
        rw [show a - d = (a - (d + e)) + e by omega, Int.add_emod_right]
      · rw [if_neg h1]
        by_cases h2 : d ≤ a ∧ a < d + e
        · rw [if_pos h2, if_pos (by omega), Int.emod_eq_of_lt (by omega) (by omega)]
        · rw [if_neg h2, if_neg (by omega)]
    · next hlt =>
      rw [memcpyVal_ok hv (by omega) le_rfl]
      congr 1
      funext a
      by_cases h : d ≤ a ∧ a < d + size
      · rw [if_pos h, if_pos h, Int.emod_eq_of_lt (by omega) (by omega)]
      · rw [if_neg h, if_neg h]

theorem fill_ok {v : Val} {e d size : Int} {m : Mem} (he : 0 < e) (h0 : 0 ≤ size) (hv : v.Ok e d size) :
    fill (some d) v e size m = some fun a => if d ≤ a ∧ a < d + size then v.byte m ((a - d) % e) else m a := by
  unfold fill
  split
  · next h1 =>
    subst h1
    have hh : v.head m = some (v.byte m 0) := by
      cases v with
      | ptr p => obtain ⟨s, rfl, -⟩ := hv; simp [Val.head, Val.byte]
      | buf l =>
        have : (1 : Int) ≤ l.length := hv
        cases l with
        | nil => simp at this
        | cons a l => simp [Val.head, Val.byte]
    rw [hh]
    simp [memset]
  · exact fillLoop_ok he _ le_rfl h0 hv

/-! ### `optimize_fill_value` -/

theorem isRepeatedByte_spec {p size : Int} {m : Mem} (h : isRepeatedByte p size m = true) {k : Int} (h0 : 0 ≤ k) (hk : k < size) :
    m (p + k) = m p := by
  simp only [isRepeatedByte, List.all_eq_true, List.mem_range, decide_eq_true_eq] at h
  by_cases hz : k = 0
  · simp [hz]
  · rw [h (k - 1).toNat (by omega)]
    congr 1
    omega

theorem duplicate_spec {target e : Int} (he : 0 < e) (b : Int → UInt8) : ∀ (n : Nat) (l : List UInt8) (elem : Int),
    0 < elem → e ∣ elem → (l.length : Int) = elem → (∀ i : Nat, i < l.length → l[i]? = some (b ((i : Int) % e))) →
    let r := duplicate target n l elem
    0 < r.2 ∧ e ∣ r.2 ∧ (r.1.length : Int) = r.2 ∧ ∀ i : Nat, i < r.1.length → r.1[i]? = some (b ((i : Int) % e))
  | 0, l, elem, h1, h2, h3, h4 => ⟨h1, h2, h3, h4⟩
  | n + 1, l, elem, h1, h2, h3, h4 => by
    simp only [duplicate]
    split
    · refine duplicate_spec he b n (l ++ l) (elem * 2) (by omega) (h2.mul_right 2) (by simp; omega) ?_
      intro i hi
      simp only [List.length_append] at hi
      by_cases hl : i < l.length
      · rw [List.getElem?_append_left hl, h4 i hl]
      · rw [List.getElem?_append_right (by omega), h4 _ (by omega)]
        congr 2
        obtain ⟨c, hc⟩ := h2
        have : (i : Int) = ((i - l.length : Nat) : Int) + e * c := by omega
        rw [this, Int.add_mul_emod_self_left]
    · exact ⟨h1, h2, h3, h4⟩

/-- The value after `optimize_fill_value` repeats the `e` bytes at `s`. -/
structure FillOk (e s : Int) (m0 : Mem) (r : Val × Int) : Prop where
  pos : 0 < r.2
  ok : ∀ d size, 0 ≤ size → d + size ≤ s ∨ s + e ≤ d → r.1.Ok r.2 d size
  byte : ∀ m : Mem, (∀ k, 0 ≤ k → k < e → m (s + k) = m0 (s + k)) → ∀ k, 0 ≤ k → r.1.byte m (k % r.2) = m0 (s + k % e)

theorem optimizeFillValue_ok {s e size : Int} {m m0 : Mem} (he : 0 < e) (ha : ∀ k, 0 ≤ k → k < e → m (s + k) = m0 (s + k)) :
    FillOk e s m0 (optimizeFillValue s e size m) := by
  unfold optimizeFillValue
  split
  · next h =>
    refine ⟨by simp, fun d size _ hd => ⟨s, rfl, by omega⟩, fun m' hm' k hk => ?_⟩
    simp only [Val.byte, Option.getD_some, Int.emod_one, add_zero]
    have h1 := Int.emod_nonneg k (show e ≠ 0 by omega)
    have h2 := Int.emod_lt_of_pos k he
    have h3 := hm' 0 le_rfl he
    have h4 := ha 0 le_rfl he
    rw [add_zero] at h3 h4
    rw [h3, ← h4, ← isRepeatedByte_spec h h1 h2, ha _ h1 h2]
  · simp only
    split
    · have hd := duplicate_spec (target := min 64 size) he (fun i => m (s + i)) 64 ((List.range e.toNat).map fun i : Nat => m (s + i)) e he dvd_rfl
        (by simp; omega) (by
          intro i hi
          simp only [List.length_map, List.length_range] at hi
          rw [List.getElem?_map, List.getElem?_range hi]
          simp only [Option.map_some]
          rw [Int.emod_eq_of_lt (by omega) (by omega)])
      simp only at hd
      obtain ⟨d1, d2, d3, d4⟩ := hd
      refine ⟨d1, fun d size _ _ => d3.symm.le, fun m' _ k hk => ?_⟩
      simp only [Val.byte]
      have h1 := Int.emod_nonneg k (ne_of_gt d1)
      have h2 := Int.emod_lt_of_pos k d1
      rw [d4 _ (by omega)]
      simp only [Option.getD_some]
      rw [Int.toNat_of_nonneg h1, Int.emod_emod_of_dvd k d2]
      exact ha _ (Int.emod_nonneg _ (by omega)) (Int.emod_lt_of_pos _ he)
    · refine ⟨he, fun d size _ hd => ⟨s, rfl, hd⟩, fun m' hm' k hk => ?_⟩
      simp only [Val.byte, Option.getD_some]
      exact hm' _ (Int.emod_nonneg _ (by omega)) (Int.emod_lt_of_pos _ he)

/-- Filling with a value copies the element to each element of the row. -/
theorem fill_row {e d s n : Int} {m m0 : Mem} {r : Val × Int} (he : 0 < e) (hn : 0 ≤ n) (hr : FillOk e s m0 r)
    (ha : ∀ k, 0 ≤ k → k < e → m (s + k) = m0 (s + k)) (hs : Safe e (rowOf e 0 d s n)) :
    ∃ m', fill (some d) r.1 r.2 (n * e) m = some m' ∧ Copied e (rowOf e 0 d s n) m m' := by
  have hne := mul_nonneg hn he.le
  have hap : d + n * e ≤ s ∨ s + e ≤ d ∨ n = 0 := by
    by_contra hc
    simp only [not_or, not_le] at hc
    obtain ⟨h1, h2, h3⟩ := hc
    have hpos : e ≤ n * e := le_mul_of_one_le_left he.le (by omega)
    -- the byte at the larger of the two pointers is in both
    have hx : ∃ x, d ≤ x ∧ x < d + n * e ∧ s ≤ x ∧ x < s + e := ⟨max d s, by omega, by omega, by omega, by omega⟩
    obtain ⟨x, x1, x2, x3, x4⟩ := hx
    obtain ⟨a1, a2, a3, a4, a5⟩ := in_row (n := n) he (show 0 ≤ x - d by omega) (by omega)
    have := hs.src (d + (x - d) / e * e, s + (x - d) / e * 0) ⟨_, a1, a2, rfl⟩ (d + (x - d) / e * e, s + (x - d) / e * 0) ⟨_, a1, a2, rfl⟩
    unfold Apart at this
    simp only at this
    omega
  by_cases h0 : n = 0
  · subst h0
    have hv : r.1.Ok r.2 (d := s + e) (size := 0) := hr.ok _ _ le_rfl (by omega)
    have hv' : r.1.Ok r.2 (d := d) (size := 0 * e) ∨ True := .inr trivial
    -- nothing is filled
    have hfill : fill (some d) r.1 r.2 (0 * e) m = some m := by
      rw [zero_mul]
      unfold fill
      split
      · next h1 =>
        have hh : ∃ b, r.1.head m = some b := by
          cases hr1 : r.1 with
          | ptr p => rw [hr1] at hv; obtain ⟨s', rfl, -⟩ := hv; exact ⟨m s', by simp [Val.head]⟩
          | buf l =>
            rw [hr1, h1] at hv
            have : (1 : Int) ≤ l.length := hv
            cases l with
            | nil => simp at this
            | cons a l => exact ⟨a, by simp [Val.head]⟩
        obtain ⟨b, hb⟩ := hh
        rw [hb]
        simp only [Option.bind_some, memset, add_zero]
        congr 1
        funext a
        rw [if_neg (by omega)]
      · rw [if_pos hr.pos]
        simp only [Int.toNat_zero, fillLoop]
        cases hr1 : r.1 with
        | ptr p =>
          rw [hr1] at hv
          obtain ⟨s', rfl, -⟩ := hv
          simp only [memcpyVal, memcpy]
          rw [if_pos (by omega)]
          congr 1
          funext a
          rw [if_neg (by omega)]
        | buf l =>
          simp only [memcpyVal]
          rw [if_pos (by omega)]
          congr 1
          funext a
          rw [if_neg (by omega)]
    refine ⟨m, hfill, ?_, fun a _ => rfl⟩
    rintro p ⟨j, hj0, hjn, -⟩
    omega
  · have hv := hr.ok d (n * e) hne (by omega)
    refine ⟨_, fill_ok hr.pos hne hv, ?_, ?_⟩
    · rintro p ⟨j, hj0, hjn, rfl⟩ k hk0 hk
      have h1 : 0 ≤ j * e := mul_nonneg hj0 he.le
      have h2 : (j + 1) * e ≤ n * e := mul_le_mul_of_nonneg_right (by omega) he.le
      rw [add_mul] at h2
      simp only
      rw [if_pos ⟨by omega, by omega⟩, show d + j * e + k - d = j * e + k by omega, hr.byte m ha _ (by omega), mul_zero, add_zero,
        show j * e + k = k + e * j by ring, Int.add_mul_emod_self_left, Int.emod_eq_of_lt hk0 hk]
      exact (ha k hk0 hk).symm
    · intro a hna
      split
      · next h =>
        exfalso
        obtain ⟨a1, a2, a3, a4, a5⟩ := in_row (n := n) he (show 0 ≤ a - d by omega) (by omega)
        exact hna (d + (a - d) / e * e, _) ⟨_, a1, a2, rfl⟩ (by simp only; omega)
      · rfl

/-! ### Loops of copies -/

theorem memcpys_copied {e : Int} {R : Set (Int × Int)} (he : 0 < e) (hs : Safe e R) (size : Int → Int) (cnt : Int → Int)
    (hsz : ∀ n, size n = cnt n * e) : ∀ (cs : List (Ptrs × Int)) (m : Mem),
    (∀ c ∈ cs, ∃ d s, c.1 = [some d, some s] ∧ rowOf e e d s (cnt c.2) ⊆ R) →
    ∃ m', memcpys size cs m = some m' ∧
      Copied e {p | ∃ c ∈ cs, ∃ d s, c.1 = [some d, some s] ∧ p ∈ rowOf e e d s (cnt c.2)} m m'
  | [], m, _ => ⟨m, rfl, by simpa using Copied.empty e m⟩
  | c :: cs, m, h => by
    obtain ⟨d, s, hc, hsub⟩ := h c (by simp)
    obtain ⟨ptrs, n⟩ := c
    simp only at hc hsub
    subst hc
    obtain ⟨m1, h1, h2⟩ := memcpy_row (m := m) he (hs.mono hsub)
    obtain ⟨m2, h3, h4⟩ := memcpys_copied he hs size cnt hsz cs m1 fun c hc => h c (by simp [hc])
    refine ⟨m2, by simp [memcpys, hsz, h1, h3], ?_⟩
    have hu : {p | ∃ c ∈ ([some d, some s], n) :: cs, ∃ d s, c.1 = [some d, some s] ∧ p ∈ rowOf e e d s (cnt c.2)} =
        rowOf e e d s (cnt n) ∪ {p | ∃ c ∈ cs, ∃ d s, c.1 = [some d, some s] ∧ p ∈ rowOf e e d s (cnt c.2)} := by
      ext p
      simp only [List.mem_cons, Set.mem_setOf_eq, Set.mem_union]
      constructor
      · rintro ⟨c, rfl | hc, d', s', he, hp⟩
        · simp at he; obtain ⟨rfl, rfl⟩ := he; exact .inl hp
        · exact .inr ⟨c, hc, d', s', he, hp⟩
      · rintro (hp | ⟨c, hc, d', s', he, hp⟩)
        · exact ⟨_, .inl rfl, d, s, rfl, hp⟩
        · exact ⟨c, .inr hc, d', s', he, hp⟩
    rw [hu]
    refine h2.union (hs.mono ?_) h4
    rw [← hu]
    rintro p ⟨c, hc, d', s', he', hp⟩
    obtain ⟨d'', s'', hc', hsub'⟩ := h c hc
    rw [hc'] at he'
    simp at he'
    obtain ⟨rfl, rfl⟩ := he'
    exact hsub' hp

theorem fillCalls_copied {e n : Int} {R : Set (Int × Int)} (he : 0 < e) (hn : 0 < n) (hs : Safe e R) {m0 : Mem} :
    ∀ (cs : List Ptrs) (st : FillState) (m : Mem),
    (∀ c ∈ cs, ∃ d s, c = [some d, some s] ∧ rowOf e 0 d s n ⊆ R) →
    (∀ p ∈ R, ∀ k, 0 ≤ k → k < e → m (p.2 + k) = m0 (p.2 + k)) →
    (∀ s, st.cached = some s → ∃ v, st.value = some v ∧ FillOk e s m0 v) →
    ∃ m', fillCalls e (n * e) cs st m = some m' ∧
      Copied e {p | ∃ c ∈ cs, ∃ d s, c = [some d, some s] ∧ p ∈ rowOf e 0 d s n} m m'
  | [], st, m, _, _, _ => ⟨m, rfl, by simpa using Copied.empty e m⟩
  | c :: cs, st, m, h, hm, hst => by
    obtain ⟨d, s, rfl, hsub⟩ := h c (by simp)
    have hmem : (d, s) ∈ R := hsub ⟨0, le_rfl, hn, by simp⟩
    have hms : ∀ k, 0 ≤ k → k < e → m (s + k) = m0 (s + k) := fun k h0 hk => hm (d, s) hmem k h0 hk
    have hcall : ∃ st' m1, fillCall e (n * e) (some d) (some s) st m = some (st', m1) ∧ Copied e (rowOf e 0 d s n) m m1 ∧
        ∀ s, st'.cached = some s → ∃ v, st'.value = some v ∧ FillOk e s m0 v := by
      unfold fillCall
      split
      · have hv := optimizeFillValue_ok (s := s) (size := n * e) he hms
        obtain ⟨m1, h1, h2⟩ := fill_row (d := d) he hn.le hv hms (hs.mono hsub)
        refine ⟨⟨some s, some (optimizeFillValue s e (n * e) m)⟩, m1, by simp [h1], h2, fun s' hs' => ?_⟩
        simp at hs'
        subst hs'
        exact ⟨_, rfl, hv⟩
      · next hc =>
        simp only [ne_eq, not_not] at hc
        obtain ⟨v, hv1, hv⟩ := hst s hc
        obtain ⟨m1, h1, h2⟩ := fill_row (d := d) he hn.le hv hms (hs.mono hsub)
        exact ⟨st, m1, by simp [hv1, h1], h2, hst⟩
    obtain ⟨st', m1, h1, h2, h3⟩ := hcall
    obtain ⟨m2, h4, h5⟩ := fillCalls_copied he hn hs cs st' m1 (fun c hc => h c (by simp [hc]))
      (fun p hp k h0 hk => by rw [h2.agree hs hsub hp h0 hk, hm p hp k h0 hk]) h3
    refine ⟨m2, by simp [fillCalls, h1, h4], ?_⟩
    have hu : {p | ∃ c ∈ [some d, some s] :: cs, ∃ d s, c = [some d, some s] ∧ p ∈ rowOf e 0 d s n} =
        rowOf e 0 d s n ∪ {p | ∃ c ∈ cs, ∃ d s, c = [some d, some s] ∧ p ∈ rowOf e 0 d s n} := by
      ext p
      simp only [List.mem_cons, Set.mem_setOf_eq, Set.mem_union]
      constructor
      · rintro ⟨c, rfl | hc, d', s', he, hp⟩
        · simp at he; obtain ⟨rfl, rfl⟩ := he; exact .inl hp
        · exact .inr ⟨c, hc, d', s', he, hp⟩
      · rintro (hp | ⟨c, hc, d', s', he, hp⟩)
        · exact ⟨_, .inl rfl, d, s, rfl, hp⟩
        · exact ⟨c, .inr hc, d', s', he, hp⟩
    rw [hu]
    refine h2.union (hs.mono ?_) h5
    rw [← hu]
    rintro p ⟨c, hc, d', s', he', hp⟩
    obtain ⟨d'', s'', hc', hsub'⟩ := h c hc
    rw [hc'] at he'
    simp at he'
    obtain ⟨rfl, rfl⟩ := he'
    exact hsub' hp

end Copy
end Slinky
