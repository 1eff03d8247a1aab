import Verif.Arith
import Mathlib.Tactic.Linarith
import Mathlib.Tactic.Ring
import Mathlib.Tactic.NormNum
import Mathlib.Algebra.Order.Floor.Div

/-!
# Properties C01-C04: arithmetic helpers
-/

namespace Slinky

theorem two_pow_pos (n : Nat) : (0 : Int) < 2 ^ n := Int.pow_pos (by decide)

theorem asr_eq (x : Int) (k : Nat) : asr x k = x / 2 ^ k := by
  unfold asr; exact Int.shiftRight_eq_div_pow x k

theorem asr_neg {w : Nat} {x : Int} (h : InRange w x) (hx : x < 0) : asr x (w - 1) = -1 := by
  rw [asr_eq]; unfold InRange at h
  have hp := two_pow_pos (w - 1)
  generalize (2 : Int) ^ (w - 1) = p at *
  have := (Int.ediv_emod_unique (a := x) (b := p) (r := x + p) (q := -1) hp).mpr ⟨by linarith, by linarith, by linarith⟩
  exact this.1

theorem asr_nonneg {w : Nat} {x : Int} (h : InRange w x) (hx : 0 ≤ x) : asr x (w - 1) = 0 := by
  rw [asr_eq]; unfold InRange at h
  exact Int.ediv_eq_zero_of_lt hx h.2

theorem chk_some {w : Nat} {x : Int} (h : InRange w x) : chk w x = some x := by simp [chk, h]

theorem chk_eq_some {w : Nat} {x y : Int} (h : chk w x = some y) : y = x ∧ InRange w x := by
  unfold chk at h; split at h
  · exact ⟨by injection h with h; exact h.symm, by assumption⟩
  · cases h

/-- The four cases of truncated versus Euclidean quotient and remainder. -/
theorem tdiv_tmod_cases (a b : Int) (hb : b ≠ 0) :
    (0 ≤ a.tmod b ∧ a.tdiv b = a / b ∧ a.tmod b = a % b) ∨
    (a.tmod b < 0 ∧ 0 < b ∧ a.tdiv b = a / b + 1 ∧ a.tmod b = a % b - b) ∨
    (a.tmod b < 0 ∧ b < 0 ∧ a.tdiv b = a / b - 1 ∧ a.tmod b = a % b + b) := by
  have h1 := Int.mul_tdiv_add_tmod a b
  have key : ∀ q r : Int, 0 ≤ r → r < |b| → b * q + r = a → q = a / b ∧ r = a % b := by
    intro q r h0 h1 h2
    have := (Int.ediv_emod_unique' (a := a) (b := b) (q := q) (r := r))
    rcases lt_or_gt_of_ne hb with hneg | hpos
    · have := (Int.ediv_emod_unique (a := a) (b := -b) (q := -q) (r := r) (by linarith)).mpr
        ⟨by linarith, h0, by rw [abs_of_neg hneg] at h1; exact h1⟩
      rw [Int.ediv_neg, Int.emod_neg] at this
      exact ⟨by linarith [this.1], this.2.symm⟩
    · have := (Int.ediv_emod_unique (a := a) (b := b) (q := q) (r := r) hpos).mpr
        ⟨by linarith, h0, by rw [abs_of_pos hpos] at h1; exact h1⟩
      exact ⟨this.1.symm, this.2.symm⟩
  have habs : (a.tmod b).natAbs < b.natAbs := by
    rw [Int.natAbs_tmod]; exact Nat.mod_lt _ (Int.natAbs_pos.mpr hb)
  have habs' : |a.tmod b| < |b| := by
    rw [Int.abs_eq_natAbs, Int.abs_eq_natAbs]; exact_mod_cast habs
  rcases lt_or_ge (a.tmod b) 0 with hr | hr
  · rw [abs_of_neg hr] at habs'
    rcases lt_or_gt_of_ne hb with hneg | hpos
    · right; right
      rw [abs_of_neg hneg] at habs'
      have := key (a.tdiv b + 1) (a.tmod b - b) (by linarith) (by rw [abs_of_neg hneg]; linarith) (by linarith)
      exact ⟨hr, hneg, by linarith [this.1], by linarith [this.2]⟩
    · right; left
      rw [abs_of_pos hpos] at habs'
      have := key (a.tdiv b - 1) (a.tmod b + b) (by linarith) (by rw [abs_of_pos hpos]; linarith) (by linarith)
      exact ⟨hr, hpos, by linarith [this.1], by linarith [this.2]⟩
  · left
    rw [abs_of_nonneg hr] at habs'
    have := key (a.tdiv b) (a.tmod b) hr habs' h1
    exact ⟨hr, this.1, this.2⟩

theorem abs_tdiv_le (a b : Int) : |a.tdiv b| ≤ |a| := by
  rw [Int.abs_eq_natAbs, Int.abs_eq_natAbs, Int.natAbs_tdiv]
  exact_mod_cast Nat.div_le_self _ _

theorem inRange_of_abs {w : Nat} {x y : Int} (hy : InRange w y) (h : |x| ≤ |y|) (hx : x ≠ -minOf w) : InRange w x := by
  unfold InRange minOf at *
  have hp := two_pow_pos (w - 1)
  generalize (2 : Int) ^ (w - 1) = p at *
  have : |y| ≤ p := abs_le.mpr ⟨by linarith, by linarith⟩
  have h2 := abs_le.mp (le_trans h this)
  refine ⟨h2.1, lt_of_le_of_ne h2.2 ?_⟩
  intro h; apply hx; simp [h]

/-- The quotient of two representable values is representable unless it is `min / -1`. -/
theorem inRange_tdiv {w : Nat} {a b : Int} (ha : InRange w a) (hb : b ≠ 0)
    (hab : ¬ (a = minOf w ∧ b = -1)) : InRange w (a.tdiv b) := by
  apply inRange_of_abs ha (abs_tdiv_le a b)
  intro h
  have hp := two_pow_pos (w - 1)
  have hm : minOf w = -(2 : Int) ^ (w - 1) := rfl
  have ha' := ha
  unfold InRange at ha'
  generalize (2 : Int) ^ (w - 1) = p at *
  rw [hm] at h hab
  have h1 : a.natAbs / b.natAbs = p.natAbs := by
    have := Int.natAbs_tdiv a b
    rw [h] at this; simp at this; exact this.symm
  have h2 : a.natAbs ≤ p.natAbs := by omega
  have hp2 : 0 < p.natAbs := by omega
  have hb1 : b.natAbs = 1 := by
    by_contra hne
    have h3 : 2 ≤ b.natAbs := by omega
    have : a.natAbs / b.natAbs < p.natAbs := by
      apply Nat.div_lt_of_lt_mul
      nlinarith
    omega
  have ha3 : a.natAbs = p.natAbs := by rw [hb1] at h1; simpa using h1
  have ha4 : a = -p := by omega
  have : b = 1 := by
    rcases Int.natAbs_eq b with hh | hh
    · omega
    · exfalso; exact hab ⟨ha4, by omega⟩
  subst this
  rw [ha4] at h; simp at h; omega

theorem inRange_tmod {w : Nat} {a b : Int} (hb : InRange w b) (hb0 : b ≠ 0) : InRange w (a.tmod b) := by
  apply inRange_of_abs hb
  · rw [Int.abs_eq_natAbs, Int.abs_eq_natAbs]
    have : (a.tmod b).natAbs < b.natAbs := by
      rw [Int.natAbs_tmod]; exact Nat.mod_lt _ (Int.natAbs_pos.mpr hb0)
    exact_mod_cast this.le
  · intro h
    have : (a.tmod b).natAbs < b.natAbs := by
      rw [Int.natAbs_tmod]; exact Nat.mod_lt _ (Int.natAbs_pos.mpr hb0)
    rw [h] at this
    unfold InRange at hb
    unfold minOf at this
    have hp := two_pow_pos (w - 1)
    generalize (2 : Int) ^ (w - 1) = p at *
    omega

theorem abs_ediv_le (a b : Int) : |a / b| ≤ |a| := by
  rw [Int.abs_eq_natAbs, Int.abs_eq_natAbs]
  exact_mod_cast Int.natAbs_ediv_le_natAbs a b

/-- The Euclidean quotient of two representable values is representable unless it is `min / -1`. -/
theorem inRange_ediv {w : Nat} {a b : Int} (ha : InRange w a) (hb' : InRange w b)
    (hab : ¬ (a = minOf w ∧ b = -1)) : InRange w (a / b) := by
  by_cases hb : b = 0
  · subst hb; simp; unfold InRange; have := two_pow_pos (w-1); omega
  apply inRange_of_abs ha (abs_ediv_le a b)
  intro h
  have hp := two_pow_pos (w - 1)
  have hm : minOf w = -(2 : Int) ^ (w - 1) := rfl
  unfold InRange at ha hb'
  generalize (2 : Int) ^ (w - 1) = p at *
  rw [hm] at h hab
  simp only [neg_neg] at h
  have h1 := Int.mul_ediv_add_emod a b
  have h2 := Int.emod_nonneg a hb
  have h3 := Int.emod_lt_abs a hb
  rw [h] at h1
  rcases lt_or_gt_of_ne hb with hneg | hpos
  · rw [abs_of_neg hneg] at h3
    rcases lt_or_eq_of_le (show b ≤ -1 by omega) with h4 | h4
    · have : (p - 1) * (-b - 1) > 0 := mul_pos (by omega) (by omega)
      nlinarith
    · subst h4; apply hab; constructor
      · omega
      · rfl
  · rw [abs_of_pos hpos] at h3
    nlinarith

/-- C01: machine `euclidean_div` is Euclidean division (0 when dividing by 0); it is undefined behaviour (`none`)
exactly when the arguments are `min` and `-1`. -/
theorem euclideanDiv_spec (w : Nat) (a b : Int) (ha : InRange w a) (hb : InRange w b)
    (hab : ¬ (a = minOf w ∧ b = -1)) : euclideanDiv w a b = some (a / b) := by
  unfold euclideanDiv
  split
  · next h => subst h; simp
  · next h =>
    have hq := inRange_tdiv ha h hab
    have hr := inRange_tmod (a := a) hb h
    have hres := inRange_ediv (b := b) ha hb hab
    have l1 : Int.land (-1) (-1) = -1 := by decide
    have l2 : Int.land (-1) 0 = 0 := by change Int.ofNat (Nat.ldiff 0 0) = 0; simp [Nat.ldiff]
    have l3 : Int.land 0 (-1) = 0 := by change Int.ofNat (Nat.ldiff 0 0) = 0; simp [Nat.ldiff]
    have l4 : Int.land 0 0 = 0 := by decide
    have n1 : Int.not (-1) = 0 := by decide
    have n2 : Int.not 0 = -1 := by decide
    simp only [chk_some hq, Option.bind_eq_bind, Option.bind_some]
    rcases tdiv_tmod_cases a b h with ⟨h1, h2, h3⟩ | ⟨h1, hb', h2, h3⟩ | ⟨h1, hb', h2, h3⟩
    · rw [asr_nonneg hr h1]
      rcases lt_or_ge b 0 with hb0 | hb0
      · rw [asr_neg hb hb0, l3, n1, l4, sub_zero, chk_some hq]
        simp only [Option.bind_some]; rw [add_zero, chk_some hq, h2]
      · rw [asr_nonneg hb hb0, l4, n2, l3, sub_zero, chk_some hq]
        simp only [Option.bind_some]; rw [add_zero, chk_some hq, h2]
    · rw [asr_neg hr h1, asr_nonneg hb hb'.le, l2, n2, l1, sub_zero, chk_some hq]
      simp only [Option.bind_some]
      rw [h2, show a / b + 1 + -1 = a / b by ring, chk_some hres]
    · rw [asr_neg hr h1, asr_neg hb hb', l1, n1, l2, h2, show a / b - 1 - -1 = a / b by ring, chk_some hres]
      simp only [Option.bind_some, add_zero]; rw [chk_some hres]

example : euclideanDiv 64 (-7) 2 = some (-4) ∧ euclideanDiv 64 (-7) (-2) = some 4 ∧ InRange 64 (-7) := by
  refine ⟨?_, ?_, by norm_num [InRange]⟩ <;> rw [euclideanDiv_spec] <;> norm_num [InRange, minOf]

/-- C01: `min / -1` is undefined behaviour. -/
theorem euclideanDiv_overflow (w : Nat) : euclideanDiv w (minOf w) (-1) = none := by
  unfold euclideanDiv
  have hp := two_pow_pos (w - 1)
  have : (minOf w).tdiv (-1) = (2 : Int) ^ (w - 1) := by simp [minOf]
  have h2 : chk w ((2 : Int) ^ (w - 1)) = none := by
    unfold chk InRange; simp
  simp [this, h2]

/-- C01: machine `euclidean_mod`. -/
theorem euclideanMod_spec (w : Nat) (a b : Int) (ha : InRange w a) (hb : InRange w b)
    (hab : ¬ (a = minOf w ∧ b = -1)) : euclideanMod w a b = some (if b = 0 then 0 else a % b) := by
  unfold euclideanMod
  split
  · next h => rfl
  · next h =>
    have hq := inRange_tdiv ha h hab
    have hm : InRange w (a % b) := by
      have h2 := Int.emod_nonneg a h
      have h3 := Int.emod_lt_abs a h
      unfold InRange at *
      have hp := two_pow_pos (w - 1)
      generalize (2 : Int) ^ (w - 1) = p at *
      have : |b| ≤ p := abs_le.mpr ⟨by linarith, by linarith⟩
      exact ⟨by omega, by omega⟩
    simp only [chk_some hq, Option.bind_eq_bind, Option.bind_some]
    rcases tdiv_tmod_cases a b h with ⟨h1, h2, h3⟩ | ⟨h1, hb', h2, h3⟩ | ⟨h1, hb', h2, h3⟩
    · rw [if_pos h1, h3]
    · rw [if_neg (by omega), if_neg (by omega), h3, show a % b - b + b = a % b by ring, chk_some hm]
    · rw [if_neg (by omega), if_pos hb', h3, show a % b + b - b = a % b by ring, chk_some hm]

example : euclideanMod 64 (-7) 2 = some 1 ∧ euclideanMod 64 (-7) (-2) = some 1 ∧ euclideanMod 64 7 0 = some 0 := by decide

/-- C01: the defining equation of Euclidean division, for the mathematical operators used in the rest of the model:
`a = b * (a / b) + a % b` and `0 ≤ a % b < |b|` for `b ≠ 0`, both zero for `b = 0`. -/
theorem ediv_emod_char (a b : Int) :
    (b ≠ 0 → a = b * ediv a b + emod a b ∧ 0 ≤ emod a b ∧ emod a b < |b|) ∧
    (b = 0 → ediv a b = 0 ∧ emod a b = 0) := by
  refine ⟨fun h => ?_, fun h => by simp [ediv, emod, h]⟩
  unfold ediv emod; rw [if_neg h]
  exact ⟨(Int.mul_ediv_add_emod a b).symm, Int.emod_nonneg a h, Int.emod_lt_abs a h⟩

/-- C01: uniqueness — any `q, r` with the Euclidean property are slinky's quotient and remainder. -/
theorem ediv_emod_unique (a b q r : Int) (hb : b ≠ 0) (h : a = b * q + r) (h0 : 0 ≤ r) (h1 : r < |b|) :
    ediv a b = q ∧ emod a b = r := by
  unfold ediv emod; rw [if_neg hb]
  subst h
  have hr : r / b = 0 := by
    rcases lt_or_gt_of_ne hb with hneg | hpos
    · rw [← neg_neg b, Int.ediv_neg, Int.ediv_eq_zero_of_lt h0 (by rwa [abs_of_neg hneg] at h1)]; rfl
    · exact Int.ediv_eq_zero_of_lt h0 (by rwa [abs_of_pos hpos] at h1)
  have h2 : (b * q + r) / b = q := by
    rw [Int.add_comm, Int.add_mul_ediv_left _ _ hb, hr]; ring
  refine ⟨h2, ?_⟩
  have := Int.mul_ediv_add_emod (b * q + r) b
  rw [h2] at this; linarith

/-- C01: the positive-divisor variants agree with the general operators. -/
theorem euclideanDivPositiveDivisor_spec (w : Nat) (a b : Int) (ha : InRange w a) (hb : InRange w b) (hpos : 0 < b) :
    euclideanDivPositiveDivisor w a b = some (a / b) := by
  have hab : ¬ (a = minOf w ∧ b = -1) := by omega
  have hq := inRange_tdiv ha (by omega) hab
  have hr := inRange_tmod (a := a) hb (by omega)
  have hres := inRange_ediv (b := b) ha hb hab
  unfold euclideanDivPositiveDivisor
  simp only [chk_some hq, Option.bind_eq_bind, Option.bind_some]
  rcases tdiv_tmod_cases a b (by omega) with ⟨h1, h2, h3⟩ | ⟨h1, hb', h2, h3⟩ | ⟨h1, hb', h2, h3⟩
  · rw [asr_nonneg hr h1, add_zero, chk_some hq, h2]
  · rw [asr_neg hr h1, h2, show a / b + 1 + -1 = a / b by ring, chk_some hres]
  · omega

theorem euclideanModPositiveModulus_spec (w : Nat) (a b : Int) (hb : InRange w b) (hpos : 0 < b) :
    euclideanModPositiveModulus w a b = some (a % b) := by
  unfold euclideanModPositiveModulus
  have h4 := Int.emod_nonneg a (show b ≠ 0 by omega)
  have h5 := Int.emod_lt_of_pos a hpos
  rcases tdiv_tmod_cases a b (by omega) with ⟨h1, h2, h3⟩ | ⟨h1, hb', h2, h3⟩ | ⟨h1, hb', h2, h3⟩
  · simp only []; rw [if_pos h1, h3]
  · simp only []; rw [if_neg (by omega), h3, show a % b - b + b = a % b by ring]
    apply chk_some
    unfold InRange at *
    have := two_pow_pos (w - 1)
    generalize (2 : Int) ^ (w - 1) = p at *
    omega
  · omega

example : euclideanDivPositiveDivisor 64 (-7) 2 = some (-4) ∧ euclideanModPositiveModulus 64 (-7) 2 = some 1 := by decide

/-! ## C02 rounding -/

/-- `floor_div a b` is the largest integer `q` with `q * b ≤ a`. -/
theorem floorDiv_spec (w : Nat) (a b : Int) (ha : InRange w a) (hb : InRange w b) (hpos : 0 < b) :
    ∃ q, floorDiv w a b = some q ∧ q * b ≤ a ∧ ∀ q', q' * b ≤ a → q' ≤ q := by
  refine ⟨a / b, euclideanDiv_spec w a b ha hb (by omega), Int.ediv_mul_le a (by omega), ?_⟩
  intro q' h; exact (Int.le_ediv_iff_mul_le hpos).mpr h

/-- `ceil_div a b` is the smallest integer `q` with `a ≤ q * b` (when `a + b` is representable). -/
theorem ceilDiv_spec (w : Nat) (a b : Int) (ha : InRange w a) (hb : InRange w b) (hpos : 0 < b)
    (hs : InRange w (a + b)) :
    ∃ q, ceilDiv w a b = some q ∧ a ≤ q * b ∧ ∀ q', a ≤ q' * b → q ≤ q' := by
  have hs1 : InRange w (a + b - 1) := by
    unfold InRange at *
    generalize (2 : Int) ^ (w - 1) = p at *
    omega
  refine ⟨(a + b - 1) / b, ?_, ?_, ?_⟩
  · unfold ceilDiv; simp only [chk_some hs, chk_some hs1, Option.bind_eq_bind, Option.bind_some]
    exact euclideanDiv_spec w _ b hs1 hb (by omega)
  · have h1 := Int.lt_ediv_add_one_mul_self (a + b - 1) hpos
    linarith
  · intro q' h
    have h2 : (a + b - 1) < (q' + 1) * b := by linarith
    have := Int.ediv_lt_of_lt_mul hpos h2
    omega

/-- `round_div a b` is within half of the exact quotient: `|q * b - a| ≤ b / 2` (ties round up). -/
theorem roundDiv_spec (w : Nat) (a b : Int) (hb : InRange w b) (hpos : 0 < b)
    (hs : InRange w (a + b / 2)) :
    ∃ q, roundDiv w a b = some q ∧ a - q * b ≤ (b - 1) / 2 ∧ q * b - a ≤ b / 2 := by
  refine ⟨(a + b / 2) / b, ?_, ?_, ?_⟩
  · unfold roundDiv; rw [asr_eq]; simp only [pow_one]
    simp only [chk_some hs, Option.bind_eq_bind, Option.bind_some]
    exact euclideanDiv_spec w _ b hs hb (by omega)
  · have h1 := Int.lt_ediv_add_one_mul_self (a + b / 2) hpos
    have : b = b / 2 + b % 2 + b / 2 := by omega
    have h3 : (a + b / 2) < (a + b / 2) / b * b + b := by linarith
    omega
  · have := Int.ediv_mul_le (a + b / 2) (show b ≠ 0 by omega)
    omega

/-- `align_down x n` is the largest multiple of `n` that is `≤ x`. -/
theorem alignDown_spec (w : Nat) (x n y : Int) (hx : InRange w x) (hn : InRange w n) (hpos : 0 < n)
    (h : alignDown w x n = some y) : n ∣ y ∧ y ≤ x ∧ ∀ z, n ∣ z → z ≤ x → z ≤ y := by
  obtain ⟨q, h1, h2, h3⟩ := floorDiv_spec w x n hx hn hpos
  unfold alignDown at h; rw [h1] at h
  simp only [Option.bind_eq_bind, Option.bind_some] at h
  obtain ⟨rfl, _⟩ := chk_eq_some h
  refine ⟨Dvd.intro_left q rfl, h2, ?_⟩
  rintro z ⟨k, rfl⟩ hz
  have := h3 k (by linarith [mul_comm n k])
  nlinarith

/-- `align_up x n` is the smallest multiple of `n` that is `≥ x`. -/
theorem alignUp_spec (w : Nat) (x n y : Int) (hx : InRange w x) (hn : InRange w n) (hpos : 0 < n)
    (h : alignUp w x n = some y) : n ∣ y ∧ x ≤ y ∧ ∀ z, n ∣ z → x ≤ z → y ≤ z := by
  unfold alignUp at h
  by_cases hs : InRange w (x + n)
  · obtain ⟨q, h1, h2, h3⟩ := ceilDiv_spec w x n hx hn hpos hs
    rw [h1] at h
    simp only [Option.bind_eq_bind, Option.bind_some] at h
    obtain ⟨rfl, _⟩ := chk_eq_some h
    refine ⟨Dvd.intro_left q rfl, h2, ?_⟩
    rintro z ⟨k, rfl⟩ hz
    have := h3 k (by linarith [mul_comm n k])
    nlinarith
  · unfold ceilDiv chk at h; simp [hs] at h

/-- `align_down` is defined for every representable `x` whose aligned value is representable. -/
theorem alignDown_defined (w : Nat) (x n : Int) (hx : InRange w x) (hn : InRange w n) (hpos : 0 < n)
    (hr : InRange w (x / n * n)) : alignDown w x n = some (x / n * n) := by
  unfold alignDown floorDiv
  rw [euclideanDiv_spec w x n hx hn (by omega)]
  simp [chk_some hr]

theorem alignUp_defined (w : Nat) (x n : Int) (hn : InRange w n) (hpos : 0 < n)
    (hs : InRange w (x + n)) (hr : InRange w ((x + n - 1) / n * n)) (hx : InRange w x) :
    alignUp w x n = some ((x + n - 1) / n * n) := by
  have hs1 : InRange w (x + n - 1) := by
    unfold InRange at *
    generalize (2 : Int) ^ (w - 1) = p at *
    omega
  unfold alignUp ceilDiv floorDiv
  simp only [chk_some hs, chk_some hs1, Option.bind_eq_bind, Option.bind_some]
  rw [euclideanDiv_spec w _ n hs1 hn (by omega)]
  simp [chk_some hr]

example : alignUp 64 13 8 = some 16 ∧ alignDown 64 (-13) 8 = some (-16) := by
  constructor
  · rw [alignUp_defined] <;> norm_num [InRange, minOf]
  · rw [alignDown_defined] <;> norm_num [InRange, minOf]

/-! ## C03 overflow -/

theorem bmod_inRange {w : Nat} (hw : 0 < w) {r : Int} (h : InRange w r) : Int.bmod r (2 ^ w) = r := by
  unfold InRange at h
  have h2 : ((2 : Nat) ^ w : Nat) = 2 * 2 ^ (w - 1) := by
    rw [← pow_succ']; congr 1; omega
  have hp := two_pow_pos (w - 1)
  rw [Int.bmod_def]
  have e : ((2 ^ w : Nat) : Int) = 2 * 2 ^ (w - 1) := by rw [h2]; push_cast; ring
  rw [e]
  generalize (2 : Int) ^ (w - 1) = p at *
  rcases lt_or_ge r 0 with hr | hr
  · have : r % (2 * p) = r + 2 * p := by
      rw [← Int.add_emod_right]; exact Int.emod_eq_of_lt (by omega) (by omega)
    rw [this]; split <;> omega
  · have : r % (2 * p) = r := Int.emod_eq_of_lt hr (by omega)
    rw [this]; split <;> omega

/-- C03: the `*_overflows` predicates report exactly unrepresentable results, and `*_with_overflow` return the exact
result when there is no overflow and 0 otherwise. -/
theorem overflow_spec (w : Nat) (hw : 0 < w) (a b : Int) :
    (addOverflows w a b = true ↔ ¬ InRange w (a + b)) ∧
    (subOverflows w a b = true ↔ ¬ InRange w (a - b)) ∧
    (mulOverflows w a b = true ↔ ¬ InRange w (a * b)) ∧
    addWithOverflow w a b = (if InRange w (a + b) then (false, a + b) else (true, 0)) ∧
    subWithOverflow w a b = (if InRange w (a - b) then (false, a - b) else (true, 0)) ∧
    mulWithOverflow w a b = (if InRange w (a * b) then (false, a * b) else (true, 0)) := by
  refine ⟨by simp [addOverflows, builtinOverflow], by simp [subOverflows, builtinOverflow],
    by simp [mulOverflows, builtinOverflow], ?_, ?_, ?_⟩ <;>
  · simp only [addWithOverflow, subWithOverflow, mulWithOverflow, builtinOverflow]
    first
    | (by_cases h : InRange w (a + b)
       · simp [h, bmod_inRange hw]
       · simp [h]; done)
    | (by_cases h : InRange w (a - b)
       · simp [h, bmod_inRange hw]
       · simp [h]; done)
    | (by_cases h : InRange w (a * b)
       · simp [h, bmod_inRange hw]
       · simp [h]; done)

/-- The representable value nearest to `r`. -/
def clampTo (w : Nat) (r : Int) : Int := max (minOf w) (min (maxOf w) r)

theorem clampTo_spec (w : Nat) (r : Int) : InRange w (clampTo w r) ∧ ∀ y, InRange w y → |r - clampTo w r| ≤ |r - y| := by
  unfold clampTo minOf maxOf InRange
  have hp := two_pow_pos (w - 1)
  generalize (2 : Int) ^ (w - 1) = p at *
  refine ⟨by omega, ?_⟩
  intro y hy
  rcases abs_cases (r - max (-p) (min (p-1) r)) with h | h <;> rcases abs_cases (r - y) with h' | h' <;> omega

theorem addSat_spec (w : Nat) (hw : 3 ≤ w) (a b : Int) (ha : InRange w a) (hb : InRange w b) :
    addSat w a b = clampTo w (a + b) := by
  unfold addSat builtinOverflow
  simp only [asr_eq, pow_one]
  by_cases h : InRange w (a + b)
  · simp only [h, not_true, decide_false, Bool.not_false, if_true, bmod_inRange (by omega) h]
    unfold clampTo minOf maxOf; unfold InRange at h; omega
  · simp only [h, not_false_iff, decide_true, Bool.not_true, Bool.false_eq_true, if_false]
    unfold clampTo minOf maxOf; unfold InRange at *
    have : (4 : Int) ≤ 2 ^ (w - 1) := by
      calc (4 : Int) = 2 ^ 2 := by norm_num
        _ ≤ 2 ^ (w - 1) := pow_le_pow_right₀ (by norm_num) (by omega)
    generalize (2 : Int) ^ (w - 1) = p at *
    split <;> omega

theorem subSat_spec (w : Nat) (hw : 3 ≤ w) (a b : Int) (ha : InRange w a) (hb : InRange w b) :
    subSat w a b = clampTo w (a - b) := by
  unfold subSat builtinOverflow
  simp only [asr_eq, pow_one]
  by_cases h : InRange w (a - b)
  · simp only [h, not_true, decide_false, Bool.not_false, if_true, bmod_inRange (by omega) h]
    unfold clampTo minOf maxOf; unfold InRange at h; omega
  · simp only [h, not_false_iff, decide_true, Bool.not_true, Bool.false_eq_true, if_false]
    unfold clampTo minOf maxOf; unfold InRange at *
    have : (4 : Int) ≤ 2 ^ (w - 1) := by
      calc (4 : Int) = 2 ^ 2 := by norm_num
        _ ≤ 2 ^ (w - 1) := pow_le_pow_right₀ (by norm_num) (by omega)
    generalize (2 : Int) ^ (w - 1) = p at *
    split <;> omega

/-- The intermediate sums of `add_sat`/`sub_sat` do not overflow. -/
theorem sat_no_ub (w : Nat) (hw : 2 ≤ w) (a b : Int) (ha : InRange w a) (hb : InRange w b) :
    InRange w (asr a 1 + asr b 1) ∧ InRange w (asr a 1 - asr b 1) := by
  simp only [asr_eq, pow_one]
  unfold InRange at *
  have e : (2 : Int) ^ (w - 1) = 2 * 2 ^ (w - 2) := by rw [← pow_succ']; congr 1; omega
  rw [e] at ha hb ⊢
  have hp := two_pow_pos (w - 2)
  generalize (2 : Int) ^ (w - 2) = p at *
  omega

theorem mulSat_spec (w : Nat) (hw : 1 ≤ w) (a b : Int) :
    mulSat w a b = clampTo w (a * b) := by
  unfold mulSat builtinOverflow
  by_cases h : InRange w (a * b)
  · simp only [h, not_true, decide_false, Bool.not_false, if_true, bmod_inRange (by omega) h]
    unfold clampTo minOf maxOf; unfold InRange at h; omega
  · simp only [h, not_false_iff, decide_true, Bool.not_true, Bool.false_eq_true, if_false]
    have hp := two_pow_pos (w - 1)
    have hs : sgn a * sgn b > 0 ↔ a * b > 0 := by
      unfold sgn
      rcases lt_trichotomy a 0 with h1 | h1 | h1 <;> rcases lt_trichotomy b 0 with h2 | h2 | h2 <;>
        simp_all [mul_pos_of_neg_of_neg, mul_pos, not_lt_of_gt, ne_of_gt, ne_of_lt, mul_neg_of_neg_of_pos,
          mul_neg_of_pos_of_neg, le_of_lt]
    rw [show (if sgn a * sgn b > 0 then maxOf w else minOf w) = if a * b > 0 then maxOf w else minOf w by
      simp only [hs]]
    generalize a * b = m at *
    unfold clampTo minOf maxOf; unfold InRange at *
    generalize (2 : Int) ^ (w - 1) = p at *
    split <;> omega

theorem divSat_spec (w : Nat) (a b : Int) (ha : InRange w a) (hb : InRange w b) :
    divSat w a b = some (clampTo w (a / b)) := by
  unfold divSat
  split
  · next h =>
    obtain ⟨rfl, rfl⟩ := h
    simp only [clampTo, minOf, maxOf, Int.ediv_neg, Int.ediv_one, neg_neg]
    have hp := two_pow_pos (w - 1)
    generalize (2 : Int) ^ (w - 1) = p at *
    congr 1; omega
  · next h =>
    have hab : ¬ (a = minOf w ∧ b = -1) := fun h' => h ⟨h'.2, h'.1⟩
    rw [euclideanDiv_spec w a b ha hb hab]
    have := inRange_ediv (b := b) ha hb hab
    unfold clampTo minOf maxOf; unfold InRange at this
    congr 1; omega

example : addSat 64 (maxOf 64) 5 = maxOf 64 ∧ subSat 64 (minOf 64) 5 = minOf 64 ∧
   mulSat 64 (minOf 64) 2 = minOf 64 ∧ divSat 64 (minOf 64) (-1) = some (maxOf 64) := by decide

/-! ## C04 gcd / lcm -/

theorem gcdLoop_spec (a b : Int) (ha : 0 ≤ a) (hb : 0 ≤ b) : gcdLoop a b = Int.gcd a b := by
  induction h : b.natAbs using Nat.strong_induction_on generalizing a b with
  | _ n ih =>
    unfold gcdLoop
    split
    · next h0 => subst h0; simp [abs_of_nonneg ha]
    · next h0 =>
      have hlt : (a.tmod b).natAbs < n := by
        rw [Int.natAbs_tmod, ← h]; exact Nat.mod_lt _ (Int.natAbs_pos.mpr h0)
      have hnn : 0 ≤ a.tmod b := Int.tmod_nonneg b ha
      rw [ih _ hlt b (a.tmod b) hb hnn rfl]
      congr 1
      rw [Int.tmod_eq_emod_of_nonneg ha, Int.gcd_comm, Int.gcd_emod]

/-- C04: for non-negative arguments `gcd` is the greatest common divisor (the loop terminates by construction). -/
theorem gcd_spec (a b : Int) (ha : 0 ≤ a) (hb : 0 ≤ b) : gcd a b = Int.gcd a b := by
  unfold gcd; split
  · rw [gcdLoop_spec b a hb ha, Int.gcd_comm]
  · exact gcdLoop_spec a b ha hb

/-- C04, spelled out: divides both and every common divisor divides it. -/
theorem gcd_char (a b : Int) (ha : 0 ≤ a) (hb : 0 ≤ b) :
    gcd a b ∣ a ∧ gcd a b ∣ b ∧ (∀ d, d ∣ a → d ∣ b → d ∣ gcd a b) ∧ 0 ≤ gcd a b := by
  rw [gcd_spec a b ha hb]
  exact ⟨Int.gcd_dvd_left .., Int.gcd_dvd_right .., fun d h1 h2 => Int.dvd_coe_gcd h1 h2, by positivity⟩

/-- gcd of arbitrary (possibly negative) integers divides both and has the right absolute value. -/
theorem gcdLoop_natAbs (a b : Int) : (gcdLoop a b).natAbs = Int.gcd a b := by
  induction h : b.natAbs using Nat.strong_induction_on generalizing a b with
  | _ n ih =>
    unfold gcdLoop
    split
    · next h0 => subst h0; simp
    · next h0 =>
      have hlt : (a.tmod b).natAbs < n := by
        rw [Int.natAbs_tmod, ← h]; exact Nat.mod_lt _ (Int.natAbs_pos.mpr h0)
      rw [ih _ hlt b (a.tmod b) rfl]
      unfold Int.gcd
      rw [Int.natAbs_tmod, Nat.gcd_comm, ← Nat.gcd_rec, Nat.gcd_comm]

/-- C04: for all integers, `|gcd a b|` is the greatest common divisor. -/
theorem gcd_natAbs (a b : Int) : (gcd a b).natAbs = Int.gcd a b := by
  unfold gcd; split
  · rw [gcdLoop_natAbs, Int.gcd_comm]
  · exact gcdLoop_natAbs a b

/-- C04: `lcm` of positive arguments is the least common multiple, when the product does not overflow. -/
theorem lcm_spec (w : Nat) (a b : Int) (ha : 0 < a) (hb : 0 < b) (hab : InRange w (a * b)) :
    lcm w a b = some (Int.lcm a b : Int) := by
  unfold lcm
  have hg : gcd a b = Int.gcd a b := gcd_spec a b ha.le hb.le
  have hgpos : 0 < Int.gcd a b := Int.gcd_pos_of_ne_zero_left _ (by omega)
  have e : (Int.lcm a b : Int) = a * b / Int.gcd a b := by
    have := Int.gcd_mul_lcm a b
    have h2 : (Int.gcd a b : Int) * Int.lcm a b = a * b := by
      have h3 : ((Int.gcd a b * Int.lcm a b : Nat) : Int) = (a.natAbs * b.natAbs : Nat) := by
        rw [Int.gcd_mul_lcm]
      push_cast at h3
      rw [h3, abs_of_pos ha, abs_of_pos hb]
    rw [← h2, Int.mul_ediv_cancel_left _ (by omega)]
  have hp : 0 < a * b := by positivity
  simp only [chk_some hab, Option.bind_eq_bind, Option.bind_some, hg]
  rw [if_neg (by omega), Int.tdiv_eq_ediv_of_nonneg hp.le, ← e]
  apply chk_some
  have h1 : (Int.lcm a b : Int) ≤ a * b := by
    rw [e]; exact Int.ediv_le_self _ hp.le
  unfold InRange at *
  have := two_pow_pos (w - 1)
  omega

example : gcd 12 18 = 6 ∧ lcm 64 12 18 = some 36 := by
  constructor
  · rw [gcd_spec _ _ (by decide) (by decide)]; decide
  · rw [lcm_spec _ _ _ (by decide) (by decide) (by decide)]; decide

end Slinky
