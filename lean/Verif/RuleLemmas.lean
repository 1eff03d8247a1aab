import Verif.RuleTac
import Verif.IntervalProps
import Verif.StaircaseProps
import Mathlib.Tactic.Ring
import Mathlib.Tactic.Linarith

/-!
# Facts about integer division used in the proofs of the rules
-/

namespace Slinky

/-- Finish the proof of a rule. -/
macro "rule_auto" : tactic => `(tactic| (
  first
  | done
  | omega
  | grind))

namespace RL

theorem max_ediv (a b : Int) {c : Int} (h : 0 < c) : max a b / c = max (a / c) (b / c) := by
  rcases le_total a b with hab | hab
  · rw [max_eq_right hab, max_eq_right (Int.ediv_le_ediv h hab)]
  · rw [max_eq_left hab, max_eq_left (Int.ediv_le_ediv h hab)]
theorem min_ediv (a b : Int) {c : Int} (h : 0 < c) : min a b / c = min (a / c) (b / c) := by
  rcases le_total a b with hab | hab
  · rw [min_eq_left hab, min_eq_left (Int.ediv_le_ediv h hab)]
  · rw [min_eq_right hab, min_eq_right (Int.ediv_le_ediv h hab)]
theorem max_ediv_neg (a b : Int) {c : Int} (h : c < 0) : max a b / c = min (a / c) (b / c) := by
  have e := max_ediv a b (c := -c) (by omega)
  simp only [Int.ediv_neg] at e; omega
theorem min_ediv_neg (a b : Int) {c : Int} (h : c < 0) : min a b / c = max (a / c) (b / c) := by
  have e := min_ediv a b (c := -c) (by omega)
  simp only [Int.ediv_neg] at e; omega
theorem add_mul (a b : Int) {c : Int} (h : c ≠ 0) : (a + b * c) / c = a / c + b := Int.add_mul_ediv_right a b h
theorem max_mul (a b : Int) {c : Int} (h : 0 ≤ c) : max a b * c = max (a * c) (b * c) := max_mul_of_nonneg _ _ h
theorem min_mul (a b : Int) {c : Int} (h : 0 ≤ c) : min a b * c = min (a * c) (b * c) := min_mul_of_nonneg _ _ h
theorem max_mul_neg (a b : Int) {c : Int} (h : c ≤ 0) : max a b * c = min (a * c) (b * c) := by
  rcases le_total a b with hab | hab
  · rw [max_eq_right hab, min_eq_right (Int.mul_le_mul_of_nonpos_right hab h)]
  · rw [max_eq_left hab, min_eq_left (Int.mul_le_mul_of_nonpos_right hab h)]
theorem min_mul_neg (a b : Int) {c : Int} (h : c ≤ 0) : min a b * c = max (a * c) (b * c) := by
  rcases le_total a b with hab | hab
  · rw [min_eq_left hab, max_eq_left (Int.mul_le_mul_of_nonpos_right hab h)]
  · rw [min_eq_right hab, max_eq_right (Int.mul_le_mul_of_nonpos_right hab h)]
/-- If `c1 % c0 == 0` then `c1` is a multiple of `c0`. -/
theorem dvd' {a c : Int} (h : (if c = 0 then 0 else a % c) = 0) (hc : c ≠ 0) : ∃ q, a = q * c ∧ a / c = q := by
  rw [if_neg hc] at h
  obtain ⟨q, rfl⟩ := Int.dvd_of_emod_eq_zero h
  exact ⟨q, Int.mul_comm _ _, Int.mul_ediv_cancel_left q hc⟩
theorem divmod (a : Int) {c : Int} (h : 0 < c) : a = a / c * c + a % c ∧ 0 ≤ a % c ∧ a % c < c :=
  ⟨by have := Int.ediv_mul_add_emod a c; omega, Int.emod_nonneg a (by omega), Int.emod_lt_of_pos a h⟩
theorem lt_mul {a b c : Int} (h : 0 < c) : a * c < b * c ↔ a < b := Int.mul_lt_mul_right h
theorem ediv_lt {a b c : Int} (h : 0 < c) : a / c < b ↔ a < b * c := Int.ediv_lt_iff_lt_mul h
theorem le_ediv {a b c : Int} (h : 0 < c) : b ≤ a / c ↔ b * c ≤ a := Int.le_ediv_iff_mul_le h
theorem mul_ne {a c q : Int} (h : 0 < c) (h1 : 0 < a) (h2 : a < c) : a ≠ q * c := by
  intro e
  have : (q * c) % c = 0 := Int.mul_emod_left q c
  rw [← e, Int.emod_eq_of_lt (by omega) h2] at this
  omega

/-- The bounds of the sum of two staircases, if the constants fit in 32 bits. -/
theorem stair_min {a1 b1 c1 a2 b2 c2 c6 : Int} (h1 : -2 ^ 31 < a1 ∧ a1 < 2 ^ 31) (h2 : -2 ^ 31 < b1 ∧ b1 < 2 ^ 31)
    (h3 : -2 ^ 31 < c1 ∧ c1 < 2 ^ 31) (h4 : -2 ^ 31 < a2 ∧ a2 < 2 ^ 31) (h5 : -2 ^ 31 < b2 ∧ b2 < 2 ^ 31)
    (h6 : -2 ^ 31 < c2 ∧ c2 < 2 ^ 31) (h7 : -2 ^ 31 < c6 ∧ c6 < 2 ^ 31) (x : Int)
    (h : 0 ≤ stairMinVal a1 b1 (0 - c1) a2 b2 c2 + c6) :
    stairMinVal a1 b1 (0 - c1) a2 b2 c2 + c6 ≤ (x + a2) / b2 * c2 + c6 - (x + a1) / b1 * c1 := by
  have hs := staircaseSumBounds32_sound_partial a1 b1 (0 - c1) a2 b2 c2 x (by constructor <;> norm_num <;> omega)
    (by constructor <;> norm_num <;> omega) (by constructor <;> norm_num <;> omega) (by constructor <;> norm_num <;> omega)
    (by constructor <;> norm_num <;> omega) (by constructor <;> norm_num <;> omega)
  obtain ⟨hs, -⟩ := hs
  unfold stairMinVal at *
  cases hm : (staircaseSumBounds32 a1 b1 (0 - c1) a2 b2 c2).min with
  | none => rw [hm] at h; simp only [Option.getD_none, i64min] at h; omega
  | some v =>
    have := hs v hm
    simp only [stairSum, staircase, ediv] at this
    simp only [Option.getD_some]
    have e : (x + a1) / b1 * (0 - c1) = - ((x + a1) / b1 * c1) := by ring
    omega

theorem stair_max {a1 b1 c1 a2 b2 c2 c6 : Int} (h1 : -2 ^ 31 < a1 ∧ a1 < 2 ^ 31) (h2 : -2 ^ 31 < b1 ∧ b1 < 2 ^ 31)
    (h3 : -2 ^ 31 < c1 ∧ c1 < 2 ^ 31) (h4 : -2 ^ 31 < a2 ∧ a2 < 2 ^ 31) (h5 : -2 ^ 31 < b2 ∧ b2 < 2 ^ 31)
    (h6 : -2 ^ 31 < c2 ∧ c2 < 2 ^ 31) (h7 : -2 ^ 31 < c6 ∧ c6 < 2 ^ 31) (x : Int)
    (h : stairMaxVal a1 b1 (0 - c1) a2 b2 c2 + c6 ≤ 0) :
    (x + a2) / b2 * c2 + c6 - (x + a1) / b1 * c1 ≤ stairMaxVal a1 b1 (0 - c1) a2 b2 c2 + c6 := by
  have hs := staircaseSumBounds32_sound_partial a1 b1 (0 - c1) a2 b2 c2 x (by constructor <;> norm_num <;> omega)
    (by constructor <;> norm_num <;> omega) (by constructor <;> norm_num <;> omega) (by constructor <;> norm_num <;> omega)
    (by constructor <;> norm_num <;> omega) (by constructor <;> norm_num <;> omega)
  obtain ⟨-, hs⟩ := hs
  unfold stairMaxVal at *
  cases hm : (staircaseSumBounds32 a1 b1 (0 - c1) a2 b2 c2).max with
  | none => rw [hm] at h; simp only [Option.getD_none, i64max] at h; omega
  | some v =>
    have := hs v hm
    simp only [stairSum, staircase, ediv] at this
    simp only [Option.getD_some]
    have e : (x + a1) / b1 * (0 - c1) = - ((x + a1) / b1 * c1) := by ring
    omega

end RL
end Slinky
