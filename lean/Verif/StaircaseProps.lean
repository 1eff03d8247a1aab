import Verif.ArithProps
import Mathlib.Algebra.Ring.Divisibility.Basic

/-!
# Property C05: bounds of a sum of two staircase functions
-/

namespace Slinky

/-- The interval contains `v` (a missing end is unbounded). -/
def CInterval.Contains (i : CInterval) (v : Int) : Prop :=
  (∀ m, i.min = some m → m ≤ v) ∧ (∀ m, i.max = some m → v ≤ m)

/-- The sum of two staircases at `x`. -/
def stairSum (a1 b1 c1 a2 b2 c2 x : Int) : Int := staircase x a1 b1 c1 + staircase x a2 b2 c2

theorem stairSearch_some (f : Int → Int) (n : Nat) (x0 : Int) (p : Int × Int) :
    ∃ q, stairSearch f n x0 (some p) = some q ∧ q.1 ≤ p.1 ∧ p.2 ≤ q.2 ∧
      (∀ x, x0 ≤ x → x < x0 + n → q.1 ≤ f x ∧ f x ≤ q.2) ∧
      (q.1 = p.1 ∨ ∃ x, q.1 = f x) ∧ (q.2 = p.2 ∨ ∃ x, q.2 = f x) := by
  induction n generalizing x0 p with
  | zero => exact ⟨p, rfl, le_refl _, le_refl _, by intro x h1 h2; simp at h2; omega, Or.inl rfl, Or.inl rfl⟩
  | succ n ih =>
    obtain ⟨q, h1, h2, h3, h4, h5, h6⟩ := ih (x0 + 1) (Min.min p.1 (f x0), Max.max p.2 (f x0))
    refine ⟨q, by simpa [stairSearch] using h1, le_trans h2 (min_le_left _ _), le_trans (le_max_left _ _) h3, ?_, ?_, ?_⟩
    · intro x hx1 hx2
      rcases eq_or_lt_of_le hx1 with e | e
      · subst e; exact ⟨le_trans h2 (min_le_right _ _), le_trans (le_max_right _ _) h3⟩
      · exact h4 x (by omega) (by push_cast at hx2; omega)
    · rcases h5 with h5 | h5
      · rcases min_choice p.1 (f x0) with h | h <;> simp only [h] at h5
        · exact Or.inl h5
        · exact Or.inr ⟨_, h5⟩
      · exact Or.inr h5
    · rcases h6 with h6 | h6
      · rcases max_choice p.2 (f x0) with h | h <;> simp only [h] at h6
        · exact Or.inl h6
        · exact Or.inr ⟨_, h6⟩
      · exact Or.inr h6

theorem stairSearch_none (f : Int → Int) (n : Nat) (hn : 0 < n) :
    ∃ q, stairSearch f n 0 none = some q ∧ (∀ x : Int, 0 ≤ x → x < n → q.1 ≤ f x ∧ f x ≤ q.2) ∧
      (∃ x, q.1 = f x) ∧ (∃ x, q.2 = f x) := by
  obtain ⟨m, rfl⟩ : ∃ m, n = m + 1 := ⟨n - 1, by omega⟩
  obtain ⟨q, h1, h2, h3, h4, h5, h6⟩ := stairSearch_some f m 1 (f 0, f 0)
  refine ⟨q, by simpa [stairSearch] using h1, ?_, ?_, ?_⟩
  · intro x hx1 hx2
    rcases eq_or_lt_of_le hx1 with e | e
    · subst e; exact ⟨h2, h3⟩
    · exact h4 x (by omega) (by push_cast at hx2; omega)
  · rcases h5 with h | h; exact ⟨0, h⟩; exact h
  · rcases h6 with h | h; exact ⟨0, h⟩; exact h

theorem stairSum_periodic (a1 b1 c1 a2 b2 c2 P : Int) (h1 : b1 ≠ 0) (h2 : b2 ≠ 0) (hc : c1 * b2 = -c2 * b1)
    (d1 : b1 ∣ P) (d2 : b2 ∣ P) (x k : Int) :
    stairSum a1 b1 c1 a2 b2 c2 (x + P * k) = stairSum a1 b1 c1 a2 b2 c2 x := by
  obtain ⟨k1, hk1⟩ := d1
  obtain ⟨k2, hk2⟩ := d2
  have hz : k1 * c1 + k2 * c2 = 0 := by
    have : b1 * b2 * (k1 * c1 + k2 * c2) = 0 := by
      have e1 : b1 * b2 * (k1 * c1 + k2 * c2) = (b1 * k1) * (c1 * b2) + (b2 * k2) * (c2 * b1) := by ring
      rw [e1, ← hk1, ← hk2, hc]; ring
    rcases mul_eq_zero.mp this with h | h
    · rcases mul_eq_zero.mp h with h | h <;> contradiction
    · exact h
  unfold stairSum staircase ediv
  have e1 : (x + P * k + a1) / b1 = (x + a1) / b1 + k1 * k := by
    rw [hk1, show x + b1 * k1 * k + a1 = (x + a1) + b1 * (k1 * k) by ring, Int.add_mul_ediv_left _ _ h1]
  have e2 : (x + P * k + a2) / b2 = (x + a2) / b2 + k2 * k := by
    rw [hk2, show x + b2 * k2 * k + a2 = (x + a2) + b2 * (k2 * k) by ring, Int.add_mul_ediv_left _ _ h2]
  rw [e1, e2]
  have : k * (k1 * c1 + k2 * c2) = 0 := by rw [hz, mul_zero]
  linarith

/-- C05: for every `x`, the sum lies in the returned interval, and each finite end is attained by some `x`. -/
theorem staircaseSumBounds_sound (a1 b1 c1 a2 b2 c2 : Int) :
    (∀ x, (staircaseSumBounds a1 b1 c1 a2 b2 c2).Contains (stairSum a1 b1 c1 a2 b2 c2 x)) ∧
    (∀ m, (staircaseSumBounds a1 b1 c1 a2 b2 c2).min = some m → ∃ x, stairSum a1 b1 c1 a2 b2 c2 x = m) ∧
    (∀ m, (staircaseSumBounds a1 b1 c1 a2 b2 c2).max = some m → ∃ x, stairSum a1 b1 c1 a2 b2 c2 x = m) := by
  unfold staircaseSumBounds
  split
  · next h =>
    have : ∀ x, stairSum a1 b1 c1 a2 b2 c2 x = 0 := by
      intro x; simp [stairSum, staircase, ediv, h.1, h.2]
    simp [CInterval.Contains, this]
  split
  · simp [CInterval.Contains]
  split
  · simp [CInterval.Contains]
  split
  · simp [CInterval.Contains]
  next h0 h1 h2 h3 =>
  have hb1 : b1 ≠ 0 := fun h => h2 (Or.inl h)
  have hb2 : b2 ≠ 0 := fun h => h2 (Or.inr h)
  have hn1 : 0 < b1.natAbs := Int.natAbs_pos.mpr hb1
  have hn2 : 0 < b2.natAbs := Int.natAbs_pos.mpr hb2
  have hP : ((b1.natAbs : Int) * b2.natAbs).tdiv (gcd b1.natAbs b2.natAbs) = Nat.lcm b1.natAbs b2.natAbs := by
    rw [gcd_spec _ _ (by omega) (by omega), Int.tdiv_eq_ediv_of_nonneg (by positivity), Int.gcd]
    simp only [Int.natAbs_natCast]
    rw [Nat.lcm]; push_cast; rfl
  simp only [hP, Int.toNat_natCast]
  have hlpos : 0 < Nat.lcm b1.natAbs b2.natAbs := Nat.lcm_pos hn1 hn2
  obtain ⟨q, hq, hall, hmin, hmax⟩ := stairSearch_none
    (fun x => ediv (x + a1) b1 * c1 + ediv (x + a2) b2 * c2) _ hlpos
  rw [hq]
  obtain ⟨mn, mx⟩ := q
  simp only [CInterval.Contains, Option.some.injEq]
  refine ⟨?_, ?_, ?_⟩
  · intro x
    generalize hPP : (Nat.lcm b1.natAbs b2.natAbs : Int) = P
    have hper := stairSum_periodic a1 b1 c1 a2 b2 c2 P hb1 hb2 (not_not.mp h1)
      (by rw [← hPP, ← Int.natAbs_dvd]; exact_mod_cast Nat.dvd_lcm_left _ _)
      (by rw [← hPP, ← Int.natAbs_dvd]; exact_mod_cast Nat.dvd_lcm_right _ _) (x % P) (x / P)
    have e : x % P + P * (x / P) = x := Int.emod_add_mul_ediv x P
    rw [e] at hper
    have hPpos : 0 < P := by rw [← hPP]; exact_mod_cast hlpos
    have hr := hall (x % P) (Int.emod_nonneg _ hPpos.ne') (by rw [hPP]; exact Int.emod_lt_of_pos _ hPpos)
    rw [hper]
    constructor
    · rintro m rfl; exact hr.1
    · rintro m rfl; exact hr.2
  · rintro m rfl; obtain ⟨x, hx⟩ := hmin; exact ⟨x, hx.symm⟩
  · rintro m rfl; obtain ⟨x, hx⟩ := hmax; exact ⟨x, hx.symm⟩

/-- The result is informative: `((x+0)/4)*4 - ((x+0)/1)*1` is bounded by `[-3, 0]`. -/
example : staircaseSumBounds 0 4 4 0 1 (-1) = ⟨some (-3), some 0⟩ := by
  have hg : gcd 4 1 = 1 := by rw [gcd_spec _ _ (by decide) (by decide)]; decide
  simp [staircaseSumBounds, hg, stairSearch, ediv]

/-- C05 finding: the callers pass 64-bit constants through a 32-bit `int` interface, so the bounds can be wrong for
`index_t` coefficients: here the claimed bounds of `x/2 - (x + 2^32)/2` are `[0,0]` although the value is `-2^31`. -/
theorem staircaseSumBounds32_counterexample :
    ∃ a1 b1 c1 a2 b2 c2 x, ¬ (staircaseSumBounds32 a1 b1 c1 a2 b2 c2).Contains (stairSum a1 b1 c1 a2 b2 c2 x) := by
  refine ⟨0, 2, 1, 4294967296, 2, -1, 0, ?_⟩
  have hg : gcd 2 2 = 2 := by rw [gcd_spec _ _ (by decide) (by decide)]; decide
  have e0 : toInt32 0 = 0 := by decide
  have e1 : toInt32 1 = 1 := by decide
  have e2 : toInt32 2 = 2 := by decide
  have e3 : toInt32 (-1) = -1 := by decide
  have e4 : toInt32 4294967296 = 0 := by decide
  simp [staircaseSumBounds32, e0, e1, e2, e3, e4, staircaseSumBounds, hg, stairSearch, ediv, CInterval.Contains, stairSum, staircase]

theorem toInt32_id {x : Int} (h : InRange 32 x) : toInt32 x = x := bmod_inRange (w := 32) (by decide) h

/-- C05 for the 32-bit interface: sound when all coefficients fit in 32 bits (internal `int` products not modelled). -/
theorem staircaseSumBounds32_sound_partial (a1 b1 c1 a2 b2 c2 x : Int)
    (h1 : InRange 32 a1) (h2 : InRange 32 b1) (h3 : InRange 32 c1) (h4 : InRange 32 a2) (h5 : InRange 32 b2)
    (h6 : InRange 32 c2) :
    (staircaseSumBounds32 a1 b1 c1 a2 b2 c2).Contains (stairSum a1 b1 c1 a2 b2 c2 x) := by
  unfold staircaseSumBounds32
  rw [toInt32_id h1, toInt32_id h2, toInt32_id h3, toInt32_id h4, toInt32_id h5, toInt32_id h6]
  exact (staircaseSumBounds_sound ..).1 x

end Slinky
