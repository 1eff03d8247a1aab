import Verif.ModRem
import Verif.ArithProps
import Mathlib.Algebra.Ring.Divisibility.Basic
import Mathlib.Algebra.GroupWithZero.Divisibility

/-!
# Property C06: congruence arithmetic is conservative
-/

namespace Slinky
namespace MR

theorem mem_iff (x : Int) (a : MR) : Mem x a ↔ a.m ∣ x - a.r := by
  unfold Mem; constructor
  · rintro ⟨y, h⟩; exact ⟨y, by linarith⟩
  · rintro ⟨y, h⟩; exact ⟨y, by linarith⟩

theorem mem_default (x : Int) : Mem x {} := (mem_iff _ _).mpr (one_dvd _)
theorem mem_one (x r : Int) : Mem x ⟨1, r⟩ := (mem_iff _ _).mpr (one_dvd _)

theorem gcd_dvd_left (a b : Int) : gcd a b ∣ a := by
  rw [← Int.natAbs_dvd_natAbs, gcd_natAbs]
  exact Int.natCast_dvd.mp (Int.gcd_dvd_left a b)
theorem gcd_dvd_right (a b : Int) : gcd a b ∣ b := by
  rw [← Int.natAbs_dvd_natAbs, gcd_natAbs]
  exact Int.natCast_dvd.mp (Int.gcd_dvd_right a b)
theorem dvd_gcd' {d a b : Int} (h1 : d ∣ a) (h2 : d ∣ b) : d ∣ gcd a b := by
  rw [← Int.natAbs_dvd_natAbs, gcd_natAbs]
  exact Int.natAbs_dvd_natAbs.mpr (Int.dvd_coe_gcd h1 h2)

theorem dvd_sub_emodSelf {m x r : Int} (h : m ∣ x - r) : m ∣ x - emodSelf r m := by
  unfold emodSelf; split
  · exact h
  · have : m ∣ r - r % m := Int.dvd_self_sub_emod
    have := dvd_add h this
    rwa [show x - r + (r - r % m) = x - r % m by ring] at this

theorem withOverflow_false {f : Nat → Int → Int → Bool × Int} {x : Int} {r : Int} {a b : Int}
    (hf : f 64 a b = if InRange 64 x then (false, x) else (true, 0)) (h : f 64 a b = (false, r)) : r = x := by
  rw [hf] at h; split at h <;> simp_all

theorem addW (a b : Int) : addWithOverflow 64 a b = if InRange 64 (a + b) then (false, a + b) else (true, 0) :=
  (overflow_spec 64 (by decide) a b).2.2.2.1
theorem subW (a b : Int) : subWithOverflow 64 a b = if InRange 64 (a - b) then (false, a - b) else (true, 0) :=
  (overflow_spec 64 (by decide) a b).2.2.2.2.1
theorem mulW (a b : Int) : mulWithOverflow 64 a b = if InRange 64 (a * b) then (false, a * b) else (true, 0) :=
  (overflow_spec 64 (by decide) a b).2.2.2.2.2

/-- C06 (+) -/
theorem add_sound {x y : Int} {a b : MR} (hx : Mem x a) (hy : Mem y b) : Mem (x + y) (add a b) := by
  unfold add; rw [addW]
  by_cases h : InRange 64 (a.r + b.r) <;> simp only [h, if_true, if_false, Bool.not_false, Bool.not_true]
  · rw [mem_iff] at *
    apply dvd_sub_emodSelf
    have h1 := dvd_trans (gcd_dvd_left a.m b.m) hx
    have h2 := dvd_trans (gcd_dvd_right a.m b.m) hy
    have := dvd_add h1 h2
    rwa [show x - a.r + (y - b.r) = x + y - (a.r + b.r) by ring] at this
  · exact mem_one _ _

/-- C06 (-) -/
theorem sub_sound {x y : Int} {a b : MR} (hx : Mem x a) (hy : Mem y b) : Mem (x - y) (sub a b) := by
  unfold sub; rw [subW]
  by_cases h : InRange 64 (a.r - b.r) <;> simp only [h, if_true, if_false, Bool.not_false, Bool.not_true]
  · rw [mem_iff] at *
    apply dvd_sub_emodSelf
    have h1 := dvd_trans (gcd_dvd_left a.m b.m) hx
    have h2 := dvd_trans (gcd_dvd_right a.m b.m) hy
    have := dvd_sub h1 h2
    rwa [show x - a.r - (y - b.r) = x - y - (a.r - b.r) by ring] at this
  · exact mem_one _ _

/-- C06 (*) -/
theorem mul_sound {x y : Int} {a b : MR} (hx : Mem x a) (hy : Mem y b) : Mem (x * y) (mul a b) := by
  unfold mul
  split
  · next h0 =>
    rw [mulW, mulW]
    by_cases h1 : InRange 64 (a.r * b.m) <;> by_cases h2 : InRange 64 (a.r * b.r) <;>
      simp only [h1, h2, if_true, if_false, Bool.not_false, Bool.not_true, Bool.and_self, Bool.and_true, Bool.and_false, Bool.false_and, Bool.false_eq_true]
    · obtain ⟨k, hk⟩ := hx; obtain ⟨l, hl⟩ := hy
      refine ⟨l, ?_⟩; simp only; rw [hk, hl, h0]; ring
    all_goals exact mem_default _
  split
  · next h0 =>
    rw [mulW, mulW]
    by_cases h1 : InRange 64 (a.m * b.r) <;> by_cases h2 : InRange 64 (a.r * b.r) <;>
      simp only [h1, h2, if_true, if_false, Bool.not_false, Bool.not_true, Bool.and_self, Bool.and_true, Bool.and_false, Bool.false_and, Bool.false_eq_true]
    · obtain ⟨k, hk⟩ := hx; obtain ⟨l, hl⟩ := hy
      refine ⟨k, ?_⟩; simp only; rw [hk, hl, h0]; ring
    all_goals exact mem_default _
  split
  · next h0 =>
    rw [mulW]
    by_cases h1 : InRange 64 (a.m * b.m) <;> simp only [h1, if_true, if_false, Bool.not_false, Bool.not_true, Bool.false_eq_true]
    · obtain ⟨k, hk⟩ := hx; obtain ⟨l, hl⟩ := hy
      refine ⟨k * l, ?_⟩; simp only; rw [hk, hl, h0.1, h0.2]; ring
    · exact mem_default _
  split
  · next h0 =>
    simp only []
    rw [mulW]
    by_cases h1 : InRange 64 (a.m * gcd b.m b.r) <;> simp only [h1, if_true, if_false, Bool.not_false, Bool.not_true, Bool.false_eq_true]
    · obtain ⟨k, hk⟩ := hx; obtain ⟨l, hl⟩ := hy
      rw [mem_iff]; simp only [sub_zero]
      apply mul_dvd_mul
      · rw [hk, h0, add_zero]; exact dvd_mul_right _ _
      · rw [hl]; exact dvd_add (dvd_mul_of_dvd_left (gcd_dvd_left _ _) _) (gcd_dvd_right _ _)
    · exact mem_default _
  split
  · next h0 =>
    simp only []
    rw [mulW]
    by_cases h1 : InRange 64 (b.m * gcd a.m a.r) <;> simp only [h1, if_true, if_false, Bool.not_false, Bool.not_true, Bool.false_eq_true]
    · obtain ⟨k, hk⟩ := hx; obtain ⟨l, hl⟩ := hy
      rw [mem_iff]; simp only [sub_zero]
      rw [mul_comm x y]
      apply mul_dvd_mul
      · rw [hl, h0, add_zero]; exact dvd_mul_right _ _
      · rw [hk]; exact dvd_add (dvd_mul_of_dvd_left (gcd_dvd_left _ _) _) (gcd_dvd_right _ _)
    · exact mem_default _
  · rw [mulW]
    by_cases h1 : InRange 64 (a.r * b.r) <;> simp only [h1, if_true, if_false, Bool.not_false, Bool.not_true, Bool.false_eq_true]
    · rw [mem_iff] at *
      apply dvd_sub_emodSelf
      have h1 := dvd_trans (gcd_dvd_left a.m b.m) hx
      have h2 := dvd_trans (gcd_dvd_right a.m b.m) hy
      have := dvd_add (dvd_mul_of_dvd_left h1 y) (dvd_mul_of_dvd_right h2 a.r)
      rwa [show (x - a.r) * y + a.r * (y - b.r) = x * y - a.r * b.r by ring] at this
    · exact mem_default _

/-- C06 (/): Euclidean quotient, division by zero is zero. Holds whenever the C++ has no overflow UB. -/
theorem div_sound {x y : Int} {a b c : MR} (hx : Mem x a) (hy : Mem y b)
    (hra : InRange 64 a.r) (hrb : InRange 64 b.r) (h : div a b = some c) : Mem (ediv x y) c := by
  unfold div at h
  split at h
  · next h0 =>
    split at h
    · next h1 =>
      simp only [Option.bind_eq_bind, Option.bind_eq_some_iff] at h
      obtain ⟨m, hm, r, hr, hc⟩ := h
      obtain ⟨rfl, hrange⟩ := chk_eq_some hm
      simp only [pure, Option.some.injEq] at hc
      subst hc
      have hnot : ¬ (a.r = minOf 64 ∧ b.r = -1) := by
        rintro ⟨e1, e2⟩; rw [e1, e2, euclideanDiv_overflow] at hr; cases hr
      rw [euclideanDiv_spec 64 _ _ hra hrb hnot] at hr
      cases hr
      obtain ⟨k, hk⟩ := hx; obtain ⟨l, hl⟩ := hy
      rw [h0.1, zero_mul, zero_add] at hl
      subst hl
      have hdvd : b.r ∣ a.m := by
        unfold emodSelf at h1; rw [if_neg h0.2] at h1; exact Int.dvd_of_emod_eq_zero h1
      obtain ⟨q, hq⟩ := hdvd
      rw [mem_iff]
      apply dvd_sub_emodSelf
      unfold ediv
      have e1 : a.m.tdiv b.r = q := by rw [hq, Int.mul_tdiv_cancel_left _ h0.2]
      rw [e1, hk, hq]
      have e2 : (b.r * q * k + a.r) / b.r = q * k + a.r / b.r := by
        rw [show b.r * q * k + a.r = a.r + b.r * (q * k) by ring, Int.add_mul_ediv_left _ _ h0.2]; ring
      rw [e2]
      exact ⟨k, by ring⟩
    · cases h; exact mem_default _
  · cases h; exact mem_default _

theorem unionOrdered_sound {x : Int} {a b : MR} (hx : Mem x a ∨ Mem x b) : Mem x (unionOrdered a b) := by
  unfold unionOrdered; rw [subW]
  by_cases h : InRange 64 (a.r - b.r) <;> simp only [h, if_true, if_false, Bool.false_eq_true]
  · simp only [mem_iff] at *
    apply dvd_sub_emodSelf
    have hg := gcd_dvd_right (a.r - b.r) (gcd a.m b.m)
    rcases hx with hx | hx
    · exact dvd_trans (dvd_trans hg (gcd_dvd_left _ _)) hx
    · have h1 := dvd_trans (dvd_trans hg (gcd_dvd_right _ _)) hx
      have h2 := gcd_dvd_left (a.r - b.r) (gcd a.m b.m)
      have := dvd_sub h1 h2
      rwa [show x - b.r - (a.r - b.r) = x - a.r by ring] at this
  · exact mem_default _

/-- C06 (|): the union contains both sets. -/
theorem union_sound {x : Int} {a b : MR} (hx : Mem x a ∨ Mem x b) : Mem x (union a b) := by
  unfold union; split
  · exact unionOrdered_sound hx.symm
  · exact unionOrdered_sound hx

/-- C06 (&): the intersection contains everything in both sets, whenever the C++ has no overflow UB. -/
theorem inter_sound {x : Int} {a b c : MR} (ha : Mem x a) (hb : Mem x b) (h : inter a b = some c) : Mem x c := by
  unfold inter at h
  split at h
  · cases h; exact ha
  split at h
  · cases h; exact hb
  split at h
  · next h1 h2 h3 =>
    simp only [Option.bind_eq_bind, Option.bind_eq_some_iff] at h
    obtain ⟨l, hl, hc⟩ := h
    simp only [pure, Option.some.injEq] at hc; subst hc
    unfold lcm at hl
    simp only [Option.bind_eq_bind, Option.bind_eq_some_iff] at hl
    obtain ⟨p, hp, hl⟩ := hl
    obtain ⟨rfl, _⟩ := chk_eq_some hp
    split at hl
    · cases hl
    · next hg =>
      obtain ⟨rfl, _⟩ := chk_eq_some hl
      rw [mem_iff] at *
      simp only [h3.1, h3.2, sub_zero] at *
      obtain ⟨k1, hk1⟩ := gcd_dvd_left a.m b.m
      have hg2 : gcd a.m b.m ∣ a.m * b.m := dvd_mul_of_dvd_left (gcd_dvd_left _ _) _
      rw [← Int.natAbs_dvd_natAbs, Int.natAbs_tdiv, gcd_natAbs, Int.natAbs_mul]
      have : a.m.natAbs * b.m.natAbs / Int.gcd a.m b.m = Nat.lcm a.m.natAbs b.m.natAbs := by
        rw [Nat.lcm]; rfl
      change (a.m.natAbs * b.m.natAbs / Int.gcd a.m b.m) ∣ _
      rw [this]
      exact Nat.lcm_dvd (Int.natAbs_dvd_natAbs.mpr ha) (Int.natAbs_dvd_natAbs.mpr hb)
  split at h
  · cases h; exact ha
  · cases h; exact hb

/-- C06 (&) overflow finding: `operator&` multiplies the moduli without an overflow check, although the header
promises that overflow falls back to "all integers": undefined behaviour is reachable. -/
theorem inter_overflow_counterexample : inter ⟨2 ^ 32, 0⟩ ⟨2 ^ 32, 0⟩ = none := by
  simp [inter, lcm, chk, InRange]

/-- C06 (%), partial: sound when the divisor set is normalised in the sense that it only contains 0 when its
remainder is 0. Without that hypothesis the property fails, see `mod_counterexample`. -/
theorem mod_sound_partial {x y : Int} {a b : MR} (hx : Mem x a) (hy : Mem y b) (hn : Mem 0 b → b.r = 0) :
    Mem (emod x y) (mod a b) := by
  have key : ∀ g, g = gcd (gcd a.m b.m) b.r → g ∣ x - a.r ∧ g ∣ y := by
    rintro g rfl
    rw [mem_iff] at hx hy
    have h1 := gcd_dvd_left (gcd a.m b.m) b.r
    refine ⟨dvd_trans (dvd_trans h1 (gcd_dvd_left _ _)) hx, ?_⟩
    have h2 := dvd_trans (dvd_trans h1 (gcd_dvd_right _ _)) hy
    have := dvd_add h2 (gcd_dvd_right (gcd a.m b.m) b.r)
    rwa [show y - b.r + b.r = y by ring] at this
  obtain ⟨k1, k2⟩ := key _ rfl
  unfold mod
  simp only
  generalize hg : gcd (gcd a.m b.m) b.r = g at *
  by_cases hy0 : y = 0
  · subst hy0
    have hbr := hn hy
    simp only [emod, if_true, hbr, true_and]
    split
    · split
      · next h => exact ⟨0, by simp⟩
      · exact mem_default _
    · next h =>
      rw [ne_eq, not_not] at h
      exact ⟨0, by simp [h]⟩
  · have hmain : Mem (emod x y) ⟨g, emodSelf a.r g⟩ := by
      rw [mem_iff]; apply dvd_sub_emodSelf
      unfold emod; rw [if_neg hy0]
      have h3 := Int.mul_ediv_add_emod x y
      have h4 : x % y - a.r = (x - a.r) - y * (x / y) := by linarith
      rw [h4]
      exact dvd_sub k1 (dvd_mul_of_dvd_left k2 _)
    split
    · next h =>
      split
      · next h0 =>
        -- the modulus is zero: then y = 0, impossible
        rw [h0] at k2; exact absurd (zero_dvd_iff.mp k2) hy0
      · exact mem_default _
    · exact hmain

/-- C06 (%) counterexample: the divisor set `{4*y + 4}` contains 0, but its remainder field is not 0, so the code does
not account for `x % 0 = 0`. Such unnormalised sets are built by the simplifier for loops `for (i = -8; ...; i += 4)`
(simplify.cc visit(const loop*)). -/
theorem mod_counterexample : ∃ x y a b, Mem x a ∧ Mem y b ∧ ¬ Mem (emod x y) (mod a b) := by
  refine ⟨1, 0, ⟨0, 1⟩, ⟨4, 4⟩, ⟨0, by simp⟩, ⟨-1, by simp⟩, ?_⟩
  have h1 : gcd 0 4 = 4 := by rw [gcd_spec _ _ (by decide) (by decide)]; decide
  have h2 : gcd 4 4 = 4 := by rw [gcd_spec _ _ (by decide) (by decide)]; decide
  rw [mem_iff]
  simp [mod, h1, h2, emodSelf, emod]

example : Mem 13 ⟨8, 5⟩ ∧ Mem 6 ⟨4, 2⟩ ∧ (Mem 0 (⟨4, 2⟩ : MR) → (2 : Int) = 0) ∧
    add ⟨8, 5⟩ ⟨4, 2⟩ = ⟨4, 3⟩ := by
  refine ⟨⟨1, by norm_num⟩, ⟨1, by norm_num⟩, ?_, ?_⟩
  · intro h; rw [mem_iff] at h; simp at h
  · have h1 : gcd 8 4 = 4 := by rw [gcd_spec _ _ (by decide) (by decide)]; decide
    simp [add, addW, h1, emodSelf, InRange]

end MR
end Slinky
