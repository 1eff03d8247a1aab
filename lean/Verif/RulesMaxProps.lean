import Verif.RuleTac
import Verif.RuleLemmas

/-!
# The rules of `apply_max_rules` are identities (C12)
Generated by tools/rules_proofs.py (statements) with proofs from tools/rules_overrides.py.
-/

namespace Slinky.Rules
open Slinky

theorem max0_sound : RuleSound max0 := by
  refine Or.inr fun σ κ π hπ hs => AltsStatic.sound ?_
  rule_simp max0
  simp only [Side.Holds, InRange, max0] at hs
  norm_num at hs
  simp only [i64max, i64min]
  omega

theorem max1_sound : RuleSound max1 := by
  exact Or.inl rfl

theorem max2_sound : RuleSound max2 := by
  refine Or.inr fun σ κ π hπ hs => AltsStatic.sound ?_
  rule_simp max2
  simp only [Side.Holds, InRange, max2] at hs
  norm_num at hs
  simp only [i64max, i64min]
  omega

theorem max3_sound : RuleSound max3 := by
  exact Or.inl rfl

theorem max4_sound : RuleSound max4 := by
  refine Or.inr fun σ κ π hπ hs => AltsStatic.sound ?_
  rule_simp max4
  rule_auto

theorem max5_sound : RuleSound max5 := by
  refine Or.inr fun σ κ π hπ hs => AltsStatic.sound ?_
  have hp0 := hπ.bool 0
  have hp1 := hπ.bool 1
  rule_simp max5
  rule_auto

theorem max6_sound : RuleSound max6 := by
  refine Or.inr fun σ κ π hπ hs => AltsStatic.sound ?_
  rule_simp max6
  rule_auto

theorem max7_sound : RuleSound max7 := by
  refine Or.inr fun σ κ π hπ hs => AltsStatic.sound ?_
  rule_simp max7
  rule_auto

theorem max8_sound : RuleSound max8 := by
  refine Or.inr fun σ κ π hπ hs => AltsStatic.sound ?_
  rule_simp max8
  rule_auto

theorem max9_sound : RuleSound max9 := by
  refine Or.inr fun σ κ π hπ hs => AltsStatic.sound ?_
  rule_simp max9
  rule_auto

theorem max10_sound : RuleSound max10 := by
  refine Or.inr fun σ κ π hπ hs => AltsStatic.sound ?_
  rule_simp max10
  rule_auto

theorem max11_sound : RuleSound max11 := by
  refine Or.inr fun σ κ π hπ hs => AltsStatic.sound ?_
  rule_simp max11
  rule_auto

theorem max12_sound : RuleSound max12 := by
  refine Or.inr fun σ κ π hπ hs => AltsStatic.sound ?_
  rule_simp max12
  rule_auto

theorem max13_sound : RuleSound max13 := by
  refine Or.inr fun σ κ π hπ hs => AltsStatic.sound ?_
  rule_simp max13
  rule_auto

theorem max14_sound : RuleSound max14 := by
  refine Or.inr fun σ κ π hπ hs => AltsStatic.sound ?_
  rule_simp max14
  rule_auto

theorem max15_sound : RuleSound max15 := by
  refine Or.inr fun σ κ π hπ hs => AltsStatic.sound ?_
  rule_simp max15
  rule_auto

theorem max16_sound : RuleSound max16 := by
  refine Or.inr fun σ κ π hπ hs => AltsStatic.sound ?_
  rule_simp max16
  rule_auto

theorem max17_sound : RuleSound max17 := by
  refine Or.inr fun σ κ π hπ hs => AltsStatic.sound ?_
  rule_simp max17
  rule_auto

theorem max18_sound : RuleSound max18 := by
  refine Or.inr fun σ κ π hπ hs => AltsStatic.sound ?_
  rule_simp max18
  rule_auto

theorem max19_sound : RuleSound max19 := by
  refine Or.inr fun σ κ π hπ hs => AltsStatic.sound ?_
  rule_simp max19
  rule_auto

theorem max20_sound : RuleSound max20 := by
  refine Or.inr fun σ κ π hπ hs => AltsStatic.sound ?_
  rule_simp max20
  rule_auto

theorem max21_sound : RuleSound max21 := by
  refine Or.inr fun σ κ π hπ hs => AltsStatic.sound ?_
  rule_simp max21
  rule_auto

theorem max22_sound : RuleSound max22 := by
  refine Or.inr fun σ κ π hπ hs => AltsStatic.sound ?_
  rule_simp max22
  rule_auto

theorem max23_sound : RuleSound max23 := by
  refine Or.inr fun σ κ π hπ hs => AltsStatic.sound ?_
  rule_simp max23
  rule_auto

theorem max24_sound : RuleSound max24 := by
  refine Or.inr fun σ κ π hπ hs => AltsStatic.sound ?_
  rule_simp max24
  rule_auto

theorem max25_sound : RuleSound max25 := by
  refine Or.inr fun σ κ π hπ hs => AltsStatic.sound ?_
  have hp0 := hπ.nonpos 1
  rule_simp max25
  rule_auto

theorem max26_sound : RuleSound max26 := by
  refine Or.inr fun σ κ π hπ hs => AltsStatic.sound ?_
  rule_simp max26
  rule_auto

theorem max27_sound : RuleSound max27 := by
  refine Or.inr fun σ κ π hπ hs => AltsStatic.sound ?_
  rule_simp max27
  rule_auto

theorem max28_sound : RuleSound max28 := by
  refine Or.inr fun σ κ π hπ hs => AltsStatic.sound ?_
  rule_simp max28
  rule_auto

theorem max29_sound : RuleSound max29 := by
  refine Or.inr fun σ κ π hπ hs => AltsStatic.sound ?_
  rule_simp max29
  rule_auto

theorem max30_sound : RuleSound max30 := by
  refine Or.inr fun σ κ π hπ hs => AltsStatic.sound ?_
  rule_simp max30
  rule_auto

theorem max31_sound : RuleSound max31 := by
  refine Or.inr fun σ κ π hπ hs => AltsStatic.sound ?_
  rule_simp max31
  rule_auto

theorem max32_sound : RuleSound max32 := by
  refine Or.inr fun σ κ π hπ hs => AltsStatic.sound ?_
  rule_simp max32
  rule_auto

theorem max33_sound : RuleSound max33 := by
  refine Or.inr fun σ κ π hπ hs => AltsStatic.sound ?_
  rule_simp max33
  rule_auto

theorem max34_sound : RuleSound max34 := by
  refine Or.inr fun σ κ π hπ hs => AltsStatic.sound ?_
  rule_simp max34
  rule_auto

theorem max35_sound : RuleSound max35 := by
  refine Or.inr fun σ κ π hπ hs => AltsStatic.sound ?_
  rule_simp max35
  rule_auto

theorem max36_sound : RuleSound max36 := by
  refine Or.inr fun σ κ π hπ hs => AltsStatic.sound ?_
  rule_simp max36
  rule_auto

theorem max37_sound : RuleSound max37 := by
  refine Or.inr fun σ κ π hπ hs => AltsStatic.sound ?_
  rule_simp max37
  rule_auto

theorem max38_sound : RuleSound max38 := by
  refine Or.inr fun σ κ π hπ hs => AltsStatic.sound ?_
  rule_simp max38
  rule_auto

theorem max39_sound : RuleSound max39 := by
  refine Or.inr fun σ κ π hπ hs => AltsStatic.sound ?_
  rule_simp max39
  rule_auto

theorem max40_sound : RuleSound max40 := by
  refine Or.inr fun σ κ π hπ hs => AltsStatic.sound ?_
  rule_simp max40
  rule_auto

theorem max41_sound : RuleSound max41 := by
  refine Or.inr fun σ κ π hπ hs => AltsStatic.sound ?_
  rule_simp max41
  rule_auto

theorem max42_sound : RuleSound max42 := by
  refine Or.inr fun σ κ π hπ hs => AltsStatic.sound ?_
  rule_simp max42
  rule_auto

theorem max43_sound : RuleSound max43 := by
  refine Or.inr fun σ κ π hπ hs => AltsStatic.sound ?_
  rule_simp max43
  rule_auto

theorem max44_sound : RuleSound max44 := by
  refine Or.inr fun σ κ π hπ hs => AltsStatic.sound ?_
  rule_simp max44
  rule_auto

theorem max45_sound : RuleSound max45 := by
  refine Or.inr fun σ κ π hπ hs => AltsStatic.sound ?_
  rule_simp max45
  rule_auto

theorem max46_sound : RuleSound max46 := by
  refine Or.inr fun σ κ π hπ hs => AltsStatic.sound ?_
  rule_simp max46
  rule_auto

theorem max47_sound : RuleSound max47 := by
  refine Or.inr fun σ κ π hπ hs => AltsStatic.sound ?_
  rule_simp max47
  rule_auto

theorem max48_sound : RuleSound max48 := by
  refine Or.inr fun σ κ π hπ hs => AltsStatic.sound ?_
  rule_simp max48
  rule_auto

theorem max49_sound : RuleSound max49 := by
  refine Or.inr fun σ κ π hπ hs => AltsStatic.sound ?_
  rule_simp max49
  rule_auto

theorem max50_sound : RuleSound max50 := by
  refine Or.inr fun σ κ π hπ hs => AltsStatic.sound ?_
  rule_simp max50
  intro h
  have e := RL.add_mul ((σ 1) + ((κ 1) - (κ 0) * (κ 2))) (κ 0) h
  have e2 : (σ 1) + ((κ 1) - (κ 0) * (κ 2)) + (κ 0) * (κ 2) = (σ 1) + (κ 1) := by ring
  rw [e2] at e
  omega

theorem max51_sound : RuleSound max51 := by
  refine Or.inr fun σ κ π hπ hs => AltsStatic.sound ?_
  rule_simp max51
  rule_auto

theorem max52_sound : RuleSound max52 := by
  refine Or.inr fun σ κ π hπ hs => AltsStatic.sound ?_
  have hp0 := hπ.zero 1
  rule_simp max52
  rule_auto

theorem max53_sound : RuleSound max53 := by
  refine Or.inr fun σ κ π hπ hs => AltsStatic.sound ?_
  rule_simp max53
  rule_auto

theorem max54_sound : RuleSound max54 := by
  refine Or.inr fun σ κ π hπ hs => AltsStatic.sound ?_
  rule_simp max54
  rule_auto

theorem max55_sound : RuleSound max55 := by
  refine Or.inr fun σ κ π hπ hs => ?_
  rule_simp_dyn max55
  refine ⟨fun h _ _ => by omega, fun h h' => ?_⟩
  rcases h with h | h | h
  · omega
  · exact absurd (.inr h) h'
  · exact h.1.elim

theorem max56_sound : RuleSound max56 := by
  refine Or.inr fun σ κ π hπ hs => AltsStatic.sound ?_
  rule_simp max56
  rule_auto

theorem max57_sound : RuleSound max57 := by
  refine Or.inr fun σ κ π hπ hs => AltsStatic.sound ?_
  rule_simp max57
  rule_auto

theorem max58_sound : RuleSound max58 := by
  refine Or.inr fun σ κ π hπ hs => AltsStatic.sound ?_
  rule_simp max58
  refine ⟨fun ⟨h1, h2⟩ => ?_, fun _ ⟨h1, h2⟩ => ?_⟩
  · obtain ⟨q, hq, e⟩ := RL.dvd' h2 (by omega)
    rw [e, hq, RL.max_mul (σ 0) q (by omega)]
  · obtain ⟨q, hq, e⟩ := RL.dvd' h2 (by omega)
    rw [e, hq, RL.min_mul_neg (σ 0) q (by omega)]

theorem max59_sound : RuleSound max59 := by
  refine Or.inr fun σ κ π hπ hs => AltsStatic.sound ?_
  rule_simp max59
  refine ⟨fun ⟨h1, h2⟩ => ?_, fun _ => ⟨fun ⟨h1, h2⟩ => ?_, fun _ => ⟨fun ⟨h1, h2⟩ => ?_, fun _ ⟨h1, h2⟩ => ?_⟩⟩⟩
  · obtain ⟨q, hq, e⟩ := RL.dvd' h2 (by omega)
    rw [e, hq, RL.max_mul _ _ (by omega), Int.mul_assoc]
  · obtain ⟨q, hq, e⟩ := RL.dvd' h2 (by omega)
    rw [e, hq, RL.min_mul_neg _ _ (by omega), Int.mul_assoc]
  · obtain ⟨q, hq, e⟩ := RL.dvd' h2 (by omega)
    rw [e, hq, RL.max_mul _ _ (by omega), Int.mul_assoc, max_comm]
  · obtain ⟨q, hq, e⟩ := RL.dvd' h2 (by omega)
    rw [e, hq, RL.min_mul_neg _ _ (by omega), Int.mul_assoc, max_comm]

theorem max60_sound : RuleSound max60 := by
  refine Or.inr fun σ κ π hπ hs => AltsStatic.sound ?_
  rule_simp max60
  refine ⟨fun ⟨h1, h2⟩ => ?_, fun _ ⟨h1, h2⟩ => ?_⟩
  · obtain ⟨q, hq, e⟩ := RL.dvd' h2 (by omega)
    rw [e, hq, RL.max_mul _ _ (by omega), Int.add_mul, max_comm]
  · obtain ⟨q, hq, e⟩ := RL.dvd' h2 (by omega)
    rw [e, hq, RL.min_mul_neg _ _ (by omega), Int.add_mul, max_comm]

theorem max61_sound : RuleSound max61 := by
  refine Or.inr fun σ κ π hπ hs => AltsStatic.sound ?_
  rule_simp max61
  refine ⟨fun h1 => ?_, fun h1 => ?_⟩
  · rw [RL.max_ediv _ _ (by omega), RL.add_mul _ _ (by omega), max_comm]
  · rw [RL.min_ediv_neg _ _ (by omega), RL.add_mul _ _ (by omega), max_comm]

theorem max62_sound : RuleSound max62 := by
  refine Or.inr fun σ κ π hπ hs => AltsStatic.sound ?_
  rule_simp max62
  refine ⟨fun h1 => ?_, fun h1 => ?_⟩
  · rw [RL.max_ediv _ _ (by omega), Int.mul_ediv_cancel _ (by omega)]
  · rw [RL.min_ediv_neg _ _ (by omega), Int.mul_ediv_cancel _ (by omega)]

theorem max63_sound : RuleSound max63 := by
  refine Or.inr fun σ κ π hπ hs => AltsStatic.sound ?_
  rule_simp max63
  have h1 := RL.stair_min (hs 0) (hs 1) (hs 2) (hs 3) (hs 4) (hs 5) (hs 6) (σ 0)
  have h2 := RL.stair_max (hs 0) (hs 1) (hs 2) (hs 3) (hs 4) (hs 5) (hs 6) (σ 0)
  refine ⟨fun h => ?_, fun h => ?_⟩ <;> omega

theorem max64_sound : RuleSound max64 := by
  refine Or.inr fun σ κ π hπ hs => AltsStatic.sound ?_
  rule_simp max64
  rule_auto

/-- C12: every rule of `apply_max_rules` is an identity. -/
theorem maxRules_sound : ∀ r ∈ maxRules, RuleSound r := by
  simp only [maxRules, List.forall_mem_cons, List.not_mem_nil, false_implies, implies_true, and_true]
  exact ⟨max0_sound, max1_sound, max2_sound, max3_sound, max4_sound, max5_sound, max6_sound, max7_sound, max8_sound, max9_sound, max10_sound, max11_sound, max12_sound, max13_sound, max14_sound, max15_sound, max16_sound, max17_sound, max18_sound, max19_sound, max20_sound, max21_sound, max22_sound, max23_sound, max24_sound, max25_sound, max26_sound, max27_sound, max28_sound, max29_sound, max30_sound, max31_sound, max32_sound, max33_sound, max34_sound, max35_sound, max36_sound, max37_sound, max38_sound, max39_sound, max40_sound, max41_sound, max42_sound, max43_sound, max44_sound, max45_sound, max46_sound, max47_sound, max48_sound, max49_sound, max50_sound, max51_sound, max52_sound, max53_sound, max54_sound, max55_sound, max56_sound, max57_sound, max58_sound, max59_sound, max60_sound, max61_sound, max62_sound, max63_sound, max64_sound⟩

end Slinky.Rules
