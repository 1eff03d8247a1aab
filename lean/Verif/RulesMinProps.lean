import Verif.RuleTac
import Verif.RuleLemmas

/-!
# The rules of `apply_min_rules` are identities (C12)
Generated by tools/rules_proofs.py (statements) with proofs from tools/rules_overrides.py.
-/

namespace Slinky.Rules
open Slinky

theorem min0_sound : RuleSound min0 := by
  refine Or.inr fun σ κ π hπ hs => AltsStatic.sound ?_
  rule_simp min0
  simp only [Side.Holds, InRange, min0] at hs
  norm_num at hs
  simp only [i64max, i64min]
  omega

theorem min1_sound : RuleSound min1 := by
  exact Or.inl rfl

theorem min2_sound : RuleSound min2 := by
  refine Or.inr fun σ κ π hπ hs => AltsStatic.sound ?_
  rule_simp min2
  simp only [Side.Holds, InRange, min2] at hs
  norm_num at hs
  simp only [i64max, i64min]
  omega

theorem min3_sound : RuleSound min3 := by
  exact Or.inl rfl

theorem min4_sound : RuleSound min4 := by
  refine Or.inr fun σ κ π hπ hs => AltsStatic.sound ?_
  rule_simp min4
  rule_auto

theorem min5_sound : RuleSound min5 := by
  refine Or.inr fun σ κ π hπ hs => AltsStatic.sound ?_
  have hp0 := hπ.bool 0
  have hp1 := hπ.bool 1
  rule_simp min5
  rule_auto

theorem min6_sound : RuleSound min6 := by
  refine Or.inr fun σ κ π hπ hs => AltsStatic.sound ?_
  rule_simp min6
  refine ⟨fun h => ?_, fun _ h => ?_⟩ <;> rw [RL.max_ediv (σ 0) (κ 0) (by omega)] <;> omega

theorem min7_sound : RuleSound min7 := by
  refine Or.inr fun σ κ π hπ hs => AltsStatic.sound ?_
  rule_simp min7
  refine ⟨fun h => ?_, fun _ h => ?_⟩ <;> rw [RL.max_ediv (σ 0) (κ 0) (by omega)] <;> omega

theorem min8_sound : RuleSound min8 := by
  refine Or.inr fun σ κ π hπ hs => AltsStatic.sound ?_
  rule_simp min8
  rule_auto

theorem min9_sound : RuleSound min9 := by
  refine Or.inr fun σ κ π hπ hs => AltsStatic.sound ?_
  rule_simp min9
  rule_auto

theorem min10_sound : RuleSound min10 := by
  refine Or.inr fun σ κ π hπ hs => AltsStatic.sound ?_
  rule_simp min10
  rule_auto

theorem min11_sound : RuleSound min11 := by
  refine Or.inr fun σ κ π hπ hs => AltsStatic.sound ?_
  rule_simp min11
  rule_auto

theorem min12_sound : RuleSound min12 := by
  refine Or.inr fun σ κ π hπ hs => AltsStatic.sound ?_
  rule_simp min12
  rule_auto

theorem min13_sound : RuleSound min13 := by
  refine Or.inr fun σ κ π hπ hs => AltsStatic.sound ?_
  rule_simp min13
  rule_auto

theorem min14_sound : RuleSound min14 := by
  refine Or.inr fun σ κ π hπ hs => AltsStatic.sound ?_
  rule_simp min14
  rule_auto

theorem min15_sound : RuleSound min15 := by
  refine Or.inr fun σ κ π hπ hs => AltsStatic.sound ?_
  rule_simp min15
  rule_auto

theorem min16_sound : RuleSound min16 := by
  refine Or.inr fun σ κ π hπ hs => AltsStatic.sound ?_
  rule_simp min16
  rule_auto

theorem min17_sound : RuleSound min17 := by
  refine Or.inr fun σ κ π hπ hs => AltsStatic.sound ?_
  rule_simp min17
  rule_auto

theorem min18_sound : RuleSound min18 := by
  refine Or.inr fun σ κ π hπ hs => AltsStatic.sound ?_
  rule_simp min18
  rule_auto

theorem min19_sound : RuleSound min19 := by
  refine Or.inr fun σ κ π hπ hs => AltsStatic.sound ?_
  rule_simp min19
  rule_auto

theorem min20_sound : RuleSound min20 := by
  refine Or.inr fun σ κ π hπ hs => AltsStatic.sound ?_
  rule_simp min20
  rule_auto

theorem min21_sound : RuleSound min21 := by
  refine Or.inr fun σ κ π hπ hs => AltsStatic.sound ?_
  rule_simp min21
  rule_auto

theorem min22_sound : RuleSound min22 := by
  refine Or.inr fun σ κ π hπ hs => AltsStatic.sound ?_
  rule_simp min22
  rule_auto

theorem min23_sound : RuleSound min23 := by
  refine Or.inr fun σ κ π hπ hs => AltsStatic.sound ?_
  rule_simp min23
  rule_auto

theorem min24_sound : RuleSound min24 := by
  refine Or.inr fun σ κ π hπ hs => AltsStatic.sound ?_
  rule_simp min24
  rule_auto

theorem min25_sound : RuleSound min25 := by
  refine Or.inr fun σ κ π hπ hs => AltsStatic.sound ?_
  rule_simp min25
  rule_auto

theorem min26_sound : RuleSound min26 := by
  refine Or.inr fun σ κ π hπ hs => AltsStatic.sound ?_
  rule_simp min26
  rule_auto

theorem min27_sound : RuleSound min27 := by
  refine Or.inr fun σ κ π hπ hs => AltsStatic.sound ?_
  have hp0 := hπ.nonpos 1
  rule_simp min27
  rule_auto

theorem min28_sound : RuleSound min28 := by
  refine Or.inr fun σ κ π hπ hs => AltsStatic.sound ?_
  rule_simp min28
  rule_auto

theorem min29_sound : RuleSound min29 := by
  refine Or.inr fun σ κ π hπ hs => AltsStatic.sound ?_
  rule_simp min29
  rule_auto

theorem min30_sound : RuleSound min30 := by
  refine Or.inr fun σ κ π hπ hs => AltsStatic.sound ?_
  rule_simp min30
  rule_auto

theorem min31_sound : RuleSound min31 := by
  refine Or.inr fun σ κ π hπ hs => AltsStatic.sound ?_
  rule_simp min31
  rule_auto

theorem min32_sound : RuleSound min32 := by
  refine Or.inr fun σ κ π hπ hs => AltsStatic.sound ?_
  rule_simp min32
  rule_auto

theorem min33_sound : RuleSound min33 := by
  refine Or.inr fun σ κ π hπ hs => AltsStatic.sound ?_
  rule_simp min33
  rule_auto

theorem min34_sound : RuleSound min34 := by
  refine Or.inr fun σ κ π hπ hs => AltsStatic.sound ?_
  rule_simp min34
  rule_auto

theorem min35_sound : RuleSound min35 := by
  refine Or.inr fun σ κ π hπ hs => AltsStatic.sound ?_
  rule_simp min35
  rule_auto

theorem min36_sound : RuleSound min36 := by
  refine Or.inr fun σ κ π hπ hs => AltsStatic.sound ?_
  rule_simp min36
  rule_auto

theorem min37_sound : RuleSound min37 := by
  refine Or.inr fun σ κ π hπ hs => AltsStatic.sound ?_
  rule_simp min37
  rule_auto

theorem min38_sound : RuleSound min38 := by
  refine Or.inr fun σ κ π hπ hs => AltsStatic.sound ?_
  rule_simp min38
  rule_auto

theorem min39_sound : RuleSound min39 := by
  refine Or.inr fun σ κ π hπ hs => AltsStatic.sound ?_
  rule_simp min39
  rule_auto

theorem min40_sound : RuleSound min40 := by
  refine Or.inr fun σ κ π hπ hs => AltsStatic.sound ?_
  rule_simp min40
  rule_auto

theorem min41_sound : RuleSound min41 := by
  refine Or.inr fun σ κ π hπ hs => AltsStatic.sound ?_
  rule_simp min41
  rule_auto

theorem min42_sound : RuleSound min42 := by
  refine Or.inr fun σ κ π hπ hs => AltsStatic.sound ?_
  rule_simp min42
  rule_auto

theorem min43_sound : RuleSound min43 := by
  refine Or.inr fun σ κ π hπ hs => AltsStatic.sound ?_
  rule_simp min43
  rule_auto

theorem min44_sound : RuleSound min44 := by
  refine Or.inr fun σ κ π hπ hs => AltsStatic.sound ?_
  rule_simp min44
  rule_auto

theorem min45_sound : RuleSound min45 := by
  refine Or.inr fun σ κ π hπ hs => AltsStatic.sound ?_
  rule_simp min45
  rule_auto

theorem min46_sound : RuleSound min46 := by
  refine Or.inr fun σ κ π hπ hs => AltsStatic.sound ?_
  rule_simp min46
  rule_auto

theorem min47_sound : RuleSound min47 := by
  refine Or.inr fun σ κ π hπ hs => AltsStatic.sound ?_
  rule_simp min47
  rule_auto

theorem min48_sound : RuleSound min48 := by
  refine Or.inr fun σ κ π hπ hs => AltsStatic.sound ?_
  rule_simp min48
  rule_auto

theorem min49_sound : RuleSound min49 := by
  refine Or.inr fun σ κ π hπ hs => AltsStatic.sound ?_
  rule_simp min49
  rule_auto

theorem min50_sound : RuleSound min50 := by
  refine Or.inr fun σ κ π hπ hs => AltsStatic.sound ?_
  rule_simp min50
  rule_auto

theorem min51_sound : RuleSound min51 := by
  refine Or.inr fun σ κ π hπ hs => AltsStatic.sound ?_
  rule_simp min51
  rule_auto

theorem min52_sound : RuleSound min52 := by
  refine Or.inr fun σ κ π hπ hs => AltsStatic.sound ?_
  rule_simp min52
  intro h
  have e := RL.add_mul ((σ 1) + ((κ 1) - (κ 0) * (κ 2))) (κ 0) h
  have e2 : (σ 1) + ((κ 1) - (κ 0) * (κ 2)) + (κ 0) * (κ 2) = (σ 1) + (κ 1) := by ring
  rw [e2] at e
  omega

theorem min53_sound : RuleSound min53 := by
  refine Or.inr fun σ κ π hπ hs => AltsStatic.sound ?_
  rule_simp min53
  rule_auto

theorem min54_sound : RuleSound min54 := by
  refine Or.inr fun σ κ π hπ hs => AltsStatic.sound ?_
  have hp0 := hπ.zero 1
  rule_simp min54
  rule_auto

theorem min55_sound : RuleSound min55 := by
  refine Or.inr fun σ κ π hπ hs => AltsStatic.sound ?_
  rule_simp min55
  rule_auto

theorem min56_sound : RuleSound min56 := by
  refine Or.inr fun σ κ π hπ hs => AltsStatic.sound ?_
  rule_simp min56
  rule_auto

theorem min57_sound : RuleSound min57 := by
  refine Or.inr fun σ κ π hπ hs => ?_
  rule_simp_dyn min57
  refine ⟨fun h _ _ => by omega, fun h h' => ?_⟩
  rcases h with h | h | h
  · omega
  · exact absurd (.inr h) h'
  · exact h.1.elim

theorem min58_sound : RuleSound min58 := by
  refine Or.inr fun σ κ π hπ hs => AltsStatic.sound ?_
  rule_simp min58
  rule_auto

theorem min59_sound : RuleSound min59 := by
  refine Or.inr fun σ κ π hπ hs => AltsStatic.sound ?_
  rule_simp min59
  rule_auto

theorem min60_sound : RuleSound min60 := by
  refine Or.inr fun σ κ π hπ hs => AltsStatic.sound ?_
  rule_simp min60
  refine ⟨fun ⟨h1, h2⟩ => ?_, fun _ ⟨h1, h2⟩ => ?_⟩
  · obtain ⟨q, hq, e⟩ := RL.dvd' h2 (by omega)
    rw [e, hq, RL.min_mul (σ 0) q (by omega)]
  · obtain ⟨q, hq, e⟩ := RL.dvd' h2 (by omega)
    rw [e, hq, RL.max_mul_neg (σ 0) q (by omega)]

theorem min61_sound : RuleSound min61 := by
  refine Or.inr fun σ κ π hπ hs => AltsStatic.sound ?_
  rule_simp min61
  refine ⟨fun ⟨h1, h2⟩ => ?_, fun _ => ⟨fun ⟨h1, h2⟩ => ?_, fun _ => ⟨fun ⟨h1, h2⟩ => ?_, fun _ ⟨h1, h2⟩ => ?_⟩⟩⟩
  · obtain ⟨q, hq, e⟩ := RL.dvd' h2 (by omega)
    rw [e, hq, RL.min_mul _ _ (by omega), Int.mul_assoc]
  · obtain ⟨q, hq, e⟩ := RL.dvd' h2 (by omega)
    rw [e, hq, RL.max_mul_neg _ _ (by omega), Int.mul_assoc]
  · obtain ⟨q, hq, e⟩ := RL.dvd' h2 (by omega)
    rw [e, hq, RL.min_mul _ _ (by omega), Int.mul_assoc, min_comm]
  · obtain ⟨q, hq, e⟩ := RL.dvd' h2 (by omega)
    rw [e, hq, RL.max_mul_neg _ _ (by omega), Int.mul_assoc, min_comm]

theorem min62_sound : RuleSound min62 := by
  refine Or.inr fun σ κ π hπ hs => AltsStatic.sound ?_
  rule_simp min62
  refine ⟨fun ⟨h1, h2⟩ => ?_, fun _ ⟨h1, h2⟩ => ?_⟩
  · obtain ⟨q, hq, e⟩ := RL.dvd' h2 (by omega)
    rw [e, hq, RL.min_mul _ _ (by omega), Int.add_mul, min_comm]
  · obtain ⟨q, hq, e⟩ := RL.dvd' h2 (by omega)
    rw [e, hq, RL.max_mul_neg _ _ (by omega), Int.add_mul, min_comm]

theorem min63_sound : RuleSound min63 := by
  refine Or.inr fun σ κ π hπ hs => AltsStatic.sound ?_
  rule_simp min63
  refine ⟨fun h1 => ?_, fun h1 => ?_⟩
  · rw [RL.min_ediv _ _ (by omega), RL.add_mul _ _ (by omega), min_comm]
  · rw [RL.max_ediv_neg _ _ (by omega), RL.add_mul _ _ (by omega), min_comm]

theorem min64_sound : RuleSound min64 := by
  refine Or.inr fun σ κ π hπ hs => AltsStatic.sound ?_
  rule_simp min64
  refine ⟨fun h1 => ?_, fun h1 => ?_⟩
  · rw [RL.min_ediv _ _ (by omega), Int.mul_ediv_cancel _ (by omega)]
  · rw [RL.max_ediv_neg _ _ (by omega), Int.mul_ediv_cancel _ (by omega)]

theorem min65_sound : RuleSound min65 := by
  refine Or.inr fun σ κ π hπ hs => AltsStatic.sound ?_
  rule_simp min65
  have h1 := RL.stair_min (hs 0) (hs 1) (hs 2) (hs 3) (hs 4) (hs 5) (hs 6) (σ 0)
  have h2 := RL.stair_max (hs 0) (hs 1) (hs 2) (hs 3) (hs 4) (hs 5) (hs 6) (σ 0)
  refine ⟨fun h => ?_, fun h => ?_⟩ <;> omega

theorem min66_sound : RuleSound min66 := by
  refine Or.inr fun σ κ π hπ hs => AltsStatic.sound ?_
  rule_simp min66
  rule_auto

/-- C12: every rule of `apply_min_rules` is an identity. -/
theorem minRules_sound : ∀ r ∈ minRules, RuleSound r := by
  simp only [minRules, List.forall_mem_cons, List.not_mem_nil, false_implies, implies_true, and_true]
  exact ⟨min0_sound, min1_sound, min2_sound, min3_sound, min4_sound, min5_sound, min6_sound, min7_sound, min8_sound, min9_sound, min10_sound, min11_sound, min12_sound, min13_sound, min14_sound, min15_sound, min16_sound, min17_sound, min18_sound, min19_sound, min20_sound, min21_sound, min22_sound, min23_sound, min24_sound, min25_sound, min26_sound, min27_sound, min28_sound, min29_sound, min30_sound, min31_sound, min32_sound, min33_sound, min34_sound, min35_sound, min36_sound, min37_sound, min38_sound, min39_sound, min40_sound, min41_sound, min42_sound, min43_sound, min44_sound, min45_sound, min46_sound, min47_sound, min48_sound, min49_sound, min50_sound, min51_sound, min52_sound, min53_sound, min54_sound, min55_sound, min56_sound, min57_sound, min58_sound, min59_sound, min60_sound, min61_sound, min62_sound, min63_sound, min64_sound, min65_sound, min66_sound⟩

end Slinky.Rules
