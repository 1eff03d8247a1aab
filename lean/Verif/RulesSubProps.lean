import Verif.RuleTac
import Verif.RuleLemmas

/-!
# The rules of `apply_sub_rules` are identities (C12)
Generated by tools/rules_proofs.py (statements) with proofs from tools/rules_overrides.py.
-/

namespace Slinky.Rules
open Slinky

theorem sub0_sound : RuleSound sub0 := by
  exact Or.inl rfl

theorem sub1_sound : RuleSound sub1 := by
  exact Or.inl rfl

theorem sub2_sound : RuleSound sub2 := by
  refine Or.inr fun σ κ π hπ hs => AltsStatic.sound ?_
  rule_simp sub2
  rule_auto

theorem sub3_sound : RuleSound sub3 := by
  refine Or.inr fun σ κ π hπ hs => AltsStatic.sound ?_
  rule_simp sub3
  rule_auto

theorem sub4_sound : RuleSound sub4 := by
  refine Or.inr fun σ κ π hπ hs => AltsStatic.sound ?_
  rule_simp sub4
  rule_auto

theorem sub5_sound : RuleSound sub5 := by
  refine Or.inr fun σ κ π hπ hs => AltsStatic.sound ?_
  rule_simp sub5
  intro h
  rw [show 0 - (κ 0) = -(κ 0) by omega, Int.ediv_neg]
  omega

theorem sub6_sound : RuleSound sub6 := by
  refine Or.inr fun σ κ π hπ hs => AltsStatic.sound ?_
  rule_simp sub6
  rule_auto

theorem sub7_sound : RuleSound sub7 := by
  refine Or.inr fun σ κ π hπ hs => AltsStatic.sound ?_
  rule_simp sub7
  rule_auto

theorem sub8_sound : RuleSound sub8 := by
  refine Or.inr fun σ κ π hπ hs => AltsStatic.sound ?_
  rule_simp sub8
  rule_auto

theorem sub9_sound : RuleSound sub9 := by
  refine Or.inr fun σ κ π hπ hs => AltsStatic.sound ?_
  rule_simp sub9
  rule_auto

theorem sub10_sound : RuleSound sub10 := by
  refine Or.inr fun σ κ π hπ hs => AltsStatic.sound ?_
  rule_simp sub10
  rule_auto

theorem sub11_sound : RuleSound sub11 := by
  refine Or.inr fun σ κ π hπ hs => AltsStatic.sound ?_
  rule_simp sub11
  rule_auto

theorem sub12_sound : RuleSound sub12 := by
  refine Or.inr fun σ κ π hπ hs => AltsStatic.sound ?_
  rule_simp sub12
  rule_auto

theorem sub13_sound : RuleSound sub13 := by
  refine Or.inr fun σ κ π hπ hs => AltsStatic.sound ?_
  rule_simp sub13
  rule_auto

theorem sub14_sound : RuleSound sub14 := by
  refine Or.inr fun σ κ π hπ hs => AltsStatic.sound ?_
  rule_simp sub14
  rule_auto

theorem sub15_sound : RuleSound sub15 := by
  refine Or.inr fun σ κ π hπ hs => AltsStatic.sound ?_
  rule_simp sub15
  intro h
  rw [if_neg (by omega), if_neg (by omega), Int.add_emod_emod]
  obtain ⟨h1, h2, h3⟩ := RL.divmod ((σ 0) + (κ 1)) h
  have e : (σ 0) + (σ 1) = ((σ 1) - (κ 1) + ((σ 0) + (κ 1)) % (κ 0)) + (((σ 0) + (κ 1)) / (κ 0)) * (κ 0) := by omega
  rw [e, RL.add_mul _ _ (by omega)]
  omega

theorem sub16_sound : RuleSound sub16 := by
  refine Or.inr fun σ κ π hπ hs => AltsStatic.sound ?_
  rule_simp sub16
  intro h
  rw [if_neg (by omega), if_neg (by omega), Int.add_emod_emod]
  obtain ⟨h1, h2, h3⟩ := RL.divmod ((σ 0) + (κ 1)) h
  have e : (σ 0) + (σ 1) = ((σ 1) - (κ 1) + ((σ 0) + (κ 1)) % (κ 0)) + (((σ 0) + (κ 1)) / (κ 0)) * (κ 0) := by omega
  rw [e, RL.add_mul _ _ (by omega)]
  obtain ⟨g1, g2, g3⟩ := RL.divmod ((σ 1) - (κ 1) + ((σ 0) + (κ 1)) % (κ 0)) h
  have e2 : (κ 0) + (κ 1) - 1 - (σ 1) - ((σ 0) + (κ 1)) % (κ 0) = ((κ 0) - 1 - ((σ 1) - (κ 1) + ((σ 0) + (κ 1)) % (κ 0)) % (κ 0)) + (-(((σ 1) - (κ 1) + ((σ 0) + (κ 1)) % (κ 0)) / (κ 0))) * (κ 0) := by
    have : (-(((σ 1) - (κ 1) + ((σ 0) + (κ 1)) % (κ 0)) / (κ 0))) * (κ 0) = - (((σ 1) - (κ 1) + ((σ 0) + (κ 1)) % (κ 0)) / (κ 0) * (κ 0)) := by ring
    omega
  have e3 : ((κ 0) - 1 - ((σ 1) - (κ 1) + ((σ 0) + (κ 1)) % (κ 0)) % (κ 0)) / (κ 0) = 0 := Int.ediv_eq_zero_of_lt (by omega) (by omega)
  rw [e2, RL.add_mul _ _ (by omega), e3]
  omega

theorem sub17_sound : RuleSound sub17 := by
  refine Or.inr fun σ κ π hπ hs => AltsStatic.sound ?_
  rule_simp sub17
  intro h
  rw [if_neg (by omega), if_neg (by omega), Int.add_emod_emod]
  obtain ⟨h1, h2, h3⟩ := RL.divmod ((σ 0) + (κ 1)) h
  have e : (σ 0) - (σ 1) = (((σ 0) + (κ 1)) % (κ 0) - (σ 1) - (κ 1)) + (((σ 0) + (κ 1)) / (κ 0)) * (κ 0) := by omega
  rw [e, RL.add_mul _ _ (by omega)]
  omega

theorem sub18_sound : RuleSound sub18 := by
  refine Or.inr fun σ κ π hπ hs => AltsStatic.sound ?_
  rule_simp sub18
  intro h
  rw [if_neg (by omega), if_neg (by omega), Int.add_emod_emod]
  obtain ⟨h1, h2, h3⟩ := RL.divmod ((σ 0) + (κ 1)) h
  have e : (σ 0) - (σ 1) = (((σ 0) + (κ 1)) % (κ 0) - (σ 1) - (κ 1)) + (((σ 0) + (κ 1)) / (κ 0)) * (κ 0) := by omega
  rw [e, RL.add_mul _ _ (by omega)]
  obtain ⟨g1, g2, g3⟩ := RL.divmod (((σ 0) + (κ 1)) % (κ 0) - (σ 1) - (κ 1)) h
  have e2 : (σ 1) + ((κ 0) + (κ 1) - 1) - ((σ 0) + (κ 1)) % (κ 0) = ((κ 0) - 1 - (((σ 0) + (κ 1)) % (κ 0) - (σ 1) - (κ 1)) % (κ 0)) + (-((((σ 0) + (κ 1)) % (κ 0) - (σ 1) - (κ 1)) / (κ 0))) * (κ 0) := by
    have : (-((((σ 0) + (κ 1)) % (κ 0) - (σ 1) - (κ 1)) / (κ 0))) * (κ 0) = - ((((σ 0) + (κ 1)) % (κ 0) - (σ 1) - (κ 1)) / (κ 0) * (κ 0)) := by ring
    omega
  have e3 : ((κ 0) - 1 - (((σ 0) + (κ 1)) % (κ 0) - (σ 1) - (κ 1)) % (κ 0)) / (κ 0) = 0 := Int.ediv_eq_zero_of_lt (by omega) (by omega)
  rw [e2, RL.add_mul _ _ (by omega), e3]
  omega

theorem sub19_sound : RuleSound sub19 := by
  refine Or.inr fun σ κ π hπ hs => AltsStatic.sound ?_
  rule_simp sub19
  intro h
  rw [if_neg (by omega)]
  have := RL.divmod (σ 0) h
  omega

theorem sub20_sound : RuleSound sub20 := by
  refine Or.inr fun σ κ π hπ hs => AltsStatic.sound ?_
  rule_simp sub20
  intro h
  rw [if_neg (by omega)]
  have := RL.divmod (σ 0) h
  omega

theorem sub21_sound : RuleSound sub21 := by
  refine Or.inr fun σ κ π hπ hs => AltsStatic.sound ?_
  rule_simp sub21
  rule_auto

theorem sub22_sound : RuleSound sub22 := by
  refine Or.inr fun σ κ π hπ hs => AltsStatic.sound ?_
  rule_simp sub22
  rule_auto

theorem sub23_sound : RuleSound sub23 := by
  refine Or.inr fun σ κ π hπ hs => AltsStatic.sound ?_
  rule_simp sub23
  rule_auto

theorem sub24_sound : RuleSound sub24 := by
  refine Or.inr fun σ κ π hπ hs => AltsStatic.sound ?_
  rule_simp sub24
  rule_auto

theorem sub25_sound : RuleSound sub25 := by
  refine Or.inr fun σ κ π hπ hs => AltsStatic.sound ?_
  rule_simp sub25
  rule_auto

theorem sub26_sound : RuleSound sub26 := by
  refine Or.inr fun σ κ π hπ hs => AltsStatic.sound ?_
  rule_simp sub26
  rule_auto

theorem sub27_sound : RuleSound sub27 := by
  refine Or.inr fun σ κ π hπ hs => AltsStatic.sound ?_
  rule_simp sub27
  rule_auto

theorem sub28_sound : RuleSound sub28 := by
  refine Or.inr fun σ κ π hπ hs => AltsStatic.sound ?_
  rule_simp sub28
  rule_auto

theorem sub29_sound : RuleSound sub29 := by
  refine Or.inr fun σ κ π hπ hs => AltsStatic.sound ?_
  rule_simp sub29
  rule_auto

theorem sub30_sound : RuleSound sub30 := by
  refine Or.inr fun σ κ π hπ hs => AltsStatic.sound ?_
  rule_simp sub30
  rule_auto

theorem sub31_sound : RuleSound sub31 := by
  refine Or.inr fun σ κ π hπ hs => AltsStatic.sound ?_
  rule_simp sub31
  rule_auto

theorem sub32_sound : RuleSound sub32 := by
  refine Or.inr fun σ κ π hπ hs => AltsStatic.sound ?_
  rule_simp sub32
  rule_auto

theorem sub33_sound : RuleSound sub33 := by
  refine Or.inr fun σ κ π hπ hs => AltsStatic.sound ?_
  rule_simp sub33
  rule_auto

theorem sub34_sound : RuleSound sub34 := by
  refine Or.inr fun σ κ π hπ hs => AltsStatic.sound ?_
  rule_simp sub34
  rule_auto

theorem sub35_sound : RuleSound sub35 := by
  refine Or.inr fun σ κ π hπ hs => AltsStatic.sound ?_
  rule_simp sub35
  rule_auto

theorem sub36_sound : RuleSound sub36 := by
  refine Or.inr fun σ κ π hπ hs => AltsStatic.sound ?_
  rule_simp sub36
  rule_auto

theorem sub37_sound : RuleSound sub37 := by
  refine Or.inr fun σ κ π hπ hs => AltsStatic.sound ?_
  rule_simp sub37
  intro h
  rw [RL.max_ediv _ _ h, RL.min_ediv _ _ h]
  omega

theorem sub38_sound : RuleSound sub38 := by
  refine Or.inr fun σ κ π hπ hs => AltsStatic.sound ?_
  rule_simp sub38
  intro h
  rw [RL.max_ediv _ _ h, RL.min_ediv _ _ h]
  omega

theorem sub39_sound : RuleSound sub39 := by
  refine Or.inr fun σ κ π hπ hs => AltsStatic.sound ?_
  rule_simp sub39
  rule_auto

theorem sub40_sound : RuleSound sub40 := by
  refine Or.inr fun σ κ π hπ hs => AltsStatic.sound ?_
  rule_simp sub40
  rule_auto

theorem sub41_sound : RuleSound sub41 := by
  refine Or.inr fun σ κ π hπ hs => AltsStatic.sound ?_
  rule_simp sub41
  rule_auto

theorem sub42_sound : RuleSound sub42 := by
  refine Or.inr fun σ κ π hπ hs => AltsStatic.sound ?_
  rule_simp sub42
  rule_auto

theorem sub43_sound : RuleSound sub43 := by
  refine Or.inr fun σ κ π hπ hs => AltsStatic.sound ?_
  rule_simp sub43
  rule_auto

theorem sub44_sound : RuleSound sub44 := by
  refine Or.inr fun σ κ π hπ hs => AltsStatic.sound ?_
  rule_simp sub44
  rule_auto

theorem sub45_sound : RuleSound sub45 := by
  refine Or.inr fun σ κ π hπ hs => AltsStatic.sound ?_
  rule_simp sub45
  rule_auto

theorem sub46_sound : RuleSound sub46 := by
  refine Or.inr fun σ κ π hπ hs => AltsStatic.sound ?_
  rule_simp sub46
  rule_auto

theorem sub47_sound : RuleSound sub47 := by
  refine Or.inr fun σ κ π hπ hs => AltsStatic.sound ?_
  rule_simp sub47
  rule_auto

theorem sub48_sound : RuleSound sub48 := by
  refine Or.inr fun σ κ π hπ hs => AltsStatic.sound ?_
  rule_simp sub48
  rule_auto

theorem sub49_sound : RuleSound sub49 := by
  refine Or.inr fun σ κ π hπ hs => AltsStatic.sound ?_
  rule_simp sub49
  rule_auto

/-- C12: every rule of `apply_sub_rules` is an identity. -/
theorem subRules_sound : ∀ r ∈ subRules, RuleSound r := by
  simp only [subRules, List.forall_mem_cons, List.not_mem_nil, false_implies, implies_true, and_true]
  exact ⟨sub0_sound, sub1_sound, sub2_sound, sub3_sound, sub4_sound, sub5_sound, sub6_sound, sub7_sound, sub8_sound, sub9_sound, sub10_sound, sub11_sound, sub12_sound, sub13_sound, sub14_sound, sub15_sound, sub16_sound, sub17_sound, sub18_sound, sub19_sound, sub20_sound, sub21_sound, sub22_sound, sub23_sound, sub24_sound, sub25_sound, sub26_sound, sub27_sound, sub28_sound, sub29_sound, sub30_sound, sub31_sound, sub32_sound, sub33_sound, sub34_sound, sub35_sound, sub36_sound, sub37_sound, sub38_sound, sub39_sound, sub40_sound, sub41_sound, sub42_sound, sub43_sound, sub44_sound, sub45_sound, sub46_sound, sub47_sound, sub48_sound, sub49_sound⟩

end Slinky.Rules
