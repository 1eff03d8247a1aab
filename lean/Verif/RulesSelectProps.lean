import Verif.RuleTac
import Verif.RuleLemmas

/-!
# The rules of `apply_select_rules` are identities (C12)
Generated by tools/rules_proofs.py (statements) with proofs from tools/rules_overrides.py.
-/

namespace Slinky.Rules
open Slinky

theorem select0_sound : RuleSound select0 := by
  refine Or.inr fun σ κ π hπ hs => AltsStatic.sound ?_
  rule_simp select0
  rule_auto

theorem select1_sound : RuleSound select1 := by
  refine Or.inr fun σ κ π hπ hs => AltsStatic.sound ?_
  rule_simp select1
  rule_auto

theorem select2_sound : RuleSound select2 := by
  refine Or.inr fun σ κ π hπ hs => AltsStatic.sound ?_
  rule_simp select2
  rule_auto

theorem select3_sound : RuleSound select3 := by
  refine Or.inr fun σ κ π hπ hs => AltsStatic.sound ?_
  rule_simp select3
  rule_auto

theorem select4_sound : RuleSound select4 := by
  refine Or.inr fun σ κ π hπ hs => AltsStatic.sound ?_
  rule_simp select4
  rule_auto

theorem select5_sound : RuleSound select5 := by
  refine Or.inr fun σ κ π hπ hs => AltsStatic.sound ?_
  rule_simp select5
  rule_auto

theorem select6_sound : RuleSound select6 := by
  refine Or.inr fun σ κ π hπ hs => AltsStatic.sound ?_
  rule_simp select6
  rule_auto

theorem select7_sound : RuleSound select7 := by
  refine Or.inr fun σ κ π hπ hs => AltsStatic.sound ?_
  rule_simp select7
  rule_auto

theorem select8_sound : RuleSound select8 := by
  refine Or.inr fun σ κ π hπ hs => AltsStatic.sound ?_
  rule_simp select8
  rule_auto

theorem select9_sound : RuleSound select9 := by
  refine Or.inr fun σ κ π hπ hs => AltsStatic.sound ?_
  rule_simp select9
  rule_auto

theorem select10_sound : RuleSound select10 := by
  refine Or.inr fun σ κ π hπ hs => AltsStatic.sound ?_
  rule_simp select10
  rule_auto

theorem select11_sound : RuleSound select11 := by
  refine Or.inr fun σ κ π hπ hs => AltsStatic.sound ?_
  rule_simp select11
  rule_auto

theorem select12_sound : RuleSound select12 := by
  refine Or.inr fun σ κ π hπ hs => AltsStatic.sound ?_
  rule_simp select12
  rule_auto

theorem select13_sound : RuleSound select13 := by
  refine Or.inr fun σ κ π hπ hs => AltsStatic.sound ?_
  rule_simp select13
  rule_auto

theorem select14_sound : RuleSound select14 := by
  refine Or.inr fun σ κ π hπ hs => AltsStatic.sound ?_
  rule_simp select14
  rule_auto

theorem select15_sound : RuleSound select15 := by
  refine Or.inr fun σ κ π hπ hs => AltsStatic.sound ?_
  rule_simp select15
  rule_auto

theorem select16_sound : RuleSound select16 := by
  refine Or.inr fun σ κ π hπ hs => AltsStatic.sound ?_
  rule_simp select16
  rule_auto

theorem select17_sound : RuleSound select17 := by
  refine Or.inr fun σ κ π hπ hs => AltsStatic.sound ?_
  rule_simp select17
  rule_auto

theorem select18_sound : RuleSound select18 := by
  refine Or.inr fun σ κ π hπ hs => AltsStatic.sound ?_
  rule_simp select18
  rule_auto

theorem select19_sound : RuleSound select19 := by
  refine Or.inr fun σ κ π hπ hs => AltsStatic.sound ?_
  have hp0 := hπ.bool 1
  rule_simp select19
  rule_auto

theorem select20_sound : RuleSound select20 := by
  refine Or.inr fun σ κ π hπ hs => AltsStatic.sound ?_
  have hp0 := hπ.bool 1
  rule_simp select20
  rule_auto

theorem select21_sound : RuleSound select21 := by
  refine Or.inr fun σ κ π hπ hs => AltsStatic.sound ?_
  have hp0 := hπ.bool 1
  rule_simp select21
  rule_auto

theorem select22_sound : RuleSound select22 := by
  refine Or.inr fun σ κ π hπ hs => AltsStatic.sound ?_
  have hp0 := hπ.bool 1
  rule_simp select22
  rule_auto

theorem select23_sound : RuleSound select23 := by
  refine Or.inr fun σ κ π hπ hs => AltsStatic.sound ?_
  rule_simp select23
  rule_auto

theorem select24_sound : RuleSound select24 := by
  refine Or.inr fun σ κ π hπ hs => AltsStatic.sound ?_
  rule_simp select24
  rule_auto

theorem select25_sound : RuleSound select25 := by
  refine Or.inr fun σ κ π hπ hs => AltsStatic.sound ?_
  rule_simp select25
  rule_auto

theorem select26_sound : RuleSound select26 := by
  refine Or.inr fun σ κ π hπ hs => AltsStatic.sound ?_
  rule_simp select26
  rule_auto

theorem select27_sound : RuleSound select27 := by
  refine Or.inr fun σ κ π hπ hs => AltsStatic.sound ?_
  rule_simp select27
  rule_auto

theorem select28_sound : RuleSound select28 := by
  refine Or.inr fun σ κ π hπ hs => AltsStatic.sound ?_
  rule_simp select28
  rule_auto

theorem select29_sound : RuleSound select29 := by
  refine Or.inr fun σ κ π hπ hs => AltsStatic.sound ?_
  rule_simp select29
  rule_auto

theorem select30_sound : RuleSound select30 := by
  refine Or.inr fun σ κ π hπ hs => AltsStatic.sound ?_
  rule_simp select30
  rule_auto

theorem select31_sound : RuleSound select31 := by
  refine Or.inr fun σ κ π hπ hs => AltsStatic.sound ?_
  rule_simp select31
  rule_auto

theorem select32_sound : RuleSound select32 := by
  refine Or.inr fun σ κ π hπ hs => AltsStatic.sound ?_
  rule_simp select32
  rule_auto

theorem select33_sound : RuleSound select33 := by
  refine Or.inr fun σ κ π hπ hs => AltsStatic.sound ?_
  rule_simp select33
  rule_auto

theorem select34_sound : RuleSound select34 := by
  refine Or.inr fun σ κ π hπ hs => AltsStatic.sound ?_
  rule_simp select34
  rule_auto

theorem select35_sound : RuleSound select35 := by
  refine Or.inr fun σ κ π hπ hs => AltsStatic.sound ?_
  rule_simp select35
  rule_auto

theorem select36_sound : RuleSound select36 := by
  refine Or.inr fun σ κ π hπ hs => AltsStatic.sound ?_
  rule_simp select36
  rule_auto

theorem select37_sound : RuleSound select37 := by
  refine Or.inr fun σ κ π hπ hs => AltsStatic.sound ?_
  rule_simp select37
  rule_auto

theorem select38_sound : RuleSound select38 := by
  refine Or.inr fun σ κ π hπ hs => AltsStatic.sound ?_
  rule_simp select38
  rule_auto

/-- C12: every rule of `apply_select_rules` is an identity. -/
theorem selectRules_sound : ∀ r ∈ selectRules, RuleSound r := by
  simp only [selectRules, List.forall_mem_cons, List.not_mem_nil, false_implies, implies_true, and_true]
  exact ⟨select0_sound, select1_sound, select2_sound, select3_sound, select4_sound, select5_sound, select6_sound, select7_sound, select8_sound, select9_sound, select10_sound, select11_sound, select12_sound, select13_sound, select14_sound, select15_sound, select16_sound, select17_sound, select18_sound, select19_sound, select20_sound, select21_sound, select22_sound, select23_sound, select24_sound, select25_sound, select26_sound, select27_sound, select28_sound, select29_sound, select30_sound, select31_sound, select32_sound, select33_sound, select34_sound, select35_sound, select36_sound, select37_sound, select38_sound⟩

end Slinky.Rules
