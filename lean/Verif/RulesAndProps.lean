import Verif.RuleTac
import Verif.RuleLemmas

/-!
# The rules of `apply_logical_and_rules` are identities (C12)
Generated by tools/rules_proofs.py (statements) with proofs from tools/rules_overrides.py.
-/

namespace Slinky.Rules
open Slinky

theorem and0_sound : RuleSound and0 := by
  refine Or.inr fun σ κ π hπ hs => AltsStatic.sound ?_
  rule_simp and0
  rule_auto

theorem and1_sound : RuleSound and1 := by
  refine Or.inr fun σ κ π hπ hs => AltsStatic.sound ?_
  rule_simp and1
  rule_auto

theorem and2_sound : RuleSound and2 := by
  refine Or.inr fun σ κ π hπ hs => AltsStatic.sound ?_
  rule_simp and2
  rule_auto

theorem and3_sound : RuleSound and3 := by
  refine Or.inr fun σ κ π hπ hs => AltsStatic.sound ?_
  rule_simp and3
  rule_auto

theorem and4_sound : RuleSound and4 := by
  refine Or.inr fun σ κ π hπ hs => AltsStatic.sound ?_
  rule_simp and4
  rule_auto

theorem and5_sound : RuleSound and5 := by
  refine Or.inr fun σ κ π hπ hs => AltsStatic.sound ?_
  rule_simp and5
  rule_auto

theorem and6_sound : RuleSound and6 := by
  refine Or.inr fun σ κ π hπ hs => AltsStatic.sound ?_
  rule_simp and6
  rule_auto

theorem and7_sound : RuleSound and7 := by
  refine Or.inr fun σ κ π hπ hs => AltsStatic.sound ?_
  rule_simp and7
  rule_auto

theorem and8_sound : RuleSound and8 := by
  refine Or.inr fun σ κ π hπ hs => AltsStatic.sound ?_
  rule_simp and8
  rule_auto

theorem and9_sound : RuleSound and9 := by
  refine Or.inr fun σ κ π hπ hs => AltsStatic.sound ?_
  rule_simp and9
  rule_auto

theorem and10_sound : RuleSound and10 := by
  refine Or.inr fun σ κ π hπ hs => AltsStatic.sound ?_
  rule_simp and10
  rule_auto

theorem and11_sound : RuleSound and11 := by
  refine Or.inr fun σ κ π hπ hs => AltsStatic.sound ?_
  rule_simp and11
  rule_auto

theorem and12_sound : RuleSound and12 := by
  refine Or.inr fun σ κ π hπ hs => AltsStatic.sound ?_
  rule_simp and12
  rule_auto

theorem and13_sound : RuleSound and13 := by
  refine Or.inr fun σ κ π hπ hs => AltsStatic.sound ?_
  rule_simp and13
  rule_auto

theorem and14_sound : RuleSound and14 := by
  refine Or.inr fun σ κ π hπ hs => AltsStatic.sound ?_
  rule_simp and14
  rule_auto

theorem and15_sound : RuleSound and15 := by
  refine Or.inr fun σ κ π hπ hs => AltsStatic.sound ?_
  rule_simp and15
  rule_auto

theorem and16_sound : RuleSound and16 := by
  refine Or.inr fun σ κ π hπ hs => AltsStatic.sound ?_
  rule_simp and16
  rule_auto

theorem and17_sound : RuleSound and17 := by
  refine Or.inr fun σ κ π hπ hs => AltsStatic.sound ?_
  rule_simp and17
  rule_auto

theorem and18_sound : RuleSound and18 := by
  refine Or.inr fun σ κ π hπ hs => AltsStatic.sound ?_
  rule_simp and18
  rule_auto

theorem and19_sound : RuleSound and19 := by
  refine Or.inr fun σ κ π hπ hs => AltsStatic.sound ?_
  rule_simp and19
  rule_auto

theorem and20_sound : RuleSound and20 := by
  refine Or.inr fun σ κ π hπ hs => AltsStatic.sound ?_
  rule_simp and20
  rule_auto

theorem and21_sound : RuleSound and21 := by
  refine Or.inr fun σ κ π hπ hs => AltsStatic.sound ?_
  rule_simp and21
  rule_auto

theorem and22_sound : RuleSound and22 := by
  refine Or.inr fun σ κ π hπ hs => AltsStatic.sound ?_
  rule_simp and22
  rule_auto

theorem and23_sound : RuleSound and23 := by
  refine Or.inr fun σ κ π hπ hs => AltsStatic.sound ?_
  rule_simp and23
  rule_auto

theorem and24_sound : RuleSound and24 := by
  refine Or.inr fun σ κ π hπ hs => AltsStatic.sound ?_
  rule_simp and24
  rule_auto

theorem and25_sound : RuleSound and25 := by
  refine Or.inr fun σ κ π hπ hs => AltsStatic.sound ?_
  rule_simp and25
  rule_auto

theorem and26_sound : RuleSound and26 := by
  refine Or.inr fun σ κ π hπ hs => AltsStatic.sound ?_
  rule_simp and26
  rule_auto

theorem and27_sound : RuleSound and27 := by
  refine Or.inr fun σ κ π hπ hs => AltsStatic.sound ?_
  rule_simp and27
  rule_auto

theorem and28_sound : RuleSound and28 := by
  refine Or.inr fun σ κ π hπ hs => AltsStatic.sound ?_
  rule_simp and28
  rule_auto

theorem and29_sound : RuleSound and29 := by
  refine Or.inr fun σ κ π hπ hs => AltsStatic.sound ?_
  rule_simp and29
  rule_auto

theorem and30_sound : RuleSound and30 := by
  refine Or.inr fun σ κ π hπ hs => AltsStatic.sound ?_
  rule_simp and30
  rule_auto

theorem and31_sound : RuleSound and31 := by
  refine Or.inr fun σ κ π hπ hs => AltsStatic.sound ?_
  rule_simp and31
  rule_auto

theorem and32_sound : RuleSound and32 := by
  refine Or.inr fun σ κ π hπ hs => AltsStatic.sound ?_
  rule_simp and32
  rule_auto

theorem and33_sound : RuleSound and33 := by
  refine Or.inr fun σ κ π hπ hs => AltsStatic.sound ?_
  rule_simp and33
  rule_auto

theorem and34_sound : RuleSound and34 := by
  refine Or.inr fun σ κ π hπ hs => AltsStatic.sound ?_
  rule_simp and34
  rule_auto

theorem and35_sound : RuleSound and35 := by
  refine Or.inr fun σ κ π hπ hs => AltsStatic.sound ?_
  rule_simp and35
  rule_auto

theorem and36_sound : RuleSound and36 := by
  refine Or.inr fun σ κ π hπ hs => AltsStatic.sound ?_
  rule_simp and36
  rule_auto

theorem and37_sound : RuleSound and37 := by
  refine Or.inr fun σ κ π hπ hs => AltsStatic.sound ?_
  rule_simp and37
  rule_auto

/-- C12: every rule of `apply_logical_and_rules` is an identity. -/
theorem andRules_sound : ∀ r ∈ andRules, RuleSound r := by
  simp only [andRules, List.forall_mem_cons, List.not_mem_nil, false_implies, implies_true, and_true]
  exact ⟨and0_sound, and1_sound, and2_sound, and3_sound, and4_sound, and5_sound, and6_sound, and7_sound, and8_sound, and9_sound, and10_sound, and11_sound, and12_sound, and13_sound, and14_sound, and15_sound, and16_sound, and17_sound, and18_sound, and19_sound, and20_sound, and21_sound, and22_sound, and23_sound, and24_sound, and25_sound, and26_sound, and27_sound, and28_sound, and29_sound, and30_sound, and31_sound, and32_sound, and33_sound, and34_sound, and35_sound, and36_sound, and37_sound⟩

end Slinky.Rules
