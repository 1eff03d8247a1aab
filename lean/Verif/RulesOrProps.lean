import Verif.RuleTac
import Verif.RuleLemmas

/-!
# The rules of `apply_logical_or_rules` are identities (C12)
Generated by tools/rules_proofs.py (statements) with proofs from tools/rules_overrides.py.
-/

namespace Slinky.Rules
open Slinky

theorem or0_sound : RuleSound or0 := by
  refine Or.inr fun σ κ π hπ hs => AltsStatic.sound ?_
  rule_simp or0
  rule_auto

theorem or1_sound : RuleSound or1 := by
  refine Or.inr fun σ κ π hπ hs => AltsStatic.sound ?_
  rule_simp or1
  rule_auto

theorem or2_sound : RuleSound or2 := by
  refine Or.inr fun σ κ π hπ hs => AltsStatic.sound ?_
  rule_simp or2
  rule_auto

theorem or3_sound : RuleSound or3 := by
  refine Or.inr fun σ κ π hπ hs => AltsStatic.sound ?_
  rule_simp or3
  rule_auto

theorem or4_sound : RuleSound or4 := by
  refine Or.inr fun σ κ π hπ hs => AltsStatic.sound ?_
  rule_simp or4
  rule_auto

theorem or5_sound : RuleSound or5 := by
  refine Or.inr fun σ κ π hπ hs => AltsStatic.sound ?_
  rule_simp or5
  rule_auto

theorem or6_sound : RuleSound or6 := by
  refine Or.inr fun σ κ π hπ hs => AltsStatic.sound ?_
  rule_simp or6
  rule_auto

theorem or7_sound : RuleSound or7 := by
  refine Or.inr fun σ κ π hπ hs => AltsStatic.sound ?_
  rule_simp or7
  rule_auto

theorem or8_sound : RuleSound or8 := by
  refine Or.inr fun σ κ π hπ hs => AltsStatic.sound ?_
  rule_simp or8
  rule_auto

theorem or9_sound : RuleSound or9 := by
  refine Or.inr fun σ κ π hπ hs => AltsStatic.sound ?_
  rule_simp or9
  rule_auto

theorem or10_sound : RuleSound or10 := by
  refine Or.inr fun σ κ π hπ hs => AltsStatic.sound ?_
  rule_simp or10
  rule_auto

theorem or11_sound : RuleSound or11 := by
  refine Or.inr fun σ κ π hπ hs => AltsStatic.sound ?_
  rule_simp or11
  rule_auto

theorem or12_sound : RuleSound or12 := by
  refine Or.inr fun σ κ π hπ hs => AltsStatic.sound ?_
  rule_simp or12
  rule_auto

theorem or13_sound : RuleSound or13 := by
  refine Or.inr fun σ κ π hπ hs => AltsStatic.sound ?_
  rule_simp or13
  rule_auto

theorem or14_sound : RuleSound or14 := by
  refine Or.inr fun σ κ π hπ hs => AltsStatic.sound ?_
  rule_simp or14
  rule_auto

theorem or15_sound : RuleSound or15 := by
  refine Or.inr fun σ κ π hπ hs => AltsStatic.sound ?_
  rule_simp or15
  rule_auto

theorem or16_sound : RuleSound or16 := by
  refine Or.inr fun σ κ π hπ hs => AltsStatic.sound ?_
  rule_simp or16
  rule_auto

theorem or17_sound : RuleSound or17 := by
  refine Or.inr fun σ κ π hπ hs => AltsStatic.sound ?_
  rule_simp or17
  rule_auto

theorem or18_sound : RuleSound or18 := by
  refine Or.inr fun σ κ π hπ hs => AltsStatic.sound ?_
  rule_simp or18
  rule_auto

theorem or19_sound : RuleSound or19 := by
  refine Or.inr fun σ κ π hπ hs => AltsStatic.sound ?_
  rule_simp or19
  rule_auto

theorem or20_sound : RuleSound or20 := by
  refine Or.inr fun σ κ π hπ hs => AltsStatic.sound ?_
  rule_simp or20
  rule_auto

theorem or21_sound : RuleSound or21 := by
  refine Or.inr fun σ κ π hπ hs => AltsStatic.sound ?_
  rule_simp or21
  rule_auto

theorem or22_sound : RuleSound or22 := by
  refine Or.inr fun σ κ π hπ hs => AltsStatic.sound ?_
  rule_simp or22
  rule_auto

theorem or23_sound : RuleSound or23 := by
  refine Or.inr fun σ κ π hπ hs => AltsStatic.sound ?_
  rule_simp or23
  rule_auto

theorem or24_sound : RuleSound or24 := by
  refine Or.inr fun σ κ π hπ hs => AltsStatic.sound ?_
  rule_simp or24
  rule_auto

theorem or25_sound : RuleSound or25 := by
  refine Or.inr fun σ κ π hπ hs => AltsStatic.sound ?_
  rule_simp or25
  rule_auto

theorem or26_sound : RuleSound or26 := by
  refine Or.inr fun σ κ π hπ hs => AltsStatic.sound ?_
  rule_simp or26
  rule_auto

theorem or27_sound : RuleSound or27 := by
  refine Or.inr fun σ κ π hπ hs => AltsStatic.sound ?_
  rule_simp or27
  rule_auto

theorem or28_sound : RuleSound or28 := by
  refine Or.inr fun σ κ π hπ hs => AltsStatic.sound ?_
  rule_simp or28
  rule_auto

theorem or29_sound : RuleSound or29 := by
  refine Or.inr fun σ κ π hπ hs => AltsStatic.sound ?_
  rule_simp or29
  rule_auto

theorem or30_sound : RuleSound or30 := by
  refine Or.inr fun σ κ π hπ hs => AltsStatic.sound ?_
  rule_simp or30
  rule_auto

theorem or31_sound : RuleSound or31 := by
  refine Or.inr fun σ κ π hπ hs => AltsStatic.sound ?_
  rule_simp or31
  rule_auto

theorem or32_sound : RuleSound or32 := by
  refine Or.inr fun σ κ π hπ hs => AltsStatic.sound ?_
  rule_simp or32
  rule_auto

theorem or33_sound : RuleSound or33 := by
  refine Or.inr fun σ κ π hπ hs => AltsStatic.sound ?_
  rule_simp or33
  rule_auto

theorem or34_sound : RuleSound or34 := by
  refine Or.inr fun σ κ π hπ hs => AltsStatic.sound ?_
  rule_simp or34
  rule_auto

theorem or35_sound : RuleSound or35 := by
  refine Or.inr fun σ κ π hπ hs => AltsStatic.sound ?_
  have hp0 := hπ.bool 1
  rule_simp or35
  rule_auto

theorem or36_sound : RuleSound or36 := by
  refine Or.inr fun σ κ π hπ hs => AltsStatic.sound ?_
  have hp0 := hπ.bool 1
  rule_simp or36
  rule_auto

/-- C12: every rule of `apply_logical_or_rules` is an identity. -/
theorem orRules_sound : ∀ r ∈ orRules, RuleSound r := by
  simp only [orRules, List.forall_mem_cons, List.not_mem_nil, false_implies, implies_true, and_true]
  exact ⟨or0_sound, or1_sound, or2_sound, or3_sound, or4_sound, or5_sound, or6_sound, or7_sound, or8_sound, or9_sound, or10_sound, or11_sound, or12_sound, or13_sound, or14_sound, or15_sound, or16_sound, or17_sound, or18_sound, or19_sound, or20_sound, or21_sound, or22_sound, or23_sound, or24_sound, or25_sound, or26_sound, or27_sound, or28_sound, or29_sound, or30_sound, or31_sound, or32_sound, or33_sound, or34_sound, or35_sound, or36_sound⟩

end Slinky.Rules
