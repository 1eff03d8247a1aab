import Verif.RuleTac
import Verif.RuleLemmas

/-!
# The rules of `apply_logical_not_rules` are identities (C12)
Generated by tools/rules_proofs.py (statements) with proofs from tools/rules_overrides.py.
-/

namespace Slinky.Rules
open Slinky

theorem not0_sound : RuleSound not0 := by
  refine Or.inr fun σ κ π hπ hs => AltsStatic.sound ?_
  rule_simp not0
  rule_auto

theorem not1_sound : RuleSound not1 := by
  refine Or.inr fun σ κ π hπ hs => AltsStatic.sound ?_
  rule_simp not1
  rule_auto

theorem not2_sound : RuleSound not2 := by
  refine Or.inr fun σ κ π hπ hs => AltsStatic.sound ?_
  rule_simp not2
  rule_auto

theorem not3_sound : RuleSound not3 := by
  refine Or.inr fun σ κ π hπ hs => AltsStatic.sound ?_
  rule_simp not3
  rule_auto

theorem not4_sound : RuleSound not4 := by
  refine Or.inr fun σ κ π hπ hs => AltsStatic.sound ?_
  rule_simp not4
  rule_auto

theorem not5_sound : RuleSound not5 := by
  refine Or.inr fun σ κ π hπ hs => AltsStatic.sound ?_
  rule_simp not5
  rule_auto

theorem not6_sound : RuleSound not6 := by
  refine Or.inr fun σ κ π hπ hs => AltsStatic.sound ?_
  rule_simp not6
  rule_auto

theorem not7_sound : RuleSound not7 := by
  refine Or.inr fun σ κ π hπ hs => AltsStatic.sound ?_
  rule_simp not7
  rule_auto

theorem not8_sound : RuleSound not8 := by
  refine Or.inr fun σ κ π hπ hs => AltsStatic.sound ?_
  rule_simp not8
  rule_auto

/-- C12: every rule of `apply_logical_not_rules` is an identity. -/
theorem notRules_sound : ∀ r ∈ notRules, RuleSound r := by
  simp only [notRules, List.forall_mem_cons, List.not_mem_nil, false_implies, implies_true, and_true]
  exact ⟨not0_sound, not1_sound, not2_sound, not3_sound, not4_sound, not5_sound, not6_sound, not7_sound, not8_sound⟩

end Slinky.Rules
