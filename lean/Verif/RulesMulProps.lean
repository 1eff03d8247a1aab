import Verif.RuleTac
import Verif.RuleLemmas

/-!
# The rules of `apply_mul_rules` are identities (C12)
Generated by tools/rules_proofs.py (statements) with proofs from tools/rules_overrides.py.
-/

namespace Slinky.Rules
open Slinky

theorem mul0_sound : RuleSound mul0 := by
  exact Or.inl rfl

theorem mul1_sound : RuleSound mul1 := by
  exact Or.inl rfl

theorem mul2_sound : RuleSound mul2 := by
  refine Or.inr fun σ κ π hπ hs => AltsStatic.sound ?_
  rule_simp mul2
  rule_auto

theorem mul3_sound : RuleSound mul3 := by
  refine Or.inr fun σ κ π hπ hs => AltsStatic.sound ?_
  rule_simp mul3
  rule_auto

theorem mul4_sound : RuleSound mul4 := by
  refine Or.inr fun σ κ π hπ hs => AltsStatic.sound ?_
  rule_simp mul4
  rule_auto

theorem mul5_sound : RuleSound mul5 := by
  refine Or.inr fun σ κ π hπ hs => AltsStatic.sound ?_
  rule_simp mul5
  rule_auto

theorem mul6_sound : RuleSound mul6 := by
  refine Or.inr fun σ κ π hπ hs => AltsStatic.sound ?_
  rule_simp mul6
  rule_auto

theorem mul7_sound : RuleSound mul7 := by
  refine Or.inr fun σ κ π hπ hs => AltsStatic.sound ?_
  rule_simp mul7
  rule_auto

theorem mul8_sound : RuleSound mul8 := by
  refine Or.inr fun σ κ π hπ hs => AltsStatic.sound ?_
  rule_simp mul8
  rule_auto

theorem mul9_sound : RuleSound mul9 := by
  refine Or.inr fun σ κ π hπ hs => AltsStatic.sound ?_
  rule_simp mul9
  rule_auto

theorem mul10_sound : RuleSound mul10 := by
  refine Or.inr fun σ κ π hπ hs => AltsStatic.sound ?_
  rule_simp mul10
  rule_auto

/-- C12: every rule of `apply_mul_rules` is an identity. -/
theorem mulRules_sound : ∀ r ∈ mulRules, RuleSound r := by
  simp only [mulRules, List.forall_mem_cons, List.not_mem_nil, false_implies, implies_true, and_true]
  exact ⟨mul0_sound, mul1_sound, mul2_sound, mul3_sound, mul4_sound, mul5_sound, mul6_sound, mul7_sound, mul8_sound, mul9_sound, mul10_sound⟩

end Slinky.Rules
