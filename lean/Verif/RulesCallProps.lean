import Verif.RuleTac
import Verif.RuleLemmas

/-!
# The rules of `apply_call_rules` are identities (C12)
Generated by tools/rules_proofs.py (statements) with proofs from tools/rules_overrides.py.
-/

namespace Slinky.Rules
open Slinky

theorem call0_sound : RuleSound call0 := by
  refine Or.inr fun σ κ π hπ hs => AltsStatic.sound ?_
  rule_simp call0
  rule_auto

theorem call1_sound : RuleSound call1 := by
  refine Or.inr fun σ κ π hπ hs => AltsStatic.sound ?_
  rule_simp call1
  rule_auto

theorem call2_sound : RuleSound call2 := by
  refine Or.inr fun σ κ π hπ hs => AltsStatic.sound ?_
  rule_simp call2
  rule_auto

theorem call3_sound : RuleSound call3 := by
  refine Or.inr fun σ κ π hπ hs => AltsStatic.sound ?_
  rule_simp call3
  rule_auto

theorem call4_sound : RuleSound call4 := by
  refine Or.inr fun σ κ π hπ hs => AltsStatic.sound ?_
  rule_simp call4
  rule_auto

theorem call5_sound : RuleSound call5 := by
  refine Or.inr fun σ κ π hπ hs => AltsStatic.sound ?_
  rule_simp call5
  rule_auto

theorem call6_sound : RuleSound call6 := by
  refine Or.inr fun σ κ π hπ hs => AltsStatic.sound ?_
  rule_simp call6
  intro h
  rw [Int.natAbs_mul, Int.natCast_mul]
  congr 1
  omega

theorem call7_sound : RuleSound call7 := by
  refine Or.inr fun σ κ π hπ hs => AltsStatic.sound ?_
  rule_simp call7
  intro h
  rw [Int.natAbs_mul, Int.natCast_mul]
  congr 1
  omega

theorem call8_sound : RuleSound call8 := by
  refine Or.inr fun σ κ π hπ hs => AltsStatic.sound ?_
  rule_simp call8
  rule_auto

theorem call9_sound : RuleSound call9 := by
  refine Or.inr fun σ κ π hπ hs => AltsStatic.sound ?_
  rule_simp call9
  rule_auto

theorem call10_sound : RuleSound call10 := by
  refine Or.inr fun σ κ π hπ hs => AltsStatic.sound ?_
  rule_simp call10
  rule_auto

/-- C12: every rule of `apply_call_rules` is an identity. -/
theorem callRules_sound : ∀ r ∈ callRules, RuleSound r := by
  simp only [callRules, List.forall_mem_cons, List.not_mem_nil, false_implies, implies_true, and_true]
  exact ⟨call0_sound, call1_sound, call2_sound, call3_sound, call4_sound, call5_sound, call6_sound, call7_sound, call8_sound, call9_sound, call10_sound⟩

end Slinky.Rules
