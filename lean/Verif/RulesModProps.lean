import Verif.RuleTac
import Verif.RuleLemmas

/-!
# The rules of `apply_mod_rules` are identities (C12)
Generated by tools/rules_proofs.py (statements) with proofs from tools/rules_overrides.py.
-/

namespace Slinky.Rules
open Slinky

theorem mod0_sound : RuleSound mod0 := by
  refine Or.inr fun σ κ π hπ hs => AltsStatic.sound ?_
  rule_simp mod0
  rule_auto

theorem mod1_sound : RuleSound mod1 := by
  refine Or.inr fun σ κ π hπ hs => AltsStatic.sound ?_
  rule_simp mod1
  rule_auto

theorem mod2_sound : RuleSound mod2 := by
  refine Or.inr fun σ κ π hπ hs => AltsStatic.sound ?_
  rule_simp mod2
  simp

theorem mod3_sound : RuleSound mod3 := by
  refine Or.inr fun σ κ π hπ hs => AltsStatic.sound ?_
  rule_simp mod3
  intro _
  split
  · rfl
  · rw [Int.add_emod_emod]

theorem mod4_sound : RuleSound mod4 := by
  refine Or.inr fun σ κ π hπ hs => AltsStatic.sound ?_
  rule_simp mod4
  rule_auto

theorem mod5_sound : RuleSound mod5 := by
  refine Or.inr fun σ κ π hπ hs => AltsStatic.sound ?_
  rule_simp mod5
  rule_auto

theorem mod6_sound : RuleSound mod6 := by
  refine Or.inr fun σ κ π hπ hs => AltsStatic.sound ?_
  rule_simp mod6
  rule_auto

/-- C12: every rule of `apply_mod_rules` is an identity. -/
theorem modRules_sound : ∀ r ∈ modRules, RuleSound r := by
  simp only [modRules, List.forall_mem_cons, List.not_mem_nil, false_implies, implies_true, and_true]
  exact ⟨mod0_sound, mod1_sound, mod2_sound, mod3_sound, mod4_sound, mod5_sound, mod6_sound⟩

end Slinky.Rules
