import Verif.RuleTac
import Verif.RuleLemmas

/-!
# The rules of `apply_add_rules` are identities (C12)
Generated by tools/rules_proofs.py (statements) with proofs from tools/rules_overrides.py.
-/

namespace Slinky.Rules
open Slinky

theorem add0_sound : RuleSound add0 := by
  exact Or.inl rfl

theorem add1_sound : RuleSound add1 := by
  exact Or.inl rfl

theorem add2_sound : RuleSound add2 := by
  refine Or.inr fun σ κ π hπ hs => AltsStatic.sound ?_
  rule_simp add2
  rule_auto

theorem add3_sound : RuleSound add3 := by
  refine Or.inr fun σ κ π hπ hs => AltsStatic.sound ?_
  rule_simp add3
  rule_auto

theorem add4_sound : RuleSound add4 := by
  refine Or.inr fun σ κ π hπ hs => AltsStatic.sound ?_
  rule_simp add4
  rule_auto

theorem add5_sound : RuleSound add5 := by
  refine Or.inr fun σ κ π hπ hs => AltsStatic.sound ?_
  rule_simp add5
  rule_auto

theorem add6_sound : RuleSound add6 := by
  refine Or.inr fun σ κ π hπ hs => AltsStatic.sound ?_
  rule_simp add6
  rule_auto

theorem add7_sound : RuleSound add7 := by
  refine Or.inr fun σ κ π hπ hs => AltsStatic.sound ?_
  rule_simp add7
  rule_auto

theorem add8_sound : RuleSound add8 := by
  refine Or.inr fun σ κ π hπ hs => AltsStatic.sound ?_
  rule_simp add8
  rule_auto

theorem add9_sound : RuleSound add9 := by
  refine Or.inr fun σ κ π hπ hs => AltsStatic.sound ?_
  rule_simp add9
  rule_auto

theorem add10_sound : RuleSound add10 := by
  refine Or.inr fun σ κ π hπ hs => AltsStatic.sound ?_
  rule_simp add10
  rule_auto

theorem add11_sound : RuleSound add11 := by
  refine Or.inr fun σ κ π hπ hs => AltsStatic.sound ?_
  rule_simp add11
  rule_auto

theorem add12_sound : RuleSound add12 := by
  refine Or.inr fun σ κ π hπ hs => AltsStatic.sound ?_
  rule_simp add12
  rule_auto

theorem add13_sound : RuleSound add13 := by
  refine Or.inr fun σ κ π hπ hs => AltsStatic.sound ?_
  rule_simp add13
  rule_auto

theorem add14_sound : RuleSound add14 := by
  refine Or.inr fun σ κ π hπ hs => AltsStatic.sound ?_
  rule_simp add14
  rule_auto

theorem add15_sound : RuleSound add15 := by
  refine Or.inr fun σ κ π hπ hs => AltsStatic.sound ?_
  rule_simp add15
  rule_auto

theorem add16_sound : RuleSound add16 := by
  refine Or.inr fun σ κ π hπ hs => AltsStatic.sound ?_
  rule_simp add16
  rintro ⟨⟨⟨h0, h1⟩, h2⟩, h3⟩
  obtain ⟨q, hq, e⟩ := RL.dvd' h3 h2
  have e1 : (σ 0) + (q * (κ 1) + (κ 0)) = ((σ 0) + (κ 0)) + q * (κ 1) := by ring
  rw [e, hq, e1, RL.add_mul _ _ h1]
  ring

theorem add17_sound : RuleSound add17 := by
  refine Or.inr fun σ κ π hπ hs => AltsStatic.sound ?_
  rule_simp add17
  intro h
  rw [if_neg h, Int.add_zero]
  have := Int.ediv_mul_add_emod (σ 0) (κ 0)
  omega

theorem add18_sound : RuleSound add18 := by
  refine Or.inr fun σ κ π hπ hs => AltsStatic.sound ?_
  rule_simp add18
  rule_auto

theorem add19_sound : RuleSound add19 := by
  refine Or.inr fun σ κ π hπ hs => AltsStatic.sound ?_
  rule_simp add19
  rule_auto

theorem add20_sound : RuleSound add20 := by
  refine Or.inr fun σ κ π hπ hs => AltsStatic.sound ?_
  rule_simp add20
  rule_auto

theorem add21_sound : RuleSound add21 := by
  refine Or.inr fun σ κ π hπ hs => AltsStatic.sound ?_
  rule_simp add21
  rule_auto

theorem add22_sound : RuleSound add22 := by
  refine Or.inr fun σ κ π hπ hs => AltsStatic.sound ?_
  rule_simp add22
  rule_auto

theorem add23_sound : RuleSound add23 := by
  refine Or.inr fun σ κ π hπ hs => AltsStatic.sound ?_
  rule_simp add23
  rule_auto

theorem add24_sound : RuleSound add24 := by
  refine Or.inr fun σ κ π hπ hs => AltsStatic.sound ?_
  rule_simp add24
  rule_auto

theorem add25_sound : RuleSound add25 := by
  refine Or.inr fun σ κ π hπ hs => AltsStatic.sound ?_
  rule_simp add25
  rule_auto

/-- C12: every rule of `apply_add_rules` is an identity. -/
theorem addRules_sound : ∀ r ∈ addRules, RuleSound r := by
  simp only [addRules, List.forall_mem_cons, List.not_mem_nil, false_implies, implies_true, and_true]
  exact ⟨add0_sound, add1_sound, add2_sound, add3_sound, add4_sound, add5_sound, add6_sound, add7_sound, add8_sound, add9_sound, add10_sound, add11_sound, add12_sound, add13_sound, add14_sound, add15_sound, add16_sound, add17_sound, add18_sound, add19_sound, add20_sound, add21_sound, add22_sound, add23_sound, add24_sound, add25_sound⟩

end Slinky.Rules
