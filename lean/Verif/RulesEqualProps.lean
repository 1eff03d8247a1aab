import Verif.RuleTac
import Verif.RuleLemmas

/-!
# The rules of `apply_equal_rules` are identities (C12)
Generated by tools/rules_proofs.py (statements) with proofs from tools/rules_overrides.py.
-/

namespace Slinky.Rules
open Slinky

theorem equal0_sound : RuleSound equal0 := by
  refine Or.inr fun σ κ π hπ hs => AltsStatic.sound ?_
  rule_simp equal0
  rule_auto

theorem equal1_sound : RuleSound equal1 := by
  refine Or.inr fun σ κ π hπ hs => AltsStatic.sound ?_
  rule_simp equal1
  rw [mul_eq_mul_left_iff]

theorem equal2_sound : RuleSound equal2 := by
  refine Or.inr fun σ κ π hπ hs => AltsStatic.sound ?_
  rule_simp equal2
  constructor
  · intro h
    by_cases hx : (σ 0) = 0
    · exact .inr hx
    · left
      have : (σ 0) * 1 = (σ 0) * (σ 1) := by omega
      exact (Int.eq_of_mul_eq_mul_left hx this).symm
  · rintro (h | h) <;> simp [h]

theorem equal3_sound : RuleSound equal3 := by
  refine Or.inr fun σ κ π hπ hs => AltsStatic.sound ?_
  rule_simp equal3
  rule_auto

theorem equal4_sound : RuleSound equal4 := by
  refine Or.inr fun σ κ π hπ hs => AltsStatic.sound ?_
  rule_simp equal4
  rule_auto

theorem equal5_sound : RuleSound equal5 := by
  refine Or.inr fun σ κ π hπ hs => AltsStatic.sound ?_
  rule_simp equal5
  refine ⟨fun ⟨h1, h2⟩ => ?_, fun _ ⟨h1, h2⟩ => ?_⟩
  · obtain ⟨q, hq, e⟩ := RL.dvd' h2 h1
    rw [e, hq, ← Int.mul_assoc, Int.mul_eq_mul_right_iff h1]
  · obtain ⟨q, hq, e⟩ := RL.dvd' h2 h1
    rw [e, hq, ← Int.mul_assoc, Int.mul_eq_mul_right_iff h1, eq_comm]

theorem equal6_sound : RuleSound equal6 := by
  refine Or.inr fun σ κ π hπ hs => AltsStatic.sound ?_
  rule_simp equal6
  rintro ⟨h1, h2⟩
  obtain ⟨q, hq, e⟩ := RL.dvd' h2 h1
  rw [e, hq, Int.mul_eq_mul_right_iff h1]

theorem equal7_sound : RuleSound equal7 := by
  refine Or.inr fun σ κ π hπ hs => AltsStatic.sound ?_
  rule_simp equal7
  rule_auto

theorem equal8_sound : RuleSound equal8 := by
  refine Or.inr fun σ κ π hπ hs => AltsStatic.sound ?_
  rule_simp equal8
  rule_auto

theorem equal9_sound : RuleSound equal9 := by
  refine Or.inr fun σ κ π hπ hs => AltsStatic.sound ?_
  have hp0 := hπ.bool 0
  rule_simp equal9
  rule_auto

theorem equal10_sound : RuleSound equal10 := by
  refine Or.inr fun σ κ π hπ hs => AltsStatic.sound ?_
  have hp0 := hπ.bool 0
  rule_simp equal10
  rule_auto

theorem equal11_sound : RuleSound equal11 := by
  refine Or.inr fun σ κ π hπ hs => AltsStatic.sound ?_
  rule_simp equal11
  intro h
  rw [if_neg (by omega)]
  have := RL.divmod (σ 0) h
  omega

theorem equal12_sound : RuleSound equal12 := by
  refine Or.inr fun σ κ π hπ hs => AltsStatic.sound ?_
  rule_simp equal12
  rintro ⟨h, h'⟩
  rw [if_neg (by omega)]
  have := RL.divmod (σ 0) h
  omega

theorem equal13_sound : RuleSound equal13 := by
  refine Or.inr fun σ κ π hπ hs => AltsStatic.sound ?_
  rule_simp equal13
  rule_auto

theorem equal14_sound : RuleSound equal14 := by
  refine Or.inr fun σ κ π hπ hs => AltsStatic.sound ?_
  rule_simp equal14
  rule_auto

theorem equal15_sound : RuleSound equal15 := by
  refine Or.inr fun σ κ π hπ hs => AltsStatic.sound ?_
  rule_simp equal15
  rule_auto

theorem equal16_sound : RuleSound equal16 := by
  refine Or.inr fun σ κ π hπ hs => AltsStatic.sound ?_
  rule_simp equal16
  rule_auto

theorem equal17_sound : RuleSound equal17 := by
  refine Or.inr fun σ κ π hπ hs => AltsStatic.sound ?_
  rule_simp equal17
  rule_auto

theorem equal18_sound : RuleSound equal18 := by
  refine Or.inr fun σ κ π hπ hs => AltsStatic.sound ?_
  rule_simp equal18
  rule_auto

theorem equal19_sound : RuleSound equal19 := by
  refine Or.inr fun σ κ π hπ hs => AltsStatic.sound ?_
  rule_simp equal19
  rule_auto

theorem equal20_sound : RuleSound equal20 := by
  refine Or.inr fun σ κ π hπ hs => AltsStatic.sound ?_
  rule_simp equal20
  rule_auto

theorem equal21_sound : RuleSound equal21 := by
  refine Or.inr fun σ κ π hπ hs => AltsStatic.sound ?_
  rule_simp equal21
  rule_auto

theorem equal22_sound : RuleSound equal22 := by
  refine Or.inr fun σ κ π hπ hs => AltsStatic.sound ?_
  rule_simp equal22
  refine ⟨fun ⟨h, h'⟩ => ?_, fun _ => ⟨fun ⟨h, h'⟩ => ?_, fun h'' h => ?_⟩⟩ <;> rw [RL.max_ediv _ _ h]
  · omega
  · rw [← RL.ediv_lt h]; omega
  · omega

theorem equal23_sound : RuleSound equal23 := by
  refine Or.inr fun σ κ π hπ hs => AltsStatic.sound ?_
  rule_simp equal23
  refine ⟨fun ⟨h, h'⟩ => ?_, fun _ => ⟨fun ⟨h, h'⟩ => ?_, fun h'' h => ?_⟩⟩ <;> rw [RL.min_ediv _ _ h]
  · omega
  · rw [← RL.le_ediv h]; omega
  · omega

theorem equal24_sound : RuleSound equal24 := by
  refine Or.inr fun σ κ π hπ hs => AltsStatic.sound ?_
  rule_simp equal24
  rule_auto

theorem equal25_sound : RuleSound equal25 := by
  refine Or.inr fun σ κ π hπ hs => AltsStatic.sound ?_
  rule_simp equal25
  rule_auto

theorem equal26_sound : RuleSound equal26 := by
  refine Or.inr fun σ κ π hπ hs => AltsStatic.sound ?_
  rule_simp equal26
  rule_auto

theorem equal27_sound : RuleSound equal27 := by
  refine Or.inr fun σ κ π hπ hs => AltsStatic.sound ?_
  rule_simp equal27
  rule_auto

/-- C12: every rule of `apply_equal_rules` is an identity. -/
theorem equalRules_sound : ∀ r ∈ equalRules, RuleSound r := by
  simp only [equalRules, List.forall_mem_cons, List.not_mem_nil, false_implies, implies_true, and_true]
  exact ⟨equal0_sound, equal1_sound, equal2_sound, equal3_sound, equal4_sound, equal5_sound, equal6_sound, equal7_sound, equal8_sound, equal9_sound, equal10_sound, equal11_sound, equal12_sound, equal13_sound, equal14_sound, equal15_sound, equal16_sound, equal17_sound, equal18_sound, equal19_sound, equal20_sound, equal21_sound, equal22_sound, equal23_sound, equal24_sound, equal25_sound, equal26_sound, equal27_sound⟩

end Slinky.Rules
