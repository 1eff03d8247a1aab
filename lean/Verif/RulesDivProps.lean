import Verif.RuleTac
import Verif.RuleLemmas

/-!
# The rules of `apply_div_rules` are identities (C12)
Generated by tools/rules_proofs.py (statements) with proofs from tools/rules_overrides.py.
-/

namespace Slinky.Rules
open Slinky

theorem div0_sound : RuleSound div0 := by
  exact Or.inl rfl

theorem div1_sound : RuleSound div1 := by
  exact Or.inl rfl

theorem div2_sound : RuleSound div2 := by
  exact Or.inl rfl

theorem div3_sound : RuleSound div3 := by
  exact Or.inl rfl

theorem div4_sound : RuleSound div4 := by
  refine Or.inr fun σ κ π hπ hs => AltsStatic.sound ?_
  rule_simp div4
  rule_auto

theorem div5_sound : RuleSound div5 := by
  refine Or.inr fun σ κ π hπ hs => AltsStatic.sound ?_
  rule_simp div5
  simp

theorem div6_sound : RuleSound div6 := by
  refine Or.inr fun σ κ π hπ hs => AltsStatic.sound ?_
  rule_simp div6
  rule_auto

theorem div7_sound : RuleSound div7 := by
  refine Or.inr fun σ κ π hπ hs => AltsStatic.sound ?_
  rule_simp div7
  rule_auto

theorem div8_sound : RuleSound div8 := by
  refine Or.inr fun σ κ π hπ hs => AltsStatic.sound ?_
  rule_simp div8
  by_cases h : (σ 0) = 0
  · simp [h]
  · rw [Int.ediv_self h, if_pos h]

theorem div9_sound : RuleSound div9 := by
  refine Or.inr fun σ κ π hπ hs => AltsStatic.sound ?_
  rule_simp div9
  intro h
  rw [← Int.ediv_ediv_of_nonneg (by omega), RL.add_mul _ _ (by omega), Int.add_comm]

theorem div10_sound : RuleSound div10 := by
  refine Or.inr fun σ κ π hπ hs => AltsStatic.sound ?_
  rule_simp div10
  intro h
  obtain ⟨h1, h2, h3⟩ := RL.divmod (σ 0) h
  have e : (σ 1) * (κ 0) - (σ 0) + ((κ 0) - 1) = ((κ 0) - 1 - (σ 0) % (κ 0)) + ((σ 1) - (σ 0) / (κ 0)) * (κ 0) := by
    have : ((σ 1) - (σ 0) / (κ 0)) * (κ 0) = (σ 1) * (κ 0) - (σ 0) / (κ 0) * (κ 0) := by ring
    omega
  rw [← Int.ediv_ediv_of_nonneg (by omega), e, RL.add_mul _ _ (by omega),
    show ((κ 0) - 1 - (σ 0) % (κ 0)) / (κ 0) = 0 from Int.ediv_eq_zero_of_lt (by omega) (by omega), Int.zero_add]

theorem div11_sound : RuleSound div11 := by
  refine Or.inr fun σ κ π hπ hs => AltsStatic.sound ?_
  rule_simp div11
  rintro ⟨h1, h2⟩
  obtain ⟨q, hq, e⟩ := RL.dvd' h2 (by omega)
  rw [e, hq, ← Int.mul_assoc, Int.mul_ediv_mul_of_pos_left _ _ h1]

theorem div12_sound : RuleSound div12 := by
  refine Or.inr fun σ κ π hπ hs => AltsStatic.sound ?_
  rule_simp div12
  rintro ⟨h1, h2⟩
  obtain ⟨q, hq, e⟩ := RL.dvd' h2 (by omega)
  rw [e, hq, ← Int.mul_assoc, Int.mul_ediv_mul_of_pos_left _ _ h1]

theorem div13_sound : RuleSound div13 := by
  refine Or.inr fun σ κ π hπ hs => AltsStatic.sound ?_
  rule_simp div13
  intro h2
  by_cases h1 : (κ 1) = 0
  · simp [h1]
  · obtain ⟨q, hq, e⟩ := RL.dvd' h2 h1
    rw [e, hq, ← Int.mul_assoc, Int.mul_ediv_cancel _ h1]

theorem div14_sound : RuleSound div14 := by
  refine Or.inr fun σ κ π hπ hs => AltsStatic.sound ?_
  rule_simp div14
  rintro ⟨h1, h2⟩
  obtain ⟨q, hq, e⟩ := RL.dvd' h2 (by omega)
  rw [e, hq, Int.mul_ediv_mul_of_pos_left _ _ h1]

theorem div15_sound : RuleSound div15 := by
  refine Or.inr fun σ κ π hπ hs => AltsStatic.sound ?_
  rule_simp div15
  rintro ⟨h1, h2⟩
  obtain ⟨q, hq, e⟩ := RL.dvd' h2 (by omega)
  rw [e, hq, Int.mul_ediv_mul_of_pos_left _ _ h1]

theorem div16_sound : RuleSound div16 := by
  refine Or.inr fun σ κ π hπ hs => AltsStatic.sound ?_
  rule_simp div16
  intro h
  rw [← Int.ediv_ediv_of_nonneg (by omega)]

theorem div17_sound : RuleSound div17 := by
  refine Or.inr fun σ κ π hπ hs => AltsStatic.sound ?_
  rule_simp div17
  by_cases h : (σ 0) = 0
  · simp [h]
  · rw [if_pos h, Int.mul_ediv_cancel_left _ h, Int.mul_one]

theorem div18_sound : RuleSound div18 := by
  refine Or.inr fun σ κ π hπ hs => AltsStatic.sound ?_
  rule_simp div18
  intro h2
  by_cases h1 : (κ 1) = 0
  · simp [h1]
  · obtain ⟨q, hq, e⟩ := RL.dvd' h2 h1
    rw [e, hq, ← Int.mul_assoc, RL.add_mul _ _ h1, Int.add_comm]

theorem div19_sound : RuleSound div19 := by
  refine Or.inr fun σ κ π hπ hs => AltsStatic.sound ?_
  rule_simp div19
  rintro ⟨h2, h3⟩
  by_cases h1 : (κ 1) = 0
  · simp [h1]
  · obtain ⟨q, hq, e⟩ := RL.dvd' h2 h1
    rw [e, hq, ← Int.mul_assoc, show (σ 1) * q * (κ 1) - (σ 0) = (0 - (σ 0)) + ((σ 1) * q) * (κ 1) by ring, RL.add_mul _ _ h1, Int.add_comm]

theorem div20_sound : RuleSound div20 := by
  refine Or.inr fun σ κ π hπ hs => AltsStatic.sound ?_
  rule_simp div20
  rintro ⟨h1, h2⟩
  obtain ⟨q, hq, e⟩ := RL.dvd' h2 (by omega)
  rw [e, hq, RL.min_ediv _ _ h1, ← Int.mul_assoc, RL.add_mul _ _ (by omega), min_comm, Int.add_comm]

theorem div21_sound : RuleSound div21 := by
  refine Or.inr fun σ κ π hπ hs => AltsStatic.sound ?_
  rule_simp div21
  rintro ⟨h1, h2⟩
  obtain ⟨q, hq, e⟩ := RL.dvd' h2 (by omega)
  rw [e, hq, RL.max_ediv _ _ h1, ← Int.mul_assoc, RL.add_mul _ _ (by omega), max_comm, Int.add_comm]

theorem div22_sound : RuleSound div22 := by
  refine Or.inr fun σ κ π hπ hs => AltsStatic.sound ?_
  rule_simp div22
  rintro ⟨h1, h2⟩
  obtain ⟨q, hq, e⟩ := RL.dvd' h2 (by omega)
  rw [e, hq, RL.min_ediv _ _ h1, ← Int.mul_assoc, show (σ 0) * q * (κ 1) - (σ 2) = (0 - (σ 2)) + ((σ 0) * q) * (κ 1) by ring,
    RL.add_mul _ _ (by omega), min_comm, Int.add_comm]

theorem div23_sound : RuleSound div23 := by
  refine Or.inr fun σ κ π hπ hs => AltsStatic.sound ?_
  rule_simp div23
  rintro ⟨h1, h2⟩
  obtain ⟨q, hq, e⟩ := RL.dvd' h2 (by omega)
  rw [e, hq, RL.max_ediv _ _ h1, ← Int.mul_assoc, show (σ 0) * q * (κ 1) - (σ 2) = (0 - (σ 2)) + ((σ 0) * q) * (κ 1) by ring,
    RL.add_mul _ _ (by omega), max_comm, Int.add_comm]

theorem div24_sound : RuleSound div24 := by
  refine Or.inr fun σ κ π hπ hs => AltsStatic.sound ?_
  rule_simp div24
  rule_auto

theorem div25_sound : RuleSound div25 := by
  refine Or.inr fun σ κ π hπ hs => AltsStatic.sound ?_
  rule_simp div25
  rule_auto

theorem div26_sound : RuleSound div26 := by
  refine Or.inr fun σ κ π hπ hs => AltsStatic.sound ?_
  rule_simp div26
  rule_auto

theorem div27_sound : RuleSound div27 := by
  refine Or.inr fun σ κ π hπ hs => AltsStatic.sound ?_
  rule_simp div27
  rule_auto

/-- C12: every rule of `apply_div_rules` is an identity. -/
theorem divRules_sound : ∀ r ∈ divRules, RuleSound r := by
  simp only [divRules, List.forall_mem_cons, List.not_mem_nil, false_implies, implies_true, and_true]
  exact ⟨div0_sound, div1_sound, div2_sound, div3_sound, div4_sound, div5_sound, div6_sound, div7_sound, div8_sound, div9_sound, div10_sound, div11_sound, div12_sound, div13_sound, div14_sound, div15_sound, div16_sound, div17_sound, div18_sound, div19_sound, div20_sound, div21_sound, div22_sound, div23_sound, div24_sound, div25_sound, div26_sound, div27_sound⟩

end Slinky.Rules
