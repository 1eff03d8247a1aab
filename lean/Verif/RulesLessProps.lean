import Verif.RuleTac
import Verif.RuleLemmas

/-!
# The rules of `apply_less_rules` are identities (C12)
Generated by tools/rules_proofs.py (statements) with proofs from tools/rules_overrides.py.
-/

namespace Slinky.Rules
open Slinky

theorem less0_sound : RuleSound less0 := by
  exact Or.inl rfl

theorem less1_sound : RuleSound less1 := by
  exact Or.inl rfl

theorem less2_sound : RuleSound less2 := by
  exact Or.inl rfl

theorem less3_sound : RuleSound less3 := by
  exact Or.inl rfl

theorem less4_sound : RuleSound less4 := by
  refine Or.inr fun σ κ π hπ hs => AltsStatic.sound ?_
  rule_simp less4
  rule_auto

theorem less5_sound : RuleSound less5 := by
  refine Or.inr fun σ κ π hπ hs => AltsStatic.sound ?_
  rule_simp less5
  rule_auto

theorem less6_sound : RuleSound less6 := by
  refine Or.inr fun σ κ π hπ hs => AltsStatic.sound ?_
  rule_simp less6
  rule_auto

theorem less7_sound : RuleSound less7 := by
  refine Or.inr fun σ κ π hπ hs => AltsStatic.sound ?_
  rule_simp less7
  rule_auto

theorem less8_sound : RuleSound less8 := by
  refine Or.inr fun σ κ π hπ hs => AltsStatic.sound ?_
  rule_simp less8
  rule_auto

theorem less9_sound : RuleSound less9 := by
  refine Or.inr fun σ κ π hπ hs => AltsStatic.sound ?_
  rule_simp less9
  rule_auto

theorem less10_sound : RuleSound less10 := by
  refine Or.inr fun σ κ π hπ hs => AltsStatic.sound ?_
  rule_simp less10
  rule_auto

theorem less11_sound : RuleSound less11 := by
  refine Or.inr fun σ κ π hπ hs => AltsStatic.sound ?_
  rule_simp less11
  rule_auto

theorem less12_sound : RuleSound less12 := by
  refine Or.inr fun σ κ π hπ hs => AltsStatic.sound ?_
  rule_simp less12
  rule_auto

theorem less13_sound : RuleSound less13 := by
  refine Or.inr fun σ κ π hπ hs => AltsStatic.sound ?_
  rule_simp less13
  intro h
  rw [if_neg (by omega)]
  have := RL.divmod ((σ 0) + (κ 0)) (c := (κ 1)) (by omega)
  omega

theorem less14_sound : RuleSound less14 := by
  refine Or.inr fun σ κ π hπ hs => AltsStatic.sound ?_
  rule_simp less14
  intro h
  rw [if_neg (by omega)]
  have := RL.divmod ((σ 0) + (κ 0)) (c := (κ 1)) (by omega)
  omega

theorem less15_sound : RuleSound less15 := by
  refine Or.inr fun σ κ π hπ hs => AltsStatic.sound ?_
  rule_simp less15
  refine ⟨fun h => ?_, fun _ h => ?_⟩ <;> try rw [if_neg (by omega)]
  · have := RL.divmod ((σ 0) + (κ 0)) (c := (κ 1)) (by omega)
    omega
  · have := RL.divmod ((σ 0) + (κ 0)) (c := (κ 1)) (by omega)
    obtain ⟨h1, h2⟩ := h
    rw [h2] at this ⊢
    rw [Int.add_zero] at this ⊢
    omega

theorem less16_sound : RuleSound less16 := by
  refine Or.inr fun σ κ π hπ hs => AltsStatic.sound ?_
  rule_simp less16
  refine ⟨fun h => ?_, fun _ h => ?_⟩ <;> try rw [if_neg (by omega)]
  · have := RL.divmod ((σ 0) + (κ 0)) (c := (κ 1)) (by omega)
    omega
  · have := RL.divmod ((σ 0) + (κ 0)) (c := (κ 1)) (by omega)
    obtain ⟨h1, h2⟩ := h
    rw [h2] at this ⊢
    rw [Int.add_zero] at this ⊢
    omega

theorem less17_sound : RuleSound less17 := by
  refine Or.inr fun σ κ π hπ hs => AltsStatic.sound ?_
  rule_simp less17
  refine ⟨fun h => ?_, fun _ h => ?_⟩
  · rw [if_neg (by omega)]
    have := RL.divmod (σ 0) (c := (κ 0)) (by omega)
    omega
  · rw [if_neg (by omega)]
    have := RL.divmod (σ 0) (c := (κ 0)) (by omega)
    omega

theorem less18_sound : RuleSound less18 := by
  refine Or.inr fun σ κ π hπ hs => AltsStatic.sound ?_
  rule_simp less18
  refine ⟨fun h => ?_, fun _ => ⟨fun h => ?_, fun h => ?_⟩⟩ <;> rw [if_neg (by omega)] <;>
    have := RL.divmod (σ 0) (c := (κ 1)) (by omega) <;> omega

theorem less19_sound : RuleSound less19 := by
  refine Or.inr fun σ κ π hπ hs => AltsStatic.sound ?_
  rule_simp less19
  have h1 := RL.stair_min (hs 0) (hs 1) (hs 2) (hs 3) (hs 4) (hs 5) (hs 6) (σ 0)
  have h2 := RL.stair_max (hs 0) (hs 1) (hs 2) (hs 3) (hs 4) (hs 5) (hs 6) (σ 0)
  refine ⟨fun h => ?_, fun h => ?_⟩ <;> omega

theorem less20_sound : RuleSound less20 := by
  refine Or.inr fun σ κ π hπ hs => AltsStatic.sound ?_
  rule_simp less20
  refine ⟨fun h => RL.lt_mul h, fun _ h => ?_⟩
  have := RL.lt_mul (a := (σ 1)) (b := (σ 0)) (c := -(κ 0)) (by omega)
  rw [← this, Int.mul_neg, Int.mul_neg]
  omega

theorem less21_sound : RuleSound less21 := by
  refine Or.inr fun σ κ π hπ hs => AltsStatic.sound ?_
  rule_simp less21
  refine ⟨fun h => ?_, fun h => ?_⟩
  · rw [RL.ediv_lt h, Int.mul_comm]
  · have e := RL.le_ediv (a := (σ 0)) (b := 1 - (κ 1)) (c := -(κ 0)) (by omega)
    rw [Int.ediv_neg] at e
    rw [show (1 - (κ 1)) * -(κ 0) = (κ 0) * ((κ 1) - 1) by ring] at e
    omega

theorem less22_sound : RuleSound less22 := by
  refine Or.inr fun σ κ π hπ hs => AltsStatic.sound ?_
  rule_simp less22
  refine ⟨fun h => ?_, fun h => ?_⟩
  · have := RL.le_ediv (a := (σ 0)) (b := (κ 0) + 1) h
    omega
  · have e := RL.ediv_lt (a := (σ 0)) (b := -(κ 0)) (c := -(κ 1)) (by omega)
    rw [Int.ediv_neg, Int.neg_mul_neg] at e
    omega

theorem less23_sound : RuleSound less23 := by
  refine Or.inr fun σ κ π hπ hs => AltsStatic.sound ?_
  rule_simp less23
  refine ⟨fun h => ?_, fun h => ?_⟩ <;> rw [RL.max_ediv _ (κ 0) (by omega), RL.max_ediv _ (κ 1) (by omega)] <;> omega

theorem less24_sound : RuleSound less24 := by
  refine Or.inr fun σ κ π hπ hs => AltsStatic.sound ?_
  rule_simp less24
  refine ⟨fun h => ?_, fun h => ?_⟩ <;> rw [RL.min_ediv _ (κ 0) (by omega), RL.min_ediv _ (κ 1) (by omega)] <;> omega

theorem less25_sound : RuleSound less25 := by
  refine Or.inr fun σ κ π hπ hs => AltsStatic.sound ?_
  rule_simp less25
  rule_auto

theorem less26_sound : RuleSound less26 := by
  refine Or.inr fun σ κ π hπ hs => AltsStatic.sound ?_
  rule_simp less26
  rule_auto

theorem less27_sound : RuleSound less27 := by
  refine Or.inr fun σ κ π hπ hs => AltsStatic.sound ?_
  rule_simp less27
  rule_auto

theorem less28_sound : RuleSound less28 := by
  refine Or.inr fun σ κ π hπ hs => AltsStatic.sound ?_
  rule_simp less28
  rule_auto

theorem less29_sound : RuleSound less29 := by
  refine Or.inr fun σ κ π hπ hs => AltsStatic.sound ?_
  rule_simp less29
  rule_auto

theorem less30_sound : RuleSound less30 := by
  refine Or.inr fun σ κ π hπ hs => AltsStatic.sound ?_
  rule_simp less30
  rule_auto

theorem less31_sound : RuleSound less31 := by
  refine Or.inr fun σ κ π hπ hs => AltsStatic.sound ?_
  rule_simp less31
  rule_auto

theorem less32_sound : RuleSound less32 := by
  refine Or.inr fun σ κ π hπ hs => AltsStatic.sound ?_
  rule_simp less32
  rule_auto

theorem less33_sound : RuleSound less33 := by
  refine Or.inr fun σ κ π hπ hs => AltsStatic.sound ?_
  rule_simp less33
  rule_auto

theorem less34_sound : RuleSound less34 := by
  refine Or.inr fun σ κ π hπ hs => AltsStatic.sound ?_
  rule_simp less34
  rule_auto

theorem less35_sound : RuleSound less35 := by
  refine Or.inr fun σ κ π hπ hs => AltsStatic.sound ?_
  rule_simp less35
  rule_auto

theorem less36_sound : RuleSound less36 := by
  refine Or.inr fun σ κ π hπ hs => AltsStatic.sound ?_
  rule_simp less36
  rule_auto

theorem less37_sound : RuleSound less37 := by
  refine Or.inr fun σ κ π hπ hs => AltsStatic.sound ?_
  rule_simp less37
  rule_auto

theorem less38_sound : RuleSound less38 := by
  refine Or.inr fun σ κ π hπ hs => AltsStatic.sound ?_
  rule_simp less38
  rule_auto

theorem less39_sound : RuleSound less39 := by
  refine Or.inr fun σ κ π hπ hs => AltsStatic.sound ?_
  rule_simp less39
  rule_auto

theorem less40_sound : RuleSound less40 := by
  refine Or.inr fun σ κ π hπ hs => AltsStatic.sound ?_
  rule_simp less40
  rule_auto

theorem less41_sound : RuleSound less41 := by
  refine Or.inr fun σ κ π hπ hs => AltsStatic.sound ?_
  rule_simp less41
  rule_auto

theorem less42_sound : RuleSound less42 := by
  refine Or.inr fun σ κ π hπ hs => AltsStatic.sound ?_
  rule_simp less42
  rule_auto

theorem less43_sound : RuleSound less43 := by
  refine Or.inr fun σ κ π hπ hs => AltsStatic.sound ?_
  rule_simp less43
  rule_auto

theorem less44_sound : RuleSound less44 := by
  refine Or.inr fun σ κ π hπ hs => AltsStatic.sound ?_
  rule_simp less44
  rule_auto

theorem less45_sound : RuleSound less45 := by
  refine Or.inr fun σ κ π hπ hs => AltsStatic.sound ?_
  rule_simp less45
  rule_auto

theorem less46_sound : RuleSound less46 := by
  refine Or.inr fun σ κ π hπ hs => AltsStatic.sound ?_
  rule_simp less46
  rule_auto

theorem less47_sound : RuleSound less47 := by
  refine Or.inr fun σ κ π hπ hs => AltsStatic.sound ?_
  rule_simp less47
  rule_auto

theorem less48_sound : RuleSound less48 := by
  refine Or.inr fun σ κ π hπ hs => AltsStatic.sound ?_
  rule_simp less48
  rule_auto

theorem less49_sound : RuleSound less49 := by
  refine Or.inr fun σ κ π hπ hs => AltsStatic.sound ?_
  rule_simp less49
  rule_auto

theorem less50_sound : RuleSound less50 := by
  refine Or.inr fun σ κ π hπ hs => AltsStatic.sound ?_
  rule_simp less50
  rule_auto

theorem less51_sound : RuleSound less51 := by
  refine Or.inr fun σ κ π hπ hs => AltsStatic.sound ?_
  rule_simp less51
  rule_auto

theorem less52_sound : RuleSound less52 := by
  refine Or.inr fun σ κ π hπ hs => AltsStatic.sound ?_
  rule_simp less52
  rule_auto

theorem less53_sound : RuleSound less53 := by
  refine Or.inr fun σ κ π hπ hs => AltsStatic.sound ?_
  rule_simp less53
  rule_auto

theorem less54_sound : RuleSound less54 := by
  refine Or.inr fun σ κ π hπ hs => AltsStatic.sound ?_
  rule_simp less54
  rule_auto

theorem less55_sound : RuleSound less55 := by
  refine Or.inr fun σ κ π hπ hs => AltsStatic.sound ?_
  rule_simp less55
  rule_auto

theorem less56_sound : RuleSound less56 := by
  refine Or.inr fun σ κ π hπ hs => AltsStatic.sound ?_
  rule_simp less56
  rule_auto

theorem less57_sound : RuleSound less57 := by
  refine Or.inr fun σ κ π hπ hs => AltsStatic.sound ?_
  rule_simp less57
  rule_auto

theorem less58_sound : RuleSound less58 := by
  refine Or.inr fun σ κ π hπ hs => AltsStatic.sound ?_
  rule_simp less58
  rule_auto

theorem less59_sound : RuleSound less59 := by
  refine Or.inr fun σ κ π hπ hs => AltsStatic.sound ?_
  rule_simp less59
  rule_auto

theorem less60_sound : RuleSound less60 := by
  refine Or.inr fun σ κ π hπ hs => AltsStatic.sound ?_
  have hp0 := hπ.bool 0
  have hp1 := hπ.bool 1
  rule_simp less60
  rule_auto

theorem less61_sound : RuleSound less61 := by
  refine Or.inr fun σ κ π hπ hs => AltsStatic.sound ?_
  have hp0 := hπ.bool 0
  rule_simp less61
  rule_auto

theorem less62_sound : RuleSound less62 := by
  refine Or.inr fun σ κ π hπ hs => AltsStatic.sound ?_
  have hp0 := hπ.bool 0
  rule_simp less62
  rule_auto

/-- C12: every rule of `apply_less_rules` is an identity. -/
theorem lessRules_sound : ∀ r ∈ lessRules, RuleSound r := by
  simp only [lessRules, List.forall_mem_cons, List.not_mem_nil, false_implies, implies_true, and_true]
  exact ⟨less0_sound, less1_sound, less2_sound, less3_sound, less4_sound, less5_sound, less6_sound, less7_sound, less8_sound, less9_sound, less10_sound, less11_sound, less12_sound, less13_sound, less14_sound, less15_sound, less16_sound, less17_sound, less18_sound, less19_sound, less20_sound, less21_sound, less22_sound, less23_sound, less24_sound, less25_sound, less26_sound, less27_sound, less28_sound, less29_sound, less30_sound, less31_sound, less32_sound, less33_sound, less34_sound, less35_sound, less36_sound, less37_sound, less38_sound, less39_sound, less40_sound, less41_sound, less42_sound, less43_sound, less44_sound, less45_sound, less46_sound, less47_sound, less48_sound, less49_sound, less50_sound, less51_sound, less52_sound, less53_sound, less54_sound, less55_sound, less56_sound, less57_sound, less58_sound, less59_sound, less60_sound, less61_sound, less62_sound⟩

end Slinky.Rules
