import Verif.RewriteSpec

/-!
# Tactics for the proofs that rules are identities
-/

namespace Slinky

theorem b2i_def (p : Prop) {h : Decidable p} : @b2i p h = if p then 1 else 0 := by unfold b2i; rfl
theorem ite01_eq_zero (p : Prop) {h : Decidable p} : (@ite Int p h 1 0 = 0) ↔ ¬ p := by split <;> simp_all
theorem ite01_eq_one (p : Prop) {h : Decidable p} : (@ite Int p h 1 0 = 1) ↔ p := by split <;> simp_all
theorem zero_eq_ite01 (p : Prop) {h : Decidable p} : (0 = @ite Int p h 1 0) ↔ ¬ p := by split <;> simp_all
theorem one_eq_ite01 (p : Prop) {h : Decidable p} : (1 = @ite Int p h 1 0) ↔ p := by split <;> simp_all
theorem ite01_eq_ite01 (p q : Prop) {h : Decidable p} {h' : Decidable q} :
    (@ite Int p h 1 0 = @ite Int q h' 1 0) ↔ (p ↔ q) := by
  split <;> split <;> simp_all

/-- Can the substitution in the pattern overflow, whatever the constants? -/
def Pat.canOvf : Pat → Bool
  | .opt p _ | .not p | .eval p | .boolean p | .call1 _ p => p.canOvf
  | .bin op a b =>
    a.canOvf || b.canOvf || (a.isConst && b.isConst && (op == .add || op == .sub || op == .mul))
  | .select c t f => c.canOvf || t.canOvf || f.canOvf
  | .call2 _ a b => a.canOvf || b.canOvf
  | .stair x a b c => x.canOvf || a.canOvf || b.canOvf || c.canOvf
  | .stairMin a1 b1 c1 a2 b2 c2 | .stairMax a1 b1 c1 a2 b2 c2 =>
    a1.canOvf || b1.canOvf || c1.canOvf || a2.canOvf || b2.canOvf || c2.canOvf
  | _ => false

theorem Pat.canOvf_of_ovf (σ κ π) : ∀ p : Pat, p.Ovf σ κ π → p.canOvf = true := by
  intro p
  induction p <;> simp only [Pat.Ovf, Pat.canOvf, Bool.or_eq_true, Bool.and_eq_true] <;> try tauto
  case bin op a b iha ihb =>
    rintro (h | h | ⟨h1, h2, h3⟩)
    · exact .inl (.inl (iha h))
    · exact .inl (.inr (ihb h))
    · refine .inr ⟨⟨h1, h2⟩, ?_⟩
      cases op <;> simp [binaryOverflows] at h3 ⊢

/-- A simpler statement that implies `AltsSound`: it ignores whether operations that can overflow do. -/
def AltsStatic (strict : Bool) (σ κ : Nat → Int) (π : PredKind → Nat → Bool) (v : Int) : List (Pat × Option Pat) → Prop
  | [] => True
  | (r, none) :: rest =>
    v = patVal σ κ π r ∧ ((strict && r.canOvf) = true → AltsStatic strict σ κ π v rest)
  | (r, some pr) :: rest =>
    (patVal σ κ π pr ≠ 0 → v = patVal σ κ π r) ∧
    ((patVal σ κ π pr = 0 ∨ (strict && (pr.canOvf || r.canOvf)) = true) → AltsStatic strict σ κ π v rest)

theorem AltsStatic.sound {strict σ κ π v} : ∀ {alts}, AltsStatic strict σ κ π v alts → AltsSound strict σ κ π v alts
  | [], _ => trivial
  | (r, none) :: rest, ⟨h1, h2⟩ =>
    ⟨fun _ => h1, fun hs ho => (h2 (by simp [hs, Pat.canOvf_of_ovf _ _ _ _ ho])).sound⟩
  | (r, some pr) :: rest, ⟨h1, h2⟩ =>
    ⟨fun h _ _ => h1 h, fun h => (h2 (by
      rcases h with ⟨_, h⟩ | ⟨hs, h | h⟩
      · exact .inl h
      · exact .inr (by simp [hs, Pat.canOvf_of_ovf _ _ _ _ h])
      · exact .inr (by simp [hs, Pat.canOvf_of_ovf _ _ _ _ h]))).sound⟩

/-! Values of the operators, as separate functions so that the simplifier does not rewrite inside decision procedures. -/
def notV (a : Int) : Int := b2i (a = 0)
def boolV (a : Int) : Int := b2i (a ≠ 0)
def selV (c t f : Int) : Int := if c ≠ 0 then t else f
def andV (a b : Int) : Int := b2i (a ≠ 0 ∧ b ≠ 0)
def orV (a b : Int) : Int := b2i (a ≠ 0 ∨ b ≠ 0)
def predV (p : Bool) : Int := b2i (p = true)

section
variable (σ κ : Nat → Int) (π : PredKind → Nat → Bool)
theorem patVal_wild (i) : patVal σ κ π (.wild i) = σ i := rfl
theorem patVal_cst (i) : patVal σ κ π (.cst i) = κ i := rfl
theorem patVal_lit (c) : patVal σ κ π (.lit c) = c := rfl
theorem patVal_opt (p d) : patVal σ κ π (.opt p d) = patVal σ κ π p := rfl
theorem patVal_bin (op a b) : patVal σ κ π (.bin op a b) = op.denote (patVal σ κ π a) (patVal σ κ π b) := rfl
theorem patVal_not (a) : patVal σ κ π (.not a) = notV (patVal σ κ π a) := rfl
theorem patVal_select (c t f) : patVal σ κ π (.select c t f) = selV (patVal σ κ π c) (patVal σ κ π t) (patVal σ κ π f) := rfl
theorem patVal_abs (a) : patVal σ κ π (.call1 .abs a) = ((patVal σ κ π a).natAbs : Int) := rfl
theorem patVal_andThen (a b) : patVal σ κ π (.call2 .andThen a b) = andV (patVal σ κ π a) (patVal σ κ π b) := rfl
theorem patVal_orElse (a b) : patVal σ κ π (.call2 .orElse a b) = orV (patVal σ κ π a) (patVal σ κ π b) := rfl
theorem patVal_stair (x a b c) : patVal σ κ π (.stair x a b c) =
    staircase (patVal σ κ π x) (patVal σ κ π a) (patVal σ κ π b) (patVal σ κ π c) := rfl
theorem patVal_eval (p) : patVal σ κ π (.eval p) = patVal σ κ π p := rfl
theorem patVal_boolean (p) : patVal σ κ π (.boolean p) = boolV (patVal σ κ π p) := rfl
theorem patVal_pred (k i) : patVal σ κ π (.pred k i) = predV (π k i) := rfl
theorem patVal_stairMin (a1 b1 c1 a2 b2 c2) : patVal σ κ π (.stairMin a1 b1 c1 a2 b2 c2) =
    stairMinVal (patVal σ κ π a1) (patVal σ κ π b1) (patVal σ κ π c1) (patVal σ κ π a2) (patVal σ κ π b2) (patVal σ κ π c2) :=
  rfl
theorem patVal_stairMax (a1 b1 c1 a2 b2 c2) : patVal σ κ π (.stairMax a1 b1 c1 a2 b2 c2) =
    stairMaxVal (patVal σ κ π a1) (patVal σ κ π b1) (patVal σ κ π c1) (patVal σ κ π a2) (patVal σ κ π b2) (patVal σ κ π c2) :=
  rfl
end

theorem notV_def (a) : notV a = if a = 0 then 1 else 0 := by rw [notV, b2i]
theorem boolV_def (a) : boolV a = if a ≠ 0 then 1 else 0 := by rw [boolV, b2i]
theorem selV_def (c t f) : selV c t f = if c ≠ 0 then t else f := by rw [selV]
theorem andV_def (a b) : andV a b = if a ≠ 0 ∧ b ≠ 0 then 1 else 0 := by rw [andV, b2i]
theorem orV_def (a b) : orV a b = if a ≠ 0 ∨ b ≠ 0 then 1 else 0 := by rw [orV, b2i]
theorem predV_def (a) : predV a = if a = true then 1 else 0 := by rw [predV, b2i]
theorem denote_add (a b) : BinOp.denote .add a b = a + b := by rw [BinOp.denote]
theorem denote_sub (a b) : BinOp.denote .sub a b = a - b := by rw [BinOp.denote]
theorem denote_mul (a b) : BinOp.denote .mul a b = a * b := by rw [BinOp.denote]
theorem denote_div (a b) : BinOp.denote .div a b = a / b := by rw [BinOp.denote, ediv]
theorem denote_mod (a b) : BinOp.denote .mod a b = if b = 0 then 0 else a % b := by rw [BinOp.denote, emod]
theorem denote_min (a b) : BinOp.denote .min a b = Min.min a b := by rw [BinOp.denote]
theorem denote_max (a b) : BinOp.denote .max a b = Max.max a b := by rw [BinOp.denote]
theorem denote_eq (a b) : BinOp.denote .eq a b = if a = b then 1 else 0 := by rw [BinOp.denote, b2i]
theorem denote_ne (a b) : BinOp.denote .ne a b = if a ≠ b then 1 else 0 := by rw [BinOp.denote, b2i]
theorem denote_lt (a b) : BinOp.denote .lt a b = if a < b then 1 else 0 := by rw [BinOp.denote, b2i]
theorem denote_le (a b) : BinOp.denote .le a b = if a ≤ b then 1 else 0 := by rw [BinOp.denote, b2i]
theorem denote_and (a b) : BinOp.denote .and a b = if a ≠ 0 ∧ b ≠ 0 then 1 else 0 := by rw [BinOp.denote, b2i]
theorem denote_or (a b) : BinOp.denote .or a b = if a ≠ 0 ∨ b ≠ 0 then 1 else 0 := by rw [BinOp.denote, b2i]
theorem staircase_def (x a b c) : staircase x a b c = (x + a) / b * c := by rw [staircase, ediv]

macro "rule_simp_ops" : tactic => `(tactic|
     simp only [denote_add, denote_sub, denote_mul, denote_div, denote_mod, denote_min, denote_max, denote_eq,
       denote_ne, denote_lt, denote_le, denote_and, denote_or, staircase_def, notV_def, boolV_def, selV_def, andV_def, orV_def,
       predV_def, ne_eq, not_not,
       ite01_eq_zero, ite01_eq_one, zero_eq_ite01, one_eq_ite01, ite01_eq_ite01, false_implies, true_implies, implies_true, 
       and_true, true_and, iff_true, iff_false, true_iff, false_iff])

/-- Unfold the statement that a rule is an identity into a statement about integers. -/
macro "rule_simp" n:ident : tactic => `(tactic| (
     simp (config := { decide := true }) only [$n:ident, AltsStatic, patVal_wild, patVal_cst, patVal_lit, patVal_opt,
       patVal_bin, patVal_not, patVal_select, patVal_abs, patVal_andThen, patVal_orElse, patVal_stair, patVal_eval,
       patVal_boolean, patVal_pred, patVal_stairMin, patVal_stairMax, Pat.canOvf, Pat.isConst,
       Bool.and_false, Bool.false_or, Bool.or_false, Bool.and_true,
       Bool.true_and, Bool.false_and, false_implies, true_implies, or_false, or_true, false_or, implies_true,
       and_true, true_and, ne_eq, not_not, Bool.or_true, Bool.true_or, bne_self_eq_false, imp_false]
     try rule_simp_ops))

/-- Unfold the statement that a rule is an identity, including which operations overflow. -/
macro "rule_simp_dyn" n:ident : tactic => `(tactic| (
     simp (config := { decide := true }) only [$n:ident, AltsSound, patVal_wild, patVal_cst, patVal_lit, patVal_opt,
       patVal_bin, patVal_not, patVal_select, patVal_abs, patVal_andThen, patVal_orElse, patVal_stair, patVal_eval,
       patVal_boolean, patVal_pred, patVal_stairMin, patVal_stairMax, Pat.Ovf, Pat.isConst,
       binaryOverflows, Bool.not_eq_true', decide_eq_false_iff_not, true_implies, Bool.false_eq_true,
       Bool.and_false, Bool.false_or, Bool.or_false, Bool.and_true,
       Bool.true_and, Bool.false_and, false_implies, true_implies, or_false, or_true, false_or, implies_true,
       and_true, true_and, ne_eq, not_not, Bool.or_true, Bool.true_or, bne_self_eq_false, imp_false]
     rule_simp_ops))

end Slinky
