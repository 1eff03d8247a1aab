import Verif.Rules

/-!
# What it means for a rewrite rule to be an identity

`patVal` is the value of a pattern or replacement, given the values of the wildcards and of the constants. `RuleSound` says
that the replacement that the engine chooses has the same value as the pattern, for all values.
-/

namespace Slinky

/-- The value of a pattern or replacement: `σ` are the values of the wildcards, `κ` the constants, `π` the answers of the
predicates. -/
def patVal (σ κ : Nat → Int) (π : PredKind → Nat → Bool) : Pat → Int
  | .wild i => σ i
  | .cst i => κ i
  | .lit c => c
  | .opt p _ => patVal σ κ π p
  | .bin op a b => op.denote (patVal σ κ π a) (patVal σ κ π b)
  | .not a => b2i (patVal σ κ π a = 0)
  | .select c t f => if patVal σ κ π c ≠ 0 then patVal σ κ π t else patVal σ κ π f
  | .call0 _ => 0
  | .call1 .abs a => ((patVal σ κ π a).natAbs : Int)
  | .call1 _ _ => 0
  | .call2 .andThen a b => b2i (patVal σ κ π a ≠ 0 ∧ patVal σ κ π b ≠ 0)
  | .call2 .orElse a b => b2i (patVal σ κ π a ≠ 0 ∨ patVal σ κ π b ≠ 0)
  | .call2 _ _ _ => 0
  | .stair x a b c => staircase (patVal σ κ π x) (patVal σ κ π a) (patVal σ κ π b) (patVal σ κ π c)
  | .eval p => patVal σ κ π p
  | .boolean p => b2i (patVal σ κ π p ≠ 0)
  | .pred k i => b2i (π k i = true)
  | .stairMin a1 b1 c1 a2 b2 c2 =>
    stairMinVal (patVal σ κ π a1) (patVal σ κ π b1) (patVal σ κ π c1) (patVal σ κ π a2) (patVal σ κ π b2) (patVal σ κ π c2)
  | .stairMax a1 b1 c1 a2 b2 c2 =>
    stairMaxVal (patVal σ κ π a1) (patVal σ κ π b1) (patVal σ κ π c1) (patVal σ κ π a2) (patVal σ κ π b2) (patVal σ κ π c2)

/-- What the predicates say about values. `is_finite`, `is_constant` say nothing about the value. -/
structure PredOK (σ : Nat → Int) (π : PredKind → Nat → Bool) : Prop where
  bool : ∀ i, π .isBoolean i = true → σ i = 0 ∨ σ i = 1
  zero : ∀ i, π .isZero i = true → σ i = 0
  nonneg : ∀ i, π .isNonNegative i = true → 0 ≤ σ i
  nonpos : ∀ i, π .isNonPositive i = true → σ i ≤ 0

/-- Has the pattern the type `index_t` in the C++? -/
def Pat.isConst : Pat → Bool
  | .cst _ | .lit _ | .eval _ | .pred _ _ => true
  | .stairMin .. | .stairMax .. => true
  | .opt p _ => p.isConst
  | .bin _ a b => a.isConst && b.isConst
  | .not a => a.isConst
  | _ => false

/-- Does the substitution in the pattern set `overflowed`? Only operations on `index_t` are checked. -/
def Pat.Ovf (σ κ : Nat → Int) (π : PredKind → Nat → Bool) : Pat → Prop
  | .opt p _ | .not p | .eval p | .boolean p | .call1 _ p => p.Ovf σ κ π
  | .bin op a b =>
    a.Ovf σ κ π ∨ b.Ovf σ κ π ∨
      (a.isConst = true ∧ b.isConst = true ∧ binaryOverflows op (patVal σ κ π a) (patVal σ κ π b) = true)
  | .select c t f => c.Ovf σ κ π ∨ t.Ovf σ κ π ∨ f.Ovf σ κ π
  | .call2 _ a b => a.Ovf σ κ π ∨ b.Ovf σ κ π
  | .stair x a b c => x.Ovf σ κ π ∨ a.Ovf σ κ π ∨ b.Ovf σ κ π ∨ c.Ovf σ κ π
  | .stairMin a1 b1 c1 a2 b2 c2 | .stairMax a1 b1 c1 a2 b2 c2 =>
    a1.Ovf σ κ π ∨ b1.Ovf σ κ π ∨ c1.Ovf σ κ π ∨ a2.Ovf σ κ π ∨ b2.Ovf σ κ π ∨ c2.Ovf σ κ π
  | _ => False

/-- Does the pattern mention an infinity? Such rules are about symbolic infinities, which have no integer value. -/
def Pat.hasInf : Pat → Bool
  | .call0 _ => true
  | .opt p _ | .not p | .eval p | .boolean p | .call1 _ p => p.hasInf
  | .bin _ a b => a.hasInf || b.hasInf
  | .select c t f => c.hasInf || t.hasInf || f.hasInf
  | .call2 _ a b => a.hasInf || b.hasInf
  | .stair x a b c => x.hasInf || a.hasInf || b.hasInf || c.hasInf
  | .stairMin a1 b1 c1 a2 b2 c2 | .stairMax a1 b1 c1 a2 b2 c2 =>
    a1.hasInf || b1.hasInf || c1.hasInf || a2.hasInf || b2.hasInf || c2.hasInf
  | _ => false

/-- The alternatives of a rule are identities: the first one whose predicate is true, and such that neither the predicate
nor the replacement overflow, has the value `v`. If `strict` is false, then nothing is said about what happens after an
alternative whose predicate is true is skipped because of an overflow. -/
def AltsSound (strict : Bool) (σ κ : Nat → Int) (π : PredKind → Nat → Bool) (v : Int) : List (Pat × Option Pat) → Prop
  | [] => True
  | (r, none) :: rest =>
    (¬ r.Ovf σ κ π → v = patVal σ κ π r) ∧ (strict = true → r.Ovf σ κ π → AltsSound strict σ κ π v rest)
  | (r, some pr) :: rest =>
    (patVal σ κ π pr ≠ 0 → ¬ pr.Ovf σ κ π → ¬ r.Ovf σ κ π → v = patVal σ κ π r) ∧
    ((¬ pr.Ovf σ κ π ∧ patVal σ κ π pr = 0) ∨ (strict = true ∧ (pr.Ovf σ κ π ∨ r.Ovf σ κ π)) →
      AltsSound strict σ κ π v rest)

/-- The side conditions of the rules that have one: `range` (the rules about the largest and smallest 64-bit integer): the
operand fits in 64 bits; `fit32` (the rules that use `staircase_sum_bounds`): the constants fit in 32 bits; `exact`: no
predicate or replacement overflows (stated in `RuleSound`). -/
def Side.Holds (σ κ : Nat → Int) : Side → Prop
  | .none => True
  | .range => InRange 64 (σ 0)
  | .fit32 => ∀ i, -2 ^ 31 < κ i ∧ κ i < 2 ^ 31
  | .exact => True

/-- C12: the rule is an identity of the integers. -/
def RuleSound (r : Rule) : Prop :=
  r.pat.hasInf = true ∨
  ∀ σ κ π, PredOK σ π → r.side.Holds σ κ → AltsSound (r.side != .exact) σ κ π (patVal σ κ π r.pat) r.alts

end Slinky
