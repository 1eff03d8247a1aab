import Verif.ConstEval
import Mathlib.Tactic.Ring
import Mathlib.Tactic.Linarith
import Mathlib.Algebra.Order.Ring.Int

/-! # C15: the constant evaluator finds bounds -/

namespace Slinky

/-! ### Specification -/

/-- `c` is a lower bound (`s < 0`), an upper bound (`s > 0`), or the exact value (`s = 0`) of `v`. -/
def Bnd (s c v : Int) : Prop := (s < 0 → c ≤ v) ∧ (s = 0 → c = v) ∧ (s > 0 → v ≤ c)

/-- The guard is right: if it trusts the bound `c` of the operand `a` of a logical operator, then neither is negative. -/
def TrustOK (trust : Expr → Int → Bool) (m : Mem) (ρ : Env) : Prop :=
  ∀ a c, trust a c = true → 0 ≤ eval m ρ a ∧ 0 ≤ c

/-! ### Proof -/

/-- The result `r` of the evaluator, for the value `v`. -/
def CE (s : Int) (r : Expr) (v : Int) : Prop :=
  (∀ c, asConst r = some c → Bnd s c v) ∧ (asConst r = none → asConst (stripBoolean r) = none)

theorem Bnd.neg {s c v : Int} (h : Bnd (-s) c v) : Bnd s (-c) (-v) := by
  obtain ⟨h1, h2, h3⟩ := h
  refine ⟨fun h => ?_, fun h => ?_, fun h => ?_⟩
  · have := h3 (by omega); omega
  · have := h2 (by omega); omega
  · have := h1 (by omega); omega

theorem ce_const {s c v : Int} (h : Bnd s c v) : CE s (.const c) v :=
  ⟨fun c' hc => by simp [asConst] at hc; subst hc; exact h, fun h => by simp [asConst] at h⟩

theorem ce_undef {s v : Int} : CE s .undef v := ⟨fun c h => by simp [asConst] at h, fun _ => rfl⟩

theorem ce_nc {s v : Int} {r : Expr} (h1 : asConst r = none) (h2 : asConst (stripBoolean r) = none) : CE s r v :=
  ⟨fun c h => by simp [h1] at h, fun _ => h2⟩

theorem stripBoolean_bin {op : BinOp} (h : op ≠ .ne) (a b : Expr) : stripBoolean (.bin op a b) = .bin op a b := by
  cases op <;> first | rfl | exact absurd rfl h

theorem asConst_bin (op : BinOp) (a b : Expr) : asConst (.bin op a b) = none := rfl

theorem isZero_asConst {e : Expr} (h : isZero e = true) : asConst e = some 0 := by simpa [isZero] using h

theorem strip_ne {a b : Expr} (ha : asConst a = none → asConst (stripBoolean a) = none)
    (hn : asConst a = none ∨ asConst b = none) : asConst (stripBoolean (.bin .ne a b)) = none := by
  unfold stripBoolean
  split
  · next h =>
    have hb := isZero_asConst h
    rcases hn with hn | hn
    · exact ha hn
    · rw [hb] at hn; cases hn
  · rfl

theorem strip_mkBin {op : BinOp} {a b : Expr} (ha : asConst a = none → asConst (stripBoolean a) = none)
    (hb : asConst b = none → asConst (stripBoolean b) = none) (hn : asConst a = none ∨ asConst b = none) :
    asConst (stripBoolean (mkBin op a b)) = none := by
  by_cases hop : op = .ne
  · subst hop
    unfold mkBin
    split
    · exact strip_ne hb hn.symm
    · exact strip_ne ha hn
  · unfold mkBin; split <;> rw [stripBoolean_bin hop] <;> rfl

theorem asConst_mkBin (op : BinOp) (a b : Expr) : asConst (mkBin op a b) = none := by unfold mkBin; split <;> rfl

theorem strip_mkBin' {op : BinOp} (h : op ≠ .ne) (a b : Expr) : asConst (stripBoolean (mkBin op a b)) = none := by
  unfold mkBin; split <;> rw [stripBoolean_bin h] <;> rfl

theorem asConst_rebuild (op : BinOp) (oa ob a b : Expr) : asConst (rebuildBin op oa ob a b) = none := by
  unfold rebuildBin; split
  · rfl
  · exact asConst_mkBin op a b

theorem strip_rebuild {op : BinOp} {oa ob a b : Expr} (ha : asConst a = none → asConst (stripBoolean a) = none)
    (hb : asConst b = none → asConst (stripBoolean b) = none) (hn : asConst a = none ∨ asConst b = none) :
    asConst (stripBoolean (rebuildBin op oa ob a b)) = none := by
  unfold rebuildBin; split
  · next h =>
    obtain ⟨rfl, rfl⟩ := h
    by_cases hop : op = .ne
    · subst hop; exact strip_ne ha hn
    · rw [stripBoolean_bin hop]; rfl
  · exact strip_mkBin ha hb hn

theorem ce_binRes {s sa sb va vb : Int} {op : BinOp} {oa ob a b : Expr} (ha : CE sa a va) (hb : CE sb b vb)
    (hmono : ∀ ca cb, asConst a = some ca → asConst b = some cb → Bnd sa ca va → Bnd sb cb vb →
      Bnd s (op.denote ca cb) (op.denote va vb)) :
    CE s (ceBinRes op oa ob a b) (op.denote va vb) := by
  have key : (asConst a = none ∨ asConst b = none) →
      CE s (if !(a.defined && b.defined) then .undef else rebuildBin op oa ob a b) (op.denote va vb) := by
    intro hn
    split
    · exact ce_undef
    · exact ce_nc (asConst_rebuild ..) (strip_rebuild ha.2 hb.2 hn)
  unfold ceBinRes
  cases hca : asConst a with
  | some ca =>
    cases hcb : asConst b with
    | some cb =>
      simp only [makeOrEval]
      split
      · next ho =>
        have hop : op ≠ .ne := by rintro rfl; simp [binaryOverflows] at ho
        exact ce_nc (asConst_mkBin ..) (strip_mkBin' hop _ _)
      · exact ce_const (hmono ca cb hca hcb (ha.1 ca hca) (hb.1 cb hcb))
    | none => exact key (.inr hcb)
  | none =>
    cases hcb : asConst b with
    | some cb => exact key (.inl hca)
    | none => exact key (.inl hca)

theorem ce_minMax {s sa va vb : Int} {op : BinOp} {take : Bool} {oa ob a b : Expr} (ha : CE sa a va) (hb : CE sa b vb)
    (hmono : ∀ ca cb, Bnd sa ca va → Bnd sa cb vb → Bnd s (op.denote ca cb) (op.denote va vb))
    (htake : take = true → (∀ c, Bnd sa c va → Bnd s c (op.denote va vb)) ∧ ∀ c, Bnd sa c vb → Bnd s c (op.denote va vb)) :
    CE s (ceMinMax op take oa ob a b) (op.denote va vb) := by
  unfold ceMinMax
  cases hca : asConst a with
  | some ca =>
    cases hcb : asConst b with
    | some cb => exact ce_const (hmono ca cb (ha.1 ca hca) (hb.1 cb hcb))
    | none =>
      simp only
      split
      · next ht =>
        refine ⟨fun c hc => (htake ht).1 c (ha.1 c hc), fun h => ha.2 h⟩
      · split
        · exact ce_undef
        · exact ce_nc (asConst_rebuild ..) (strip_rebuild ha.2 hb.2 (.inr hcb))
  | none =>
    cases hcb : asConst b with
    | some cb =>
      simp only
      split
      · next ht =>
        refine ⟨fun c hc => (htake ht).2 c (hb.1 c hc), fun h => hb.2 h⟩
      · split
        · exact ce_undef
        · exact ce_nc (asConst_rebuild ..) (strip_rebuild ha.2 hb.2 (.inl hca))
    | none =>
      simp only
      split
      · exact ce_undef
      · exact ce_nc (asConst_rebuild ..) (strip_rebuild ha.2 hb.2 (.inl hca))

theorem ce_max {s va vb : Int} {oa ob a b : Expr} (ha : CE s a va) (hb : CE s b vb) (take : Bool)
    (htake : take = true → s < 0) :
    CE s (ceMinMax .max take oa ob a b) (max va vb) := by
  refine ce_minMax (op := .max) ha hb ?_ ?_
  · rintro ca cb ⟨a1, a2, a3⟩ ⟨b1, b2, b3⟩
    refine ⟨fun h => ?_, fun h => ?_, fun h => ?_⟩ <;> simp only [BinOp.denote]
    · have := a1 h; have := b1 h; omega
    · have := a2 h; have := b2 h; omega
    · have := a3 h; have := b3 h; omega
  · intro ht
    have hs := htake ht
    constructor <;> rintro c ⟨h1, -, -⟩ <;>
      refine ⟨fun h => ?_, fun h => by omega, fun h => by omega⟩ <;> have := h1 hs <;> simp only [BinOp.denote] <;> omega

theorem ce_max2 {s va vb : Int} {x y rx ry : Expr} (ha : CE s rx va) (hb : CE s ry vb) (take : Bool)
    (htake : take = true → s < 0) : CE s (ceMax2 take x y rx ry) (max va vb) := by
  unfold ceMax2
  split
  · rw [max_comm]; exact ce_max hb ha take htake
  · exact ce_max ha hb take htake

theorem ce_zero (s : Int) : CE s (.const 0) 0 := ce_const ⟨fun _ => le_refl _, fun _ => rfl, fun _ => le_refl _⟩
theorem ce_self (s c : Int) : CE s (.const c) c := ce_const ⟨fun _ => le_refl _, fun _ => rfl, fun _ => le_refl _⟩

theorem ce_sub {s va vb : Int} {oa ob a b : Expr} (ha : CE s a va) (hb : CE (-s) b vb) :
    CE s (ceBinRes .sub oa ob a b) (va - vb) := by
  refine ce_binRes (op := .sub) ha hb ?_
  rintro ca cb - - ⟨a1, a2, a3⟩ ⟨b1, b2, b3⟩
  refine ⟨fun h => ?_, fun h => ?_, fun h => ?_⟩ <;> simp only [BinOp.denote]
  · have := a1 h; have := b3 (by omega); omega
  · have := a2 h; have := b2 (by omega); omega
  · have := a3 h; have := b1 (by omega); omega

theorem signOf_const {r : Expr} {c : Int} (h : asConst r = some c) :
    signOf r = if 0 < c then 1 else if c < 0 then -1 else 0 := by
  rw [asConst_eq h]
  simp [signOf, isPositive, isNegative]

theorem b2i_range (p : Prop) [Decidable p] : 0 ≤ b2i p ∧ b2i p ≤ 1 := by unfold b2i; split <;> omega

theorem ce_boolBound {s v : Int} (hs : s ≠ 0) (h0 : 0 ≤ v) (h1 : v ≤ 1) : CE s (boolBound s) v := by
  unfold boolBound
  refine ce_const ⟨fun h => ?_, fun h => absurd h hs, fun h => ?_⟩
  · rw [if_pos h]; exact h0
  · rw [if_neg (by omega)]; exact h1

theorem strip_idem : ∀ e : Expr, stripBoolean (stripBoolean e) = stripBoolean e
  | .bin .ne a b => by
    by_cases h : isZero b = true
    · simp only [stripBoolean, h, if_true]; exact strip_idem a
    · simp [stripBoolean, h]
  | .undef | .var _ _ _ | .const _ | .lets _ _ | .not _ | .select _ _ _ | .call _ _ => by simp [stripBoolean]
  | .bin .add _ _ | .bin .sub _ _ | .bin .mul _ _ | .bin .div _ _ | .bin .mod _ _ | .bin .min _ _ | .bin .max _ _
  | .bin .eq _ _ | .bin .lt _ _ | .bin .le _ _ | .bin .and _ _ | .bin .or _ _ => by simp [stripBoolean]

theorem strip_const (c : Int) : stripBoolean (.const c) = .const c := rfl

/-- What is known about an operand of a logical operator: if it is a constant, then it bounds the value, and if it is a bound
(not exact), then it can be used to decide the truth of the value. -/
structure OpRes (s : Int) (r : Expr) (v : Int) : Prop where
  bnd : ∀ c, asConst r = some c → Bnd s c v ∧ (s = 0 ∨ (0 ≤ c ∧ 0 ≤ v))
  nc : asConst r = none → asConst (stripBoolean r) = none

theorem opRes_of {trust : Expr → Int → Bool} {m : Mem} {ρ : Env} (ht : TrustOK trust m ρ) {s : Int} {o r : Expr}
    (h : CE s r (eval m ρ o)) : OpRes s (trusted trust s o (stripBoolean r)) (eval m ρ o) := by
  cases hr : asConst r with
  | some c =>
    have := asConst_eq hr; subst this
    simp only [strip_const, trusted, asConst]
    split
    · exact ⟨fun c h => by simp [asConst] at h, fun _ => rfl⟩
    · next hc =>
      refine ⟨fun c' h' => ?_, fun h => by simp [asConst] at h⟩
      have : c' = c := by simpa [asConst] using h'.symm
      subst this
      refine ⟨h.1 c' rfl, ?_⟩
      by_cases hs : s = 0
      · exact .inl hs
      · have : trust o c' = true := by
          by_contra h1
          exact hc ⟨hs, by simpa using h1⟩
        have := ht o c' this
        exact .inr ⟨this.2, this.1⟩
  | none =>
    have hn := h.2 hr
    have : trusted trust s o (stripBoolean r) = stripBoolean r := by unfold trusted; rw [hn]
    rw [this]
    exact ⟨fun c hc => (by rw [hn] at hc; cases hc), fun _ => by rw [strip_idem]; exact hn⟩

theorem boolean_const (c : Int) : boolean (.const c) = .const (b2i (c ≠ 0)) := by
  unfold boolean
  by_cases h0 : c = 0
  · subst h0; simp [isBoolean, isZero, asConst, b2i]
  · by_cases h1 : c = 1
    · subst h1; simp [isBoolean, isOne, asConst, b2i]
    · have : isBoolean (.const c) = false := by
        simp [isBoolean, isBooleanNode, isOne, isZero, asConst, h0, h1]
      simp [this, asConst, Expr.defined, b2i, h0]

theorem boolean_nc {e : Expr} (h : asConst e = none) (h2 : asConst (stripBoolean e) = none) :
    asConst (boolean e) = none ∧ asConst (stripBoolean (boolean e)) = none := by
  unfold boolean
  split
  · exact ⟨h, h2⟩
  · rw [h]
    refine ⟨asConst_mkBin .., ?_⟩
    refine strip_mkBin (fun _ => h2) (fun h => ?_) (.inl h)
    simp [asConst] at h

/-- The booleans of the bounds bound the boolean of the value. -/
theorem opRes_bool {s c v : Int} (h : Bnd s c v ∧ (s = 0 ∨ (0 ≤ c ∧ 0 ≤ v))) : Bnd s (b2i (c ≠ 0)) (b2i (v ≠ 0)) := by
  obtain ⟨⟨h1, h2, h3⟩, h4⟩ := h
  refine ⟨fun hs => ?_, fun hs => ?_, fun hs => ?_⟩
  · have := h1 hs
    rcases h4 with h4 | h4
    · omega
    · unfold b2i
      by_cases hc : c = 0
      · rw [if_neg (by simpa using hc)]; split <;> omega
      · rw [if_pos hc, if_pos (by omega)]
  · rw [h2 hs]
  · have := h3 hs
    rcases h4 with h4 | h4
    · omega
    · unfold b2i
      by_cases hv : v = 0
      · rw [if_neg (by simpa using hv)]; split <;> omega
      · rw [if_pos hv, if_pos (by omega)]

/-- `boolean` of the result for an operand. -/
theorem ce_boolean {s v : Int} {r : Expr} (h : OpRes s r v) : CE s (boolean r) (b2i (v ≠ 0)) := by
  cases hr : asConst r with
  | some c =>
    have := asConst_eq hr; subst this
    rw [boolean_const]
    exact ce_const (opRes_bool (h.bnd c rfl))
  | none =>
    obtain ⟨h1, h2⟩ := boolean_nc hr (h.nc hr)
    exact ce_nc h1 h2

/-- The two operands are treated in the same way. -/
theorem ce_andOr {isAnd : Bool} {s ns va vb : Int} {mk : Expr → Expr → Expr} {a b : Expr}
    (hns : ns = if isAnd then min s 0 else max s 0) (ha : OpRes ns a va) (hb : OpRes ns b vb)
    (hmk : ∀ a b, asConst (mk a b) = none ∧ asConst (stripBoolean (mk a b)) = none) :
    CE s (ceAndOr isAnd s mk a b) (if isAnd then b2i (va ≠ 0 ∧ vb ≠ 0) else b2i (va ≠ 0 ∨ vb ≠ 0)) := by
  have hv01 : 0 ≤ (if isAnd then b2i (va ≠ 0 ∧ vb ≠ 0) else b2i (va ≠ 0 ∨ vb ≠ 0)) ∧
      (if isAnd then b2i (va ≠ 0 ∧ vb ≠ 0) else b2i (va ≠ 0 ∨ vb ≠ 0)) ≤ 1 := by
    split <;> exact b2i_range _
  -- a result for the sign of the operands is a result for the sign of the operator
  have lift : ∀ {r v}, CE ns r v → (asConst r = none ∨ True) → CE s r v := by
    intro r v h _
    refine ⟨fun c hc => ?_, h.2⟩
    obtain ⟨h1, h2, h3⟩ := h.1 c hc
    rw [hns] at h1 h2 h3
    cases isAnd <;> simp at h1 h2 h3
    all_goals refine ⟨fun hs => ?_, fun hs => ?_, fun hs => ?_⟩
    · have := h2 (by omega); omega
    · exact h2 (by omega)
    · exact h3 (by omega)
    · exact h1 (by omega)
    · exact h2 (by omega)
    · have := h2 (by omega); omega
  have main : ∀ {a b : Expr} {va vb : Int}, OpRes ns a va → OpRes ns b vb → ∀ ca, asConst a = some ca →
      CE s (if ca ≠ 0 then boolean (if isAnd then b else a) else boolean (if isAnd then a else b))
        (if isAnd then b2i (va ≠ 0 ∧ vb ≠ 0) else b2i (va ≠ 0 ∨ vb ≠ 0)) := by
    intro a b va vb ha hb ca hca
    obtain ⟨⟨h1, h2, h3⟩, h4⟩ := ha.bnd ca hca
    have ea := asConst_eq hca
    cases isAnd
    · -- or: ns = max s 0
      simp only [Bool.false_eq_true, if_false] at *
      split
      · next hc =>
        rw [ea, boolean_const]
        refine ce_const ?_
        rw [show b2i (ca ≠ 0) = 1 by simp [b2i, hc]]
        refine ⟨fun hs => ?_, fun hs => ?_, fun hs => ?_⟩
        · have := h2 (by omega)
          rw [show b2i (va ≠ 0 ∨ vb ≠ 0) = 1 by unfold b2i; rw [if_pos (.inl (by omega))]]
        · have := h2 (by omega)
          rw [show b2i (va ≠ 0 ∨ vb ≠ 0) = 1 by unfold b2i; rw [if_pos (.inl (by omega))]]
        · exact (b2i_range _).2
      · next hc =>
        have hc : ca = 0 := by simpa using hc
        have hva : va = 0 := by
          by_cases hs : s ≤ 0
          · have := h2 (by omega); omega
          · have := h3 (by omega)
            rcases h4 with h4 | h4 <;> omega
        have := lift (ce_boolean hb) (.inr trivial)
        simpa [hva] using this
    · simp only [if_true] at *
      split
      · next hc =>
        have hva : va ≠ 0 := by
          by_cases hs : 0 ≤ s
          · have := h2 (by omega); omega
          · have := h1 (by omega)
            rcases h4 with h4 | h4 <;> omega
        have := lift (ce_boolean hb) (.inr trivial)
        simpa [hva] using this
      · next hc =>
        have hc : ca = 0 := by simpa using hc
        rw [ea, boolean_const]
        refine ce_const ?_
        rw [show b2i (ca ≠ 0) = 0 by simp [b2i, hc]]
        refine ⟨fun hs => (b2i_range _).1, fun hs => ?_, fun hs => ?_⟩
        · have := h2 (by omega)
          rw [show b2i (va ≠ 0 ∧ vb ≠ 0) = 0 by unfold b2i; rw [if_neg (by omega)]]
        · have := h2 (by omega)
          rw [show b2i (va ≠ 0 ∧ vb ≠ 0) = 0 by unfold b2i; rw [if_neg (by omega)]]
  unfold ceAndOr
  cases hcb : asConst b with
  | some cb =>
    simp only [Option.isSome, if_true, hcb]
    have := main hb ha cb hcb
    rwa [and_comm_b2i, or_comm_b2i] at this
  | none =>
    simp only [Option.isSome, Bool.false_eq_true, if_false]
    cases hca : asConst a with
    | some ca => exact main ha hb ca hca
    | none =>
      simp only
      split
      · next hs => exact ce_boolBound hs hv01.1 hv01.2
      · split
        · exact ce_undef
        · exact ce_nc (hmk a b).1 (hmk a b).2
where
  and_comm_b2i {x y : Int} : b2i (x ≠ 0 ∧ y ≠ 0) = b2i (y ≠ 0 ∧ x ≠ 0) := by simp [and_comm]
  or_comm_b2i {x y : Int} : b2i (x ≠ 0 ∨ y ≠ 0) = b2i (y ≠ 0 ∨ x ≠ 0) := by simp [or_comm]


theorem ce_mul_case {s : Int} {trust : Expr → Int → Bool} {req : Bool} {a b : Expr} {va vb : Int}
    (ha : ∀ s, CE s (ce trust req s a) va) (hb : ∀ s, CE s (ce trust req s b) vb) :
    CE s (ce trust req s (.bin .mul a b)) (va * vb) := by
  simp only [ce]
  split
  · refine ce_binRes (op := .mul) (ha 0) (hb 0) ?_
    rintro ca cb - - ⟨-, h1, -⟩ ⟨-, h2, -⟩
    rw [h1 rfl, h2 rfl]
    exact ⟨fun _ => le_refl _, fun _ => rfl, fun _ => le_refl _⟩
  · next hn =>
    have hs : s ≠ 0 := fun h => hn (.inl h)
    split
    · refine ce_binRes (op := .mul) (ha 0) (hb _) ?_
      rintro ca cb hca - ⟨-, h1, -⟩ ⟨b1, b2, b3⟩
      have h1 := h1 rfl
      rw [signOf_const hca] at b1 b2 b3
      subst h1
      simp only [BinOp.denote]
      by_cases hp : 0 < ca
      · simp only [hp, if_true, mul_one] at b1 b2 b3
        refine ⟨fun h => ?_, fun h => absurd h hs, fun h => ?_⟩
        · exact mul_le_mul_of_nonneg_left (b1 h) hp.le
        · exact mul_le_mul_of_nonneg_left (b3 h) hp.le
      · by_cases hq : ca < 0
        · simp only [hp, hq, if_true, if_false] at b1 b2 b3
          refine ⟨fun h => ?_, fun h => absurd h hs, fun h => ?_⟩
          · exact mul_le_mul_of_nonpos_left (b3 (by omega)) hq.le
          · exact mul_le_mul_of_nonpos_left (b1 (by omega)) hq.le
        · have : ca = 0 := by omega
          subst this
          refine absurd ?_ hn
          exact .inr (.inl (by simp [isZero, hca]))
    · split
      · refine ce_binRes (op := .mul) (ha _) (hb 0) ?_
        rintro ca cb - hcb ⟨b1, b2, b3⟩ ⟨-, h1, -⟩
        have h1 := h1 rfl
        rw [signOf_const hcb] at b1 b2 b3
        subst h1
        simp only [BinOp.denote]
        by_cases hp : 0 < cb
        · simp only [hp, if_true, mul_one] at b1 b2 b3
          refine ⟨fun h => ?_, fun h => absurd h hs, fun h => ?_⟩
          · exact mul_le_mul_of_nonneg_right (b1 h) hp.le
          · exact mul_le_mul_of_nonneg_right (b3 h) hp.le
        · by_cases hq : cb < 0
          · simp only [hp, hq, if_true, if_false] at b1 b2 b3
            refine ⟨fun h => ?_, fun h => absurd h hs, fun h => ?_⟩
            · exact mul_le_mul_of_nonpos_right (b3 (by omega)) hq.le
            · exact mul_le_mul_of_nonpos_right (b1 (by omega)) hq.le
          · have : cb = 0 := by omega
            subst this
            exact absurd (.inr (.inr (.inl (by simp [isZero, hcb])))) hn
      · split
        · exact ce_undef
        · exact ce_nc rfl (by rw [stripBoolean_bin (by simp)]; rfl)

theorem ce_div_case {s : Int} {trust : Expr → Int → Bool} {req : Bool} {a b : Expr} {va vb : Int}
    (ha : ∀ s, CE s (ce trust req s a) va) (hb : ∀ s, CE s (ce trust req s b) vb) :
    CE s (ce trust req s (.bin .div a b)) (ediv va vb) := by
  simp only [ce]
  split
  · refine ce_binRes (op := .div) (ha 0) (hb 0) ?_
    rintro ca cb - - ⟨-, h1, -⟩ ⟨-, h2, -⟩
    rw [h1 rfl, h2 rfl]
    exact ⟨fun _ => le_refl _, fun _ => rfl, fun _ => le_refl _⟩
  · next hn =>
    have hs : s ≠ 0 := fun h => hn (.inl h)
    split
    · refine ce_binRes (op := .div) (ha _) (hb 0) ?_
      rintro ca cb - hcb ⟨b1, b2, b3⟩ ⟨-, h1, -⟩
      have h1 := h1 rfl
      rw [signOf_const hcb] at b1 b2 b3
      subst h1
      simp only [BinOp.denote]
      by_cases hp : 0 < cb
      · simp only [hp, if_true, mul_one] at b1 b2 b3
        refine ⟨fun h => ?_, fun h => absurd h hs, fun h => ?_⟩
        · exact ediv_mono (b1 h) hp.le
        · exact ediv_mono (b3 h) hp.le
      · by_cases hq : cb < 0
        · simp only [hp, hq, if_true, if_false] at b1 b2 b3
          refine ⟨fun h => ?_, fun h => absurd h hs, fun h => ?_⟩
          · exact ediv_anti (b3 (by omega)) hq.le
          · exact ediv_anti (b1 (by omega)) hq.le
        · have : cb = 0 := by omega
          subst this
          exact absurd (.inr (.inr (.inl (by simp [isZero, hcb])))) hn
    · split
      · exact ce_undef
      · exact ce_nc rfl (by rw [stripBoolean_bin (by simp)]; rfl)

theorem emod_bounds (a b : Int) : 0 ≤ emod a b ∧ emod a b ≤ max 0 (max (-b) b - 1) := by
  unfold emod
  by_cases hb : b = 0
  · subst hb; simp
  · have h1 := Int.emod_nonneg a hb
    have h2 := Int.emod_lt_abs a hb
    rw [if_neg hb]
    rcases abs_cases b with h | h <;> omega

theorem ce_mod_case {s : Int} {trust : Expr → Int → Bool} {req : Bool} {a b : Expr} {va vb : Int}
    (ha : ∀ s, CE s (ce trust req s a) va) (hb : ∀ s, CE s (ce trust req s b) vb) :
    CE s (ce trust req s (.bin .mod a b)) (emod va vb) := by
  simp only [ce]
  split
  · next hs =>
    refine ce_binRes (op := .mod) (ha s) (hb s) ?_
    rintro ca cb - - ⟨-, h1, -⟩ ⟨-, h2, -⟩
    rw [h1 hs, h2 hs]
    exact ⟨fun _ => le_refl _, fun _ => rfl, fun _ => le_refl _⟩
  · split
    · next h =>
      exact ce_const ⟨fun _ => (emod_bounds _ _).1, fun h' => by omega, fun h' => by omega⟩
    · split
      · have h1 := ce_sub (s := s) (oa := .const 0) (ob := b) (ce_zero s) (hb (-s))
        have h2 := ce_max2 (x := negE b) (y := b) h1 (hb s) false (by simp)
        have h3 := ce_sub (oa := mkBin .max (negE b) b) (ob := .const 1) h2 (ce_self (-s) 1)
        have h4 := ce_max (oa := mkBin .sub (mkBin .max (negE b) b) (.const 1)) (ob := .const 0) h3 (ce_zero s) false (by simp)
        refine ⟨fun c hc => ?_, h4.2⟩
        obtain ⟨b1, b2, b3⟩ := h4.1 c hc
        refine ⟨fun h => by omega, fun h => by omega, fun h => ?_⟩
        have := b3 h
        have := (emod_bounds va vb).2
        omega
      · split
        · exact ce_undef
        · exact ce_nc rfl (by rw [stripBoolean_bin (by simp)]; rfl)

theorem ce_less_case {s : Int} {trust : Expr → Int → Bool} {req : Bool} {op : BinOp} (hop : op = .lt ∨ op = .le)
    {oa ob a b : Expr} {va vb : Int} (ha : CE (-s) a va) (hb : CE s b vb) :
    CE s (ceLess trust req s op oa ob a b) (op.denote va vb) := by
  have h01 : 0 ≤ op.denote va vb ∧ op.denote va vb ≤ 1 := by
    rcases hop with rfl | rfl <;> exact b2i_range _
  have key : (asConst a = none ∨ asConst b = none) →
      CE s (if s ≠ 0 then boolBound s else if !a.defined || !b.defined then .undef else rebuildBin op oa ob a b)
        (op.denote va vb) := by
    intro hn
    split
    · next hs => exact ce_boolBound hs h01.1 h01.2
    · split
      · exact ce_undef
      · exact ce_nc (asConst_rebuild ..) (strip_rebuild ha.2 hb.2 hn)
  unfold ceLess
  cases hca : asConst a with
  | some ca =>
    cases hcb : asConst b with
    | some cb =>
      refine ce_const ?_
      obtain ⟨a1, a2, a3⟩ := ha.1 ca hca
      obtain ⟨b1, b2, b3⟩ := hb.1 cb hcb
      rcases hop with rfl | rfl <;> simp only [BinOp.denote, b2i]
      all_goals refine ⟨fun h => ?_, fun h => ?_, fun h => ?_⟩
      · have := a3 (by omega); have := b1 h; split <;> split <;> omega
      · have := a2 (by omega); have := b2 h; split <;> split <;> omega
      · have := a1 (by omega); have := b3 h; split <;> split <;> omega
      · have := a3 (by omega); have := b1 h; split <;> split <;> omega
      · have := a2 (by omega); have := b2 h; split <;> split <;> omega
      · have := a1 (by omega); have := b3 h; split <;> split <;> omega
    | none => exact key (.inr hcb)
  | none =>
    cases hcb : asConst b with
    | some cb => exact key (.inl hca)
    | none => exact key (.inl hca)

theorem ce_abs_case {s : Int} {trust : Expr → Int → Bool} {req : Bool} {x : Expr} {v : Int}
    (hx : ∀ s, CE s (ce trust req s x) v) :
    CE s (ce trust req s (.call .abs (.cons x .nil))) (v.natAbs : Int) := by
  simp only [ce]
  have h1 := ce_sub (s := s) (oa := .const 0) (ob := x) (ce_zero s) (hx (-s))
  have h2 := ce_max2 (x := x) (y := negE x) (hx s) h1 (decide (s < 0)) (by simp)
  have h3 := ce_max (oa := mkBin .max x (negE x)) (ob := .const 0) h2 (ce_zero s) (decide (s < 0)) (by simp)
  split
  · have : (v.natAbs : Int) = max (max v (0 - v)) 0 := by omega
    rw [this]
    exact h3
  · split
    · exact ce_undef
    · split
      · exact ce_nc rfl rfl
      · exact ce_nc rfl rfl

theorem boolOp_mk {op : BinOp} (h : op ≠ .ne) (oa ob : Expr) (a b : Expr) :
    asConst (rebuildBin op oa ob a b) = none ∧ asConst (stripBoolean (rebuildBin op oa ob a b)) = none := by
  refine ⟨asConst_rebuild .., ?_⟩
  unfold rebuildBin
  split
  · rw [stripBoolean_bin h]; rfl
  · exact strip_mkBin' h a b

/-- The evaluator finds bounds. -/
theorem ce_sound {trust : Expr → Int → Bool} {m : Mem} {ρ : Env} (ht : TrustOK trust m ρ) (req : Bool) :
    ∀ (e : Expr) (s : Int), e.ok = true → CE s (ce trust req s e) (eval m ρ e)
  | .undef, s, h => by simp [Expr.ok] at h
  | .var x f d, s, _ => by
    simp only [ce]
    split
    · exact ce_undef
    · exact ce_nc rfl rfl
  | .const c, s, _ => by simpa [ce, eval] using ce_self s c
  | .lets bs b, s, _ => by simp only [ce]; exact ce_nc rfl rfl
  | .not a, s, h => by
    have ha : a.ok = true := by simpa [Expr.ok] using h
    have ih := opRes_of ht (ce_sound ht req a (-s) ha)
    have heq : trusted trust s a (stripBoolean (ce trust req (-s) a)) =
        trusted trust (-s) a (stripBoolean (ce trust req (-s) a)) := by
      unfold trusted
      split
      · by_cases hs : s = 0 <;> simp [hs]
      · rfl
    simp only [ce, eval, heq]
    generalize trusted trust (-s) a (stripBoolean (ce trust req (-s) a)) = r at ih
    have h01 := b2i_range (eval m ρ a = 0)
    cases hr : asConst r with
    | some c =>
      refine ce_const ?_
      obtain ⟨⟨h1, h2, h3⟩, h4⟩ := ih.bnd c hr
      unfold b2i
      refine ⟨fun h => ?_, fun h => ?_, fun h => ?_⟩
      · have := h3 (by omega); split <;> split <;> omega
      · have := h2 (by omega); split <;> split <;> omega
      · have := h1 (by omega); split <;> split <;> omega
    | none =>
      simp only
      split
      · next hs => exact ce_boolBound hs h01.1 h01.2
      · split
        · exact ce_undef
        · exact ce_nc rfl rfl
  | .select c t f, s, h => by
    simp only [Expr.ok, Bool.and_eq_true] at h
    have ihc := ce_sound ht req c 0 h.1.1
    have iht := ce_sound ht req t s h.1.2
    have ihf := ce_sound ht req f s h.2
    have hfin : ∀ rc rt rf : Expr, CE s (if !(rc.defined && rt.defined && rf.defined) then Expr.undef else .select rc rt rf)
        (eval m ρ (.select c t f)) := by
      intro rc rt rf
      split
      · exact ce_undef
      · exact ce_nc rfl rfl
    simp only [ce]
    cases hrc : asConst (stripBoolean (ce trust req 0 c)) with
    | some cc =>
      have hc : ce trust req 0 c = .const cc := by
        cases h0 : asConst (ce trust req 0 c) with
        | some c1 =>
          have := asConst_eq h0
          rw [this] at hrc ⊢
          simpa [stripBoolean, asConst] using hrc
        | none => rw [ihc.2 h0] at hrc; cases hrc
      have hv : cc = eval m ρ c := (ihc.1 cc (by rw [hc]; rfl)).2.1 rfl
      simp only [eval, ← hv]
      by_cases hz : cc = 0
      · simpa [hz] using ihf
      · simpa [hz] using iht
    | none =>
      simp only
      cases hct : asConst (ce trust req s t) with
      | none => simpa using hfin _ _ _
      | some ct =>
        cases hcf : asConst (ce trust req s f) with
        | none => simpa using hfin _ _ _
        | some cf =>
          obtain ⟨a1, a2, a3⟩ := iht.1 ct hct
          obtain ⟨b1, b2, b3⟩ := ihf.1 cf hcf
          simp only
          split
          · next hs =>
            refine ce_const ⟨fun h => ?_, fun h => by omega, fun h => by omega⟩
            have := a1 hs; have := b1 hs
            simp only [eval]; split <;> omega
          · split
            · next hs =>
              refine ce_const ⟨fun h => by omega, fun h => by omega, fun h => ?_⟩
              have := a3 hs; have := b3 hs
              simp only [eval]; split <;> omega
            · split
              · exact ce_undef
              · exact ce_nc rfl rfl
  | .bin op a b, s, h => by
    simp only [Expr.ok_bin, Bool.and_eq_true] at h
    have iha := fun s => ce_sound ht req a s h.1
    have ihb := fun s => ce_sound ht req b s h.2
    cases op
    · -- add
      simp only [ce, eval]
      refine ce_binRes (iha s) (ihb s) ?_
      rintro ca cb - - ⟨a1, a2, a3⟩ ⟨b1, b2, b3⟩
      refine ⟨fun h => ?_, fun h => ?_, fun h => ?_⟩ <;> simp only [BinOp.denote]
      · have := a1 h; have := b1 h; omega
      · have := a2 h; have := b2 h; omega
      · have := a3 h; have := b3 h; omega
    · simp only [ce, eval]; exact ce_sub (iha s) (ihb (-s))
    · simp only [eval]; exact ce_mul_case iha ihb
    · simp only [eval]; exact ce_div_case iha ihb
    · simp only [eval]; exact ce_mod_case iha ihb
    · -- min
      simp only [ce, eval]
      refine ce_minMax (iha s) (ihb s) ?_ ?_
      · rintro ca cb ⟨a1, a2, a3⟩ ⟨b1, b2, b3⟩
        refine ⟨fun h => ?_, fun h => ?_, fun h => ?_⟩ <;> simp only [BinOp.denote]
        · have := a1 h; have := b1 h; omega
        · have := a2 h; have := b2 h; omega
        · have := a3 h; have := b3 h; omega
      · intro hs
        have hs : 0 < s := by simpa using hs
        constructor <;> rintro c ⟨-, -, h3⟩ <;>
          refine ⟨fun h => by omega, fun h => by omega, fun h => ?_⟩ <;> have := h3 hs <;> simp only [BinOp.denote] <;> omega
    · simp only [ce, eval]; exact ce_max (iha s) (ihb s) _ (by simp)
    · -- eq
      simp only [ce, eval]
      split
      · next hs =>
        refine ce_binRes (iha s) (ihb s) ?_
        rintro ca cb - - ⟨-, h1, -⟩ ⟨-, h2, -⟩
        rw [h1 hs, h2 hs]
        exact ⟨fun _ => le_refl _, fun _ => rfl, fun _ => le_refl _⟩
      · next hs => exact ce_boolBound hs (b2i_range _).1 (b2i_range _).2
    · simp only [ce, eval]
      split
      · next hs =>
        refine ce_binRes (iha s) (ihb s) ?_
        rintro ca cb - - ⟨-, h1, -⟩ ⟨-, h2, -⟩
        rw [h1 hs, h2 hs]
        exact ⟨fun _ => le_refl _, fun _ => rfl, fun _ => le_refl _⟩
      · next hs => exact ce_boolBound hs (b2i_range _).1 (b2i_range _).2
    · simp only [ce, eval]; exact ce_less_case (.inl rfl) (iha (-s)) (ihb s)
    · simp only [ce, eval]; exact ce_less_case (.inr rfl) (iha (-s)) (ihb s)
    · simp only [ce, eval]
      have := ce_andOr (isAnd := true) (s := s) (ns := min s 0) (mk := fun ra rb => rebuildBin .and a b ra rb) rfl
        (opRes_of ht (iha (min s 0))) (opRes_of ht (ihb (min s 0))) (boolOp_mk (by simp) a b)
      simpa [BinOp.denote] using this
    · simp only [ce, eval]
      have := ce_andOr (isAnd := false) (s := s) (ns := max s 0) (mk := fun ra rb => rebuildBin .or a b ra rb) rfl
        (opRes_of ht (iha (max s 0))) (opRes_of ht (ihb (max s 0))) (boolOp_mk (by simp) a b)
      simpa [BinOp.denote] using this
  | .call .abs .nil, s, h => by simp [Expr.ok, Exprs.length] at h
  | .call .abs (.cons x .nil), s, h => by
    have hx : x.ok = true := by simp [Expr.ok, Exprs.ok, Fn.strict] at h; exact h.1.2
    have := ce_abs_case (s := s) (fun s => ce_sound ht req x s hx)
    simpa [eval, evalArgs, ok_defined hx, Fn.denote] using this
  | .call .abs (.cons x (.cons y es)), s, h => by simp [Expr.ok, Exprs.length] at h
  | .call .andThen .nil, s, h => by simp only [ce]; exact ce_undef
  | .call .andThen (.cons a .nil), s, h => by simp only [ce]; exact ce_undef
  | .call .andThen (.cons a (.cons b .nil)), s, h => by
    have hab : a.ok = true ∧ b.ok = true := by simp [Expr.ok, Exprs.ok, Fn.strict] at h; exact ⟨h.2.1, h.2.2⟩
    simp only [ce]
    have := ce_andOr (isAnd := true) (s := s) (ns := min s 0) (mk := fun ra rb => .call .andThen (.cons ra (.cons rb .nil))) rfl
      (opRes_of ht (ce_sound ht req a (min s 0) hab.1)) (opRes_of ht (ce_sound ht req b (min s 0) hab.2))
      (fun _ _ => ⟨rfl, rfl⟩)
    simpa [eval, evalArgs, ok_defined hab.1, ok_defined hab.2, Fn.denote] using this
  | .call .andThen (.cons a (.cons b (.cons c es))), s, h => by simp only [ce]; exact ce_undef
  | .call .orElse .nil, s, h => by simp only [ce]; exact ce_undef
  | .call .orElse (.cons a .nil), s, h => by simp only [ce]; exact ce_undef
  | .call .orElse (.cons a (.cons b .nil)), s, h => by
    have hab : a.ok = true ∧ b.ok = true := by simp [Expr.ok, Exprs.ok, Fn.strict] at h; exact ⟨h.2.1, h.2.2⟩
    simp only [ce]
    have := ce_andOr (isAnd := false) (s := s) (ns := max s 0) (mk := fun ra rb => .call .orElse (.cons ra (.cons rb .nil))) rfl
      (opRes_of ht (ce_sound ht req a (max s 0) hab.1)) (opRes_of ht (ce_sound ht req b (max s 0) hab.2))
      (fun _ _ => ⟨rfl, rfl⟩)
    simpa [eval, evalArgs, ok_defined hab.1, ok_defined hab.2, Fn.denote] using this
  | .call .orElse (.cons a (.cons b (.cons c es))), s, h => by simp only [ce]; exact ce_undef
  | .call (.user k) as, s, h => by simp only [ce]; exact call_default _ _
  | .call .negInf as, s, h => by simp only [ce]; exact call_default _ _
  | .call .posInf as, s, h => by simp only [ce]; exact call_default _ _
  | .call .indeterminate as, s, h => by simp only [ce]; exact call_default _ _
  | .call .bufferAt as, s, h => by simp only [ce]; exact call_default _ _
  | .call .semInit as, s, h => by simp only [ce]; exact call_default _ _
  | .call .semSignal as, s, h => by simp only [ce]; exact call_default _ _
  | .call .semWait as, s, h => by simp only [ce]; exact call_default _ _
  | .call .waitFor as, s, h => by simp only [ce]; exact call_default _ _
  | .call .traceBegin as, s, h => by simp only [ce]; exact call_default _ _
  | .call .traceEnd as, s, h => by simp only [ce]; exact call_default _ _
  | .call .free as, s, h => by simp only [ce]; exact call_default _ _
  | .call .validateBuffer as, s, h => by simp only [ce]; exact call_default _ _
termination_by e => sizeOf e
where
  call_default {s v : Int} {req : Bool} {fn : Fn} (as bs : Exprs) :
      CE s (if req = true then .undef else if s = 0 then .call fn as else .call fn bs) v := by
    split
    · exact ce_undef
    · split <;> exact ce_nc rfl rfl

end Slinky
