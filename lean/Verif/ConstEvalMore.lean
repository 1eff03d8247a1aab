import Verif.ConstEvalProps

/-! # C15: the public functions of the constant evaluator -/

namespace Slinky

/-! ### With the guard -/

/-- C15 (partial): if `constant_lower_bound` returns a constant, then it is a lower bound. -/
theorem constantLowerBound_sound_partial {trust : Expr → Int → Bool} {m : Mem} {ρ : Env} (ht : TrustOK trust m ρ) {e : Expr}
    (h : e.ok = true) {c : Int} (hc : constantLowerBound trust e = .const c) : c ≤ eval m ρ e :=
  ((ce_sound ht false e (-1) h).1 c (by unfold constantLowerBound at hc; rw [hc]; rfl)).1 (by omega)

/-- C15 (partial): if `constant_upper_bound` returns a constant, then it is an upper bound. -/
theorem constantUpperBound_sound_partial {trust : Expr → Int → Bool} {m : Mem} {ρ : Env} (ht : TrustOK trust m ρ) {e : Expr}
    (h : e.ok = true) {c : Int} (hc : constantUpperBound trust e = .const c) : eval m ρ e ≤ c :=
  ((ce_sound ht false e 1 h).1 c (by unfold constantUpperBound at hc; rw [hc]; rfl)).2.2 (by omega)

/-- C15: the result of `evaluate_constant` is the value, if the expression evaluates to a constant. -/
theorem evaluateConstant_sound_partial {trust : Expr → Int → Bool} {m : Mem} {ρ : Env} (ht : TrustOK trust m ρ) {e : Expr}
    (h : e.ok = true) {c : Int} (hc : evaluateConstant trust e = some c) : eval m ρ e = c :=
  (((ce_sound ht true e 0 h).1 c hc).2.1 rfl).symm

/-- C15 (partial): `evaluate_constant_lower_bound` finds a lower bound. -/
theorem evaluateConstantLowerBound_sound_partial {trust : Expr → Int → Bool} {m : Mem} {ρ : Env} (ht : TrustOK trust m ρ)
    {e : Expr} (h : e.ok = true) {c : Int} (hc : evaluateConstantLowerBound trust e = some c) : c ≤ eval m ρ e :=
  ((ce_sound ht true e (-1) h).1 c hc).1 (by omega)

/-- C15 (partial): `evaluate_constant_upper_bound` finds an upper bound. -/
theorem evaluateConstantUpperBound_sound_partial {trust : Expr → Int → Bool} {m : Mem} {ρ : Env} (ht : TrustOK trust m ρ)
    {e : Expr} (h : e.ok = true) {c : Int} (hc : evaluateConstantUpperBound trust e = some c) : eval m ρ e ≤ c :=
  ((ce_sound ht true e 1 h).1 c hc).2.2 (by omega)

/-- C15 (partial): what `prove_constant_true` proves is true. -/
theorem proveConstantTrue_sound_partial {trust : Expr → Int → Bool} {m : Mem} {ρ : Env} (ht : TrustOK trust m ρ)
    {e : Expr} (h : e.ok = true) (hp : proveConstantTrue trust e = true) : eval m ρ e ≠ 0 := by
  unfold proveConstantTrue at hp
  simp only [ok_defined h, Bool.not_true, Bool.false_eq_true, if_false] at hp
  cases hc : evaluateConstant trust e with
  | some c =>
    rw [hc] at hp
    rw [evaluateConstant_sound_partial ht h hc]
    simpa using hp
  | none =>
    rw [hc] at hp
    simp only [Bool.or_eq_true] at hp
    rcases hp with hp | hp
    · cases ha : asConst (constantLowerBound trust e) with
      | some a =>
        rw [ha] at hp
        have := constantLowerBound_sound_partial ht h (asConst_eq ha)
        have : 0 < a := by simpa using hp
        omega
      | none => simp [ha] at hp
    · cases ha : asConst (constantUpperBound trust e) with
      | some a =>
        rw [ha] at hp
        have := constantUpperBound_sound_partial ht h (asConst_eq ha)
        have : a < 0 := by simpa using hp
        omega
      | none => simp [ha] at hp

/-- C15 (partial): what `prove_constant_false` disproves is false. -/
theorem proveConstantFalse_sound_partial {trust : Expr → Int → Bool} {m : Mem} {ρ : Env} (ht : TrustOK trust m ρ)
    {e : Expr} (h : e.ok = true) (hp : proveConstantFalse trust e = true) : eval m ρ e = 0 := by
  unfold proveConstantFalse at hp
  simp only [ok_defined h, Bool.not_true, Bool.false_eq_true, if_false] at hp
  cases hc : evaluateConstant trust e with
  | some c =>
    rw [hc] at hp
    rw [evaluateConstant_sound_partial ht h hc]
    simpa using hp
  | none =>
    rw [hc] at hp
    cases ha : asConst (constantLowerBound trust e) with
    | none => simp [ha] at hp
    | some a =>
      cases hb : asConst (constantUpperBound trust e) with
      | none => simp [ha, hb] at hp
      | some b =>
        have h1 := constantLowerBound_sound_partial ht h (asConst_eq ha)
        have h2 := constantUpperBound_sound_partial ht h (asConst_eq hb)
        simp only [ha, hb, decide_eq_true_eq] at hp
        omega

/-! ### Without a guard -/

/-- Trust non-negative bounds of booleans. -/
def trustSafe : Expr → Int → Bool := fun a c => isBoolean a && decide (0 ≤ c)

theorem trustSafe_ok (m : Mem) (ρ : Env) : TrustOK trustSafe m ρ := by
  intro a c h
  simp only [trustSafe, Bool.and_eq_true, decide_eq_true_eq] at h
  rcases isBoolean_sound m ρ a h.1 with h' | h' <;> omega

mutual
/-- The operands of all logical operators are booleans: comparisons, other logical operators, or the constants 0 and 1. -/
def Expr.boolOps : Expr → Bool
  | .undef | .var _ _ _ | .const _ => true
  | .lets bs b => bs.boolOps && b.boolOps
  | .bin op a b => a.boolOps && b.boolOps && (!(op == .and || op == .or) || (isBoolean a && isBoolean b))
  | .not a => a.boolOps && isBoolean a
  | .select c t f => c.boolOps && t.boolOps && f.boolOps
  | .call fn as => as.boolOps (fn == .andThen || fn == .orElse)
/-- The arguments; `b`: they must be booleans. -/
def Exprs.boolOps (b : Bool) : Exprs → Bool
  | .nil => true
  | .cons e es => e.boolOps && (!b || isBoolean e) && es.boolOps b
/-- The values of lets. -/
def Binds.boolOps : Binds → Bool
  | .nil => true
  | .cons _ e bs => e.boolOps && bs.boolOps
end

theorem asConst_boolean {r : Expr} {c : Int} (h : asConst (boolean r) = some c) : c = 0 ∨ c = 1 := by
  cases hr : asConst r with
  | some d =>
    rw [asConst_eq hr, boolean_const] at h
    have : b2i (d ≠ 0) = c := by simpa [asConst] using h
    rw [← this]
    exact b2i_01 _
  | none =>
    unfold boolean at h
    split at h
    · rw [hr] at h; cases h
    · rw [hr] at h; simp [asConst_mkBin] at h

theorem asConst_boolBound {s c : Int} (h : asConst (boolBound s) = some c) : c = 0 ∨ c = 1 := by
  unfold boolBound at h
  simp only [asConst, Option.some.injEq] at h
  split at h <;> omega

theorem ceBinRes_const {op : BinOp} {oa ob a b : Expr} {c : Int} (hop : ∀ x y, op.denote x y = 0 ∨ op.denote x y = 1)
    (h : asConst (ceBinRes op oa ob a b) = some c) : c = 0 ∨ c = 1 := by
  unfold ceBinRes at h
  split at h
  · unfold makeOrEval at h
    split at h
    · simp [asConst_mkBin] at h
    · simp only [asConst, Option.some.injEq] at h
      rw [← h]; exact hop _ _
  · split at h
    · simp [asConst] at h
    · simp [asConst_rebuild] at h

theorem ceLess_const {trust : Expr → Int → Bool} {req : Bool} {s : Int} {op : BinOp} {oa ob a b : Expr} {c : Int}
    (hop : ∀ x y, op.denote x y = 0 ∨ op.denote x y = 1)
    (h : asConst (ceLess trust req s op oa ob a b) = some c) : c = 0 ∨ c = 1 := by
  unfold ceLess at h
  split at h
  · simp only [asConst, Option.some.injEq] at h
    rw [← h]; exact hop _ _
  · split at h
    · exact asConst_boolBound h
    · split at h
      · simp [asConst] at h
      · simp [asConst_rebuild] at h

theorem ceAndOr_const {isAnd : Bool} {s : Int} {mk : Expr → Expr → Expr} {a b : Expr} {c : Int}
    (hmk : ∀ a b, asConst (mk a b) = none) (h : asConst (ceAndOr isAnd s mk a b) = some c) : c = 0 ∨ c = 1 := by
  unfold ceAndOr at h
  simp only at h
  split at h
  · split at h <;> exact asConst_boolean h
  · split at h
    · exact asConst_boolBound h
    · split at h
      · simp [asConst] at h
      · simp [hmk] at h

/-- The constants found for booleans are 0 and 1. -/
theorem ce_isBoolean {trust : Expr → Int → Bool} {req : Bool} {s c : Int} {e : Expr} (hb : isBoolean e = true)
    (h : asConst (ce trust req s e) = some c) : c = 0 ∨ c = 1 := by
  have h01 : ∀ op : BinOp, op = .eq ∨ op = .ne ∨ op = .lt ∨ op = .le → ∀ x y, op.denote x y = 0 ∨ op.denote x y = 1 := by
    rintro op (rfl | rfl | rfl | rfl) x y <;> exact b2i_01 _
  cases e <;> simp [isBoolean, isBooleanNode, isOne, isZero, asConst] at hb
  case const d => simp only [ce, asConst, Option.some.injEq] at h; omega
  case not a =>
    simp only [ce] at h
    split at h
    · simp only [asConst, Option.some.injEq] at h
      split at h <;> omega
    · split at h
      · exact asConst_boolBound h
      · split at h <;> simp [asConst] at h
  case bin op a b =>
    cases op <;> simp [isBooleanNode] at hb <;> simp only [ce] at h
    case eq =>
      split at h
      · exact ceBinRes_const (h01 .eq (by simp)) h
      · exact asConst_boolBound h
    case ne =>
      split at h
      · exact ceBinRes_const (h01 .ne (by simp)) h
      · exact asConst_boolBound h
    case lt => exact ceLess_const (h01 .lt (by simp)) h
    case le => exact ceLess_const (h01 .le (by simp)) h
    case and => exact ceAndOr_const (fun _ _ => asConst_rebuild ..) h
    case or => exact ceAndOr_const (fun _ _ => asConst_rebuild ..) h

theorem trusted_all (s : Int) (o r : Expr) : trusted trustAll s o r = r := by
  unfold trusted trustAll
  cases asConst r <;> simp

/-- A stripped constant was already a constant. -/
theorem strip_asConst {s c v : Int} {r : Expr} (h : CE s r v) (hc : asConst (stripBoolean r) = some c) : asConst r = some c := by
  cases hr : asConst r with
  | some d => rw [asConst_eq hr] at hc; simpa [stripBoolean, asConst] using hc
  | none => rw [h.2 hr] at hc; cases hc

/-- Bounds of booleans are always trusted. -/
theorem trusted_safe {req : Bool} {s s' : Int} {o : Expr} (ho : o.ok = true) (hb : isBoolean o = true) :
    trusted trustSafe s' o (stripBoolean (ce trustSafe req s o)) = stripBoolean (ce trustSafe req s o) := by
  unfold trusted
  cases hc : asConst (stripBoolean (ce trustSafe req s o)) with
  | none => rfl
  | some c =>
    have h0 := strip_asConst (ce_sound (trustSafe_ok ⟨fun _ _ _ => 0, fun _ _ => 0, 0⟩ (fun _ => 0)) req o s ho) hc
    have : trustSafe o c = true := by
      rcases ce_isBoolean hb h0 with h | h <;> simp [trustSafe, hb, h]
    simp [this]

mutual
/-- If the operands of logical operators are booleans, the guard makes no difference. -/
theorem ce_all_safe (req : Bool) : ∀ (e : Expr) (s : Int), e.ok = true → e.boolOps = true →
    ce trustAll req s e = ce trustSafe req s e
  | .undef, s, _, _ => by simp [ce]
  | .var x f d, s, _, _ => by simp [ce]
  | .const c, s, _, _ => by simp [ce]
  | .lets bs b, s, h, hb => by
    simp only [Expr.ok, Expr.boolOps, Bool.and_eq_true] at h hb
    simp only [ce, ce_all_safe req b s h.2 hb.2, ceBinds_all_safe req bs s h.1 hb.1]
  | .not a, s, h, hb => by
    simp only [Expr.ok, Expr.boolOps, Bool.and_eq_true] at h hb
    simp only [ce, ce_all_safe req a (-s) h hb.1, trusted_all, trusted_safe h hb.2]
  | .select c t f, s, h, hb => by
    simp only [Expr.ok, Expr.boolOps, Bool.and_eq_true] at h hb
    simp only [ce, ce_all_safe req c 0 h.1.1 hb.1.1, ce_all_safe req t s h.1.2 hb.1.2, ce_all_safe req f s h.2 hb.2]
  | .bin op a b, s, h, hb => by
    simp only [Expr.ok, Expr.boolOps, Bool.and_eq_true] at h hb
    have ha := fun s => ce_all_safe req a s h.1 hb.1.1
    have hb' := fun s => ce_all_safe req b s h.2 hb.1.2
    have hbool := hb.2
    cases op <;> simp at hbool <;>
      first
      | (simp only [ce, ha, hb', ceLess]; done)
      | simp only [ce, ha, hb', trusted_all, trusted_safe h.1 hbool.1, trusted_safe h.2 hbool.2]
  | .call .abs .nil, s, _, _ => by simp [ce]
  | .call .abs (.cons x .nil), s, h, hb => by
    have hx : x.ok = true := by simp [Expr.ok, Exprs.ok, Fn.strict] at h; exact h.1.2
    have hxb : x.boolOps = true := by simp [Expr.boolOps, Exprs.boolOps] at hb; exact hb
    have ih := fun s => ce_all_safe req x s hx hxb
    simp only [ce, ih]
  | .call .abs (.cons x (.cons y es)), s, _, _ => by simp [ce]
  | .call .andThen .nil, s, _, _ => by simp [ce]
  | .call .andThen (.cons x .nil), s, _, _ => by simp [ce]
  | .call .andThen (.cons a (.cons b .nil)), s, h, hb => by
    have hab : a.ok = true ∧ b.ok = true := by simp [Expr.ok, Exprs.ok, Fn.strict] at h; exact ⟨h.2.1, h.2.2⟩
    simp [Expr.boolOps, Exprs.boolOps] at hb
    have iha := fun s => ce_all_safe req a s hab.1 hb.1.1
    have ihb := fun s => ce_all_safe req b s hab.2 hb.2.1
    simp only [ce, iha, ihb, trusted_all, trusted_safe hab.1 hb.1.2, trusted_safe hab.2 hb.2.2]
  | .call .andThen (.cons x (.cons y (.cons z es))), s, _, _ => by simp [ce]
  | .call .orElse .nil, s, _, _ => by simp [ce]
  | .call .orElse (.cons x .nil), s, _, _ => by simp [ce]
  | .call .orElse (.cons a (.cons b .nil)), s, h, hb => by
    have hab : a.ok = true ∧ b.ok = true := by simp [Expr.ok, Exprs.ok, Fn.strict] at h; exact ⟨h.2.1, h.2.2⟩
    simp [Expr.boolOps, Exprs.boolOps] at hb
    have iha := fun s => ce_all_safe req a s hab.1 hb.1.1
    have ihb := fun s => ce_all_safe req b s hab.2 hb.2.1
    simp only [ce, iha, ihb, trusted_all, trusted_safe hab.1 hb.1.2, trusted_safe hab.2 hb.2.2]
  | .call .orElse (.cons x (.cons y (.cons z es))), s, _, _ => by simp [ce]
  | .call (.user k) as, s, h, hb => by
    simp only [Expr.ok, Expr.boolOps, Bool.and_eq_true] at h hb
    simp only [ce, ceArgs_all_safe req as s _ _ h.1.2 hb]
  | .call .negInf as, s, h, hb => by
    simp only [Expr.ok, Expr.boolOps, Bool.and_eq_true] at h hb
    simp only [ce, ceArgs_all_safe req as s _ _ h.1.2 hb]
  | .call .posInf as, s, h, hb => by
    simp only [Expr.ok, Expr.boolOps, Bool.and_eq_true] at h hb
    simp only [ce, ceArgs_all_safe req as s _ _ h.1.2 hb]
  | .call .indeterminate as, s, h, hb => by
    simp only [Expr.ok, Expr.boolOps, Bool.and_eq_true] at h hb
    simp only [ce, ceArgs_all_safe req as s _ _ h.1.2 hb]
  | .call .bufferAt as, s, h, hb => by
    simp only [Expr.ok, Expr.boolOps, Bool.and_eq_true] at h hb
    simp only [ce, ceArgs_all_safe req as s _ _ h.1.2 hb]
  | .call .semInit as, s, h, hb => by
    simp only [Expr.ok, Expr.boolOps, Bool.and_eq_true] at h hb
    simp only [ce, ceArgs_all_safe req as s _ _ h.1.2 hb]
  | .call .semSignal as, s, h, hb => by
    simp only [Expr.ok, Expr.boolOps, Bool.and_eq_true] at h hb
    simp only [ce, ceArgs_all_safe req as s _ _ h.1.2 hb]
  | .call .semWait as, s, h, hb => by
    simp only [Expr.ok, Expr.boolOps, Bool.and_eq_true] at h hb
    simp only [ce, ceArgs_all_safe req as s _ _ h.1.2 hb]
  | .call .waitFor as, s, h, hb => by
    simp only [Expr.ok, Expr.boolOps, Bool.and_eq_true] at h hb
    simp only [ce, ceArgs_all_safe req as s _ _ h.1.2 hb]
  | .call .traceBegin as, s, h, hb => by
    simp only [Expr.ok, Expr.boolOps, Bool.and_eq_true] at h hb
    simp only [ce, ceArgs_all_safe req as s _ _ h.1.2 hb]
  | .call .traceEnd as, s, h, hb => by
    simp only [Expr.ok, Expr.boolOps, Bool.and_eq_true] at h hb
    simp only [ce, ceArgs_all_safe req as s _ _ h.1.2 hb]
  | .call .free as, s, h, hb => by
    simp only [Expr.ok, Expr.boolOps, Bool.and_eq_true] at h hb
    simp only [ce, ceArgs_all_safe req as s _ _ h.1.2 hb]
  | .call .validateBuffer as, s, h, hb => by
    simp only [Expr.ok, Expr.boolOps, Bool.and_eq_true] at h hb
    simp only [ce, ceArgs_all_safe req as s _ _ h.1.2 hb]
termination_by e => sizeOf e
theorem ceArgs_all_safe (req : Bool) : ∀ (es : Exprs) (s : Int) (st b : Bool), es.ok st = true → es.boolOps b = true →
    ceArgs trustAll req s es = ceArgs trustSafe req s es
  | .nil, _, _, _, _, _ => by simp [ceArgs]
  | .cons e es, s, st, b, h, hb => by
    simp only [Exprs.ok, Exprs.boolOps, Bool.and_eq_true, Bool.or_eq_true] at h hb
    have h1 : ce trustAll req s e = ce trustSafe req s e := by
      rcases h.1 with h1 | h1
      · have : e = .undef := by cases e <;> simp [Expr.defined] at h1; rfl
        subst this; simp [ce]
      · exact ce_all_safe req e s h1 hb.1.1
    simp only [ceArgs, h1, ceArgs_all_safe req es s st b h.2 hb.2]
termination_by es => sizeOf es
theorem ceBinds_all_safe (req : Bool) : ∀ (bs : Binds) (s : Int), bs.ok = true → bs.boolOps = true →
    ceBinds trustAll req s bs = ceBinds trustSafe req s bs
  | .nil, _, _, _ => by simp [ceBinds]
  | .cons x e bs, s, h, hb => by
    simp only [Binds.ok, Binds.boolOps, Bool.and_eq_true] at h hb
    simp only [ceBinds, ce_all_safe req e s h.1 hb.1, ceBinds_all_safe req bs s h.2 hb.2]
termination_by bs => sizeOf bs
end

/-- C15: `constant_lower_bound` finds lower bounds. -/
theorem constantLowerBound_sound (m : Mem) (ρ : Env) {e : Expr} (h : e.ok = true) (hb : e.boolOps = true) {c : Int}
    (hc : constantLowerBound trustAll e = .const c) : c ≤ eval m ρ e :=
  constantLowerBound_sound_partial (trustSafe_ok m ρ) h (by rw [← hc]; exact (ce_all_safe _ e _ h hb).symm)

/-- C15: `constant_upper_bound` finds upper bounds. -/
theorem constantUpperBound_sound (m : Mem) (ρ : Env) {e : Expr} (h : e.ok = true) (hb : e.boolOps = true) {c : Int}
    (hc : constantUpperBound trustAll e = .const c) : eval m ρ e ≤ c :=
  constantUpperBound_sound_partial (trustSafe_ok m ρ) h (by rw [← hc]; exact (ce_all_safe _ e _ h hb).symm)

/-- C15: `evaluate_constant_lower_bound` finds lower bounds. -/
theorem evaluateConstantLowerBound_sound (m : Mem) (ρ : Env) {e : Expr} (h : e.ok = true) (hb : e.boolOps = true) {c : Int}
    (hc : evaluateConstantLowerBound trustAll e = some c) : c ≤ eval m ρ e :=
  evaluateConstantLowerBound_sound_partial (trustSafe_ok m ρ) h
    (by rw [← hc]; unfold evaluateConstantLowerBound; rw [ce_all_safe _ e _ h hb])

/-- C15: `evaluate_constant_upper_bound` finds upper bounds. -/
theorem evaluateConstantUpperBound_sound (m : Mem) (ρ : Env) {e : Expr} (h : e.ok = true) (hb : e.boolOps = true) {c : Int}
    (hc : evaluateConstantUpperBound trustAll e = some c) : eval m ρ e ≤ c :=
  evaluateConstantUpperBound_sound_partial (trustSafe_ok m ρ) h
    (by rw [← hc]; unfold evaluateConstantUpperBound; rw [ce_all_safe _ e _ h hb])

theorem evaluateConstant_safe {e : Expr} (h : e.ok = true) (hb : e.boolOps = true) :
    evaluateConstant trustSafe e = evaluateConstant trustAll e := by
  unfold evaluateConstant; rw [ce_all_safe _ e _ h hb]

theorem constantLowerBound_safe {e : Expr} (h : e.ok = true) (hb : e.boolOps = true) :
    constantLowerBound trustSafe e = constantLowerBound trustAll e := by
  unfold constantLowerBound; rw [ce_all_safe _ e _ h hb]

theorem constantUpperBound_safe {e : Expr} (h : e.ok = true) (hb : e.boolOps = true) :
    constantUpperBound trustSafe e = constantUpperBound trustAll e := by
  unfold constantUpperBound; rw [ce_all_safe _ e _ h hb]

/-- C15: the result of `evaluate_constant` is the value of the expression. -/
theorem evaluateConstant_sound (m : Mem) (ρ : Env) {e : Expr} (h : e.ok = true) (hb : e.boolOps = true) {c : Int}
    (hc : evaluateConstant trustAll e = some c) : eval m ρ e = c :=
  evaluateConstant_sound_partial (trustSafe_ok m ρ) h (by rw [evaluateConstant_safe h hb, hc])

/-- C15: what `prove_constant_true` proves is true. -/
theorem proveConstantTrue_sound (m : Mem) (ρ : Env) {e : Expr} (h : e.ok = true) (hb : e.boolOps = true)
    (hp : proveConstantTrue trustAll e = true) : eval m ρ e ≠ 0 := by
  refine proveConstantTrue_sound_partial (trustSafe_ok m ρ) h ?_
  unfold proveConstantTrue at hp ⊢
  rwa [evaluateConstant_safe h hb, constantLowerBound_safe h hb, constantUpperBound_safe h hb]

/-- C15: what `prove_constant_false` disproves is false. -/
theorem proveConstantFalse_sound (m : Mem) (ρ : Env) {e : Expr} (h : e.ok = true) (hb : e.boolOps = true)
    (hp : proveConstantFalse trustAll e = true) : eval m ρ e = 0 := by
  refine proveConstantFalse_sound_partial (trustSafe_ok m ρ) h ?_
  unfold proveConstantFalse at hp ⊢
  rwa [evaluateConstant_safe h hb, constantLowerBound_safe h hb, constantUpperBound_safe h hb]

/-! ### Finding: operands of logical operators that are not booleans -/

/-- C15 finding: `prove_constant_true(!min(x, 0))` is true, because 0 is an upper bound of `min(x, 0)`, but if `x` is negative,
so is the min, and its negation is false. -/
theorem evaluate_not_counterexample : ∃ e : Expr, e.ok = true ∧ proveConstantTrue trustAll e = true ∧
    ∀ m, eval m (fun _ => -1) e = 0 :=
  ⟨.not (.bin .min (.v 0) (.const 0)), by decide, by decide, fun m => by simp [eval, Expr.v, BinOp.denote, Mem.field, b2i]⟩

/-- C15 finding: `prove_constant_true(max(x, -1) && 1)` is true, because the lower bound -1 of the first operand is not zero, but
the value may be 0. -/
theorem evaluate_and_counterexample : ∃ e : Expr, e.ok = true ∧ proveConstantTrue trustAll e = true ∧
    ∀ m, eval m (fun _ => 0) e = 0 :=
  ⟨.bin .and (.bin .max (.v 0) (.const (-1))) (.bin .lt (.const 0) (.const 1)), by decide, by decide,
    fun m => by simp [eval, Expr.v, BinOp.denote, b2i]⟩

/-! ### Examples -/

example : constantLowerBound trustAll (.bin .add (.bin .max (.v 0) (.const 3)) (.bin .mod (.v 1) (.const 4))) = .const 3 := by
  decide
example : constantUpperBound trustAll (.bin .mul (.const (-2)) (.bin .max (.v 0) (.const 3))) = .const (-6) := by decide
example : evaluateConstant trustAll (.select (.bin .lt (.const 1) (.const 2)) (.const 7) (.v 0)) = some 7 := by decide
example : evaluateConstantUpperBound trustAll (.bin .mod (.v 0) (.const 4)) = some 3 := by decide
example : evaluateConstantUpperBound trustAll (.bin .mod (.v 0) (.v 1)) = none := by decide
example : constantUpperBound trustAll (.bin .mod (.v 0) (.const 4)) = .const 3 := by decide
example : proveConstantTrue trustAll
    (.bin .and (.bin .le (.const 0) (.bin .mod (.v 0) (.const 4))) (.bin .lt (.bin .mod (.v 0) (.const 4)) (.const 4))) = true := by
  decide
example : proveConstantFalse trustAll (.bin .lt (.bin .max (.v 0) (.const 3)) (.const 2)) = true := by decide
example : (Expr.bin .and (.bin .le (.const 0) (.v 0)) (.not (.bin .lt (.v 1) (.v 0)))).boolOps = true := by decide

end Slinky
