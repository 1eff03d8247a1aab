import Verif.BoundsOfProps

/-! # C16: the public theorems about `bounds_of`, and the counterexamples that justify the guards -/

namespace Slinky

/-- The result of the operator is 0 or 1. -/
def BinOp.isLogic : BinOp → Bool
  | .lt | .le | .eq | .ne | .and | .or => true
  | _ => false

section
variable {m : Mem} {ρ : Env} {cfg : SimpCfg}

/-- C16 (partial): if intervals contain the values of the operands, then `bounds_of` contains the value of the operator. Every
guard of `cfg` has to be right, and the operands of a logical operator must not have negative bounds. -/
theorem boundsBin_sound_partial (hc : SimpCfgOK cfg m ρ) {simp : Expr → Expr} (hs : SimpOK simp m ρ) (op : BinOp)
    {orig : Option (Expr × Expr)} {a b : Interval} {va vb : Int}
    (ho : op = .add ∨ op = .sub → ∀ x y, orig = some (x, y) → x.ok = true ∧ y.ok = true ∧ eval m ρ x = va ∧ eval m ρ y = vb)
    (ha : Encl m ρ a va) (hb : Encl m ρ b vb)
    (hl : op = .and ∨ op = .or → BoolOp m ρ a va ∧ BoolOp m ρ b vb) :
    Encl m ρ (boundsBin cfg simp op orig a b) (op.denote va vb) := by
  cases op with
  | add =>
    have := tighten_sound hc hs (sign := 1) (ho (.inl rfl)) (i := boundsLinear cfg .add orig a b) (by
      refine boundsLinear_sound hc (by simp) (by simp) (fun o o' => ?_) (fun o o' => ?_) ha.wf hb.wf
      · have := ha.lo.2 o; have := hb.lo.2 o'; simp only [BinOp.denote]; omega
      · have := ha.hi.2 o; have := hb.hi.2 o'; simp only [BinOp.denote]; omega)
    simpa [boundsBin, BinOp.denote] using this
  | sub =>
    have := tighten_sound hc hs (sign := -1) (ho (.inr rfl)) (i := boundsLinear cfg .sub orig a ⟨b.max, b.min, b.same⟩) (by
      refine boundsLinear_sound hc (by simp) (by simp) (fun o o' => ?_) (fun o o' => ?_) ha.wf (fun h => (hb.wf h).symm)
      · have := ha.lo.2 o; have := hb.hi.2 o'; simp only [BinOp.denote]; omega
      · have := ha.hi.2 o; have := hb.lo.2 o'; simp only [BinOp.denote]; omega)
    have e : va + -1 * vb = BinOp.denote .sub va vb := by simp only [BinOp.denote]; omega
    rw [e] at this
    exact this
  | mul => exact boundsMul_sound hc ha hb
  | div => rw [denote_div]; exact boundsDiv_sound hc ha hb
  | mod => exact boundsMod_sound hc ha hb
  | min => exact boundsMin_sound hc ha hb
  | max => exact boundsMax_sound hc ha hb
  | lt => exact boundsLess_sound hc (.inl rfl) ha hb
  | le => exact boundsLess_sound hc (.inr rfl) ha hb
  | eq => exact boundsEq_sound hc ha hb
  | ne => exact boundsNe_sound hc ha hb
  | and => exact boundsAnd_sound hc ha hb (hl (.inl rfl)).1 (hl (.inl rfl)).2
  | or => exact boundsOr_sound hc ha hb (hl (.inr rfl)).1 (hl (.inr rfl)).2

/-- The lower bound of a comparison or logical operator is not negative. -/
theorem boundsBin_nonneg (hc : SimpCfgOK cfg m ρ) {simp : Expr → Expr} {op : BinOp} (h : op.isLogic = true)
    {orig : Option (Expr × Expr)} {a b : Interval} :
    (boundsBin cfg simp op orig a b).min.ok = true → 0 ≤ eval m ρ (boundsBin cfg simp op orig a b).min := by
  have key : ∀ (op : BinOp) (x y : Expr), op.isLogic = true → (opS cfg op orig x y).ok = true →
      0 ≤ eval m ρ (opS cfg op orig x y) := by
    intro op x y h ho
    have h1 : op ≠ .min := by rintro rfl; simp [BinOp.isLogic] at h
    have h2 : op ≠ .max := by rintro rfl; simp [BinOp.isLogic] at h
    have hd : ∀ u v : Int, 0 ≤ op.denote u v := by
      intro u v
      cases op <;> simp [BinOp.isLogic] at h <;> exact (b2i_range _).1
    have := opS_lo (m := m) (ρ := ρ) hc h1 h2 (orig := orig) (a := x) (b := y)
      (v := op.denote (eval m ρ x) (eval m ρ y)) (fun _ _ => le_refl _)
    unfold opS at ho ⊢
    split
    · simp only [eval]; exact hd _ _
    · next hn =>
      rw [if_neg hn] at ho
      rcases sB_cases hc op h1 h2 x y with ⟨-, -, -, e⟩ | e
      · rw [e]; exact hd _ _
      · rw [e, noInfo_not_ok] at ho; simp at ho
  cases op <;> simp [BinOp.isLogic] at h
  case lt => unfold boundsBin boundsLess; simp only; split <;> exact key _ _ _ rfl
  case le => unfold boundsBin boundsLess; simp only; split <;> exact key _ _ _ rfl
  case and => unfold boundsBin boundsLinear; simp only; split <;> exact key _ _ _ rfl
  case or => unfold boundsBin boundsLinear; simp only; split <;> exact key _ _ _ rfl
  case eq =>
    unfold boundsBin boundsEq; simp only; split
    · exact key _ _ _ rfl
    · intro _; simp [Interval.bounds, eval]
  case ne =>
    unfold boundsBin boundsNe; simp only; split
    · exact key _ _ _ rfl
    · simp only [Interval.bounds]
      intro ho
      rcases sB_cases hc .or (by simp) (by simp) (sB cfg .lt a.max b.min) (sB cfg .lt b.max a.min) with ⟨-, -, -, e⟩ | e
      · rw [e]; exact (b2i_range _).1
      · rw [e, noInfo_not_ok] at ho; simp at ho

/-- The lower bound of a negation is not negative. -/
theorem boundsNot_nonneg (hc : SimpCfgOK cfg m ρ) {a : Interval} :
    (boundsNot cfg a).min.ok = true → 0 ≤ eval m ρ (boundsNot cfg a).min := by
  have key : ∀ x : Expr, (sNot cfg x).ok = true → 0 ≤ eval m ρ (sNot cfg x) := by
    intro x ho
    rcases sNot_cases hc x with ⟨-, -, e⟩ | e
    · rw [e]; exact (b2i_range _).1
    · rw [e, noInfo_not_ok] at ho; simp at ho
  unfold boundsNot; split <;> exact key _

theorem lo_of_undef {e : Expr} (h : e.defined = false) (v : Int) : LoOK m ρ e v := by
  cases e <;> simp [Expr.defined] at h; exact undef_lo v
theorem hi_of_undef {e : Expr} (h : e.defined = false) (v : Int) : HiOK m ρ e v := by
  cases e <;> simp [Expr.defined] at h; exact undef_hi v

/-- C16: the intersection contains every value that both intervals contain. -/
theorem simplifyIntersection_sound_partial (hc : SimpCfgOK cfg m ρ) {a b : Interval} {v : Int} (ha : Encl m ρ a v)
    (hb : Encl m ρ b v) : Encl m ρ (simplifyIntersection cfg a b) v := by
  unfold simplifyIntersection
  simp only
  refine ⟨fun h => (match_iff _ _).1 h, ?_, ?_⟩
  · simp only
    split
    · exact lo_loMax hc ha.lo hb.lo
    · split
      · exact hb.lo
      · exact ha.lo
  · simp only
    split
    · exact hi_hiMin hc ha.hi hb.hi
    · split
      · exact hb.hi
      · exact ha.hi

end

/-! ### Without hypotheses, for the guarded version -/

/-- C16: `bounds_of` of a binary operator, with the guards. -/
theorem boundsBin_safe {m : Mem} {ρ : Env} (hm : BufferAtMin m) {simp : Expr → Expr} (hs : SimpOK simp m ρ) (op : BinOp)
    {x y : Expr} (hx : x.ok = true) (hy : y.ok = true) {a b : Interval} (ha : Encl m ρ a (eval m ρ x))
    (hb : Encl m ρ b (eval m ρ y)) (hl : op = .and ∨ op = .or → BoolOp m ρ a (eval m ρ x) ∧ BoolOp m ρ b (eval m ρ y)) :
    Encl m ρ (boundsBin (safeCfg m.call) simp op (some (x, y)) a b) (eval m ρ (.bin op x y)) := by
  have := boundsBin_sound_partial (safeCfg_ok m ρ hm) hs op (orig := some (x, y)) (va := eval m ρ x) (vb := eval m ρ y)
    (by rintro - _ _ ⟨⟩; exact ⟨hx, hy, rfl, rfl⟩) ha hb hl
  simpa [eval] using this

/-! ### Counterexamples: what the guards are for -/

/-- The host used in the counterexamples. -/
def noHost : Fn → List (Option Int) → Int := fun _ _ => 0
/-- The memory used in the counterexamples. -/
def memNoHost : Mem := ⟨fun _ _ _ => 0, noHost, 0⟩

theorem not_encl {m : Mem} {ρ : Env} {i : Interval} {c d v : Int} {s : Bool} (hi : i = ⟨.const c, .const d, s⟩)
    (h : ¬ (c ≤ v ∧ v ≤ d)) : ¬ Encl m ρ i v := by
  subst hi
  intro he
  have h1 := he.lo.2 (by simp)
  have h2 := he.hi.2 (by simp)
  simp only [eval] at h1 h2
  exact h ⟨h1, h2⟩

/-- C16, counterexample: with the bounds `-1 ≤ x ≤ 0` for x, `bounds_of` of `x && 1` is `[1, 0]`, which does not contain the
value for x = -1. -/
theorem boundsAnd_counterexample : ∃ (x : Expr) (a : Interval) (ρ : Env), Encl memNoHost ρ a (eval memNoHost ρ x) ∧
    ¬ Encl memNoHost ρ (boundsBin (cppCfg noHost) id .and (some (x, .const 1)) a (.point (.const 1)))
      (eval memNoHost ρ (.bin .and x (.const 1))) := by
  refine ⟨.v 0, .bounds (.const (-1)) (.const 0), fun _ => -1, .bounds (lo_const (by simp [eval, Expr.v]))
    (hi_const (by simp [eval, Expr.v])), ?_⟩
  exact not_encl (c := 1) (d := 0) (s := false) (by decide +kernel) (by omega)

/-- C16, counterexample: with the same bounds, `bounds_of` of `x || 0` is `[1, 0]`. -/
theorem boundsOr_counterexample : ∃ (x : Expr) (a : Interval) (ρ : Env), Encl memNoHost ρ a (eval memNoHost ρ x) ∧
    ¬ Encl memNoHost ρ (boundsBin (cppCfg noHost) id .or (some (x, .const 0)) a (.point (.const 0)))
      (eval memNoHost ρ (.bin .or x (.const 0))) := by
  refine ⟨.v 0, .bounds (.const (-1)) (.const 0), fun _ => -1, .bounds (lo_const (by simp [eval, Expr.v]))
    (hi_const (by simp [eval, Expr.v])), ?_⟩
  exact not_encl (c := 1) (d := 0) (s := false) (by decide +kernel) (by omega)

/-- C16, counterexample: with the same bounds, `bounds_of` of `!x` is `[1, 0]`. -/
theorem boundsNot_counterexample : ∃ (x : Expr) (a : Interval) (ρ : Env), Encl memNoHost ρ a (eval memNoHost ρ x) ∧
    ¬ Encl memNoHost ρ (boundsNot (cppCfg noHost) a) (eval memNoHost ρ (.not x)) := by
  refine ⟨.v 0, .bounds (.const (-1)) (.const 0), fun _ => -1, .bounds (lo_const (by simp [eval, Expr.v]))
    (hi_const (by simp [eval, Expr.v])), ?_⟩
  exact not_encl (c := 1) (d := 0) (s := false) (by decide +kernel) (by omega)

/-- C16, counterexample: with the bounds `-1 ≤ x ≤ 5`, `bounds_of` of `select(x, 3, 7)` is `[3, 3]`, but the value is 7 for
x = 0. -/
theorem boundsSelect_counterexample : ∃ (x : Expr) (c : Interval) (ρ : Env), Encl memNoHost ρ c (eval memNoHost ρ x) ∧
    ¬ Encl memNoHost ρ (boundsSelect (cppCfg noHost) (some (x, .const 3, .const 7)) c (.point (.const 3)) (.point (.const 7)))
      (eval memNoHost ρ (.select x (.const 3) (.const 7))) := by
  refine ⟨.v 0, .bounds (.const (-1)) (.const 5), fun _ => 0, .bounds (lo_const (by simp [eval, Expr.v]))
    (hi_const (by simp [eval, Expr.v])), ?_⟩
  exact not_encl (c := 3) (d := 3) (s := true) (by decide +kernel) (by simp [eval, Expr.v])

/-- C16, counterexample: the constants of staircases are truncated to 32 bits. With exact bounds of the operands for x = 0,
`bounds_of` of `x/2 - (x + 2^32)/2` has the min 0, but the value is -2^31. -/
theorem boundsSub_staircase_counterexample : ∃ (x y : Expr) (a b : Interval) (ρ : Env), x.ok = true ∧ y.ok = true ∧
    Encl memNoHost ρ a (eval memNoHost ρ x) ∧ Encl memNoHost ρ b (eval memNoHost ρ y) ∧
    ¬ Encl memNoHost ρ (boundsBin (cppCfg noHost) id .sub (some (x, y)) a b) (eval memNoHost ρ (.bin .sub x y)) := by
  refine ⟨.bin .div (.v 0) (.const 2), .bin .div (.bin .add (.v 0) (.const (2 ^ 32))) (.const 2),
    .bounds (.const 0) (.const 0), .bounds (.const (2 ^ 31)) (.const (2 ^ 31)), fun _ => 0, by decide, by decide,
    .bounds (lo_const ?_) (hi_const ?_), .bounds (lo_const ?_) (hi_const ?_), ?_⟩
  any_goals (simp [eval, Expr.v, BinOp.denote, ediv])
  exact not_encl (c := 0) (d := -2 ^ 31) (s := false) (by decide +kernel) (by omega)

/-! ### The hypotheses are satisfiable -/

/-- `x` in `[0, 10]`: the bounds of `x*x` are `[0, 100]`. -/
example : boundsBin (safeCfg noHost) id .mul (some (.v 0, .v 0)) (.bounds (.const 0) (.const 10)) (.bounds (.const 0) (.const 10)) =
    .bounds (.const 0) (.const 100) := by decide +kernel

/-- `x/4*4 - x` is in `[-3, 0]`, whatever is known about `x`. -/
example : boundsBin (safeCfg noHost) id .sub (some (.bin .mul (.bin .div (.v 0) (.const 4)) (.const 4), .v 0))
    (.bounds negInfE posInfE) (.bounds negInfE posInfE) = ⟨.const (-3), .const 0, false⟩ := by decide +kernel

example : Encl memNoHost (fun _ => 5) (boundsBin (safeCfg noHost) id .mul (some (.v 0, .v 0)) (.bounds (.const 0) (.const 10))
    (.bounds (.const 0) (.const 10))) 25 := by
  have := boundsBin_safe (m := memNoHost) (ρ := fun _ => 5) ⟨fun _ _ _ => rfl, fun _ _ => rfl⟩ (simp := id) (fun e h => ⟨h, rfl⟩) .mul (x := .v 0)
    (y := .v 0) rfl rfl (a := .bounds (.const 0) (.const 10)) (b := .bounds (.const 0) (.const 10))
    (.bounds (lo_const (by simp [eval, Expr.v])) (hi_const (by simp [eval, Expr.v])))
    (.bounds (lo_const (by simp [eval, Expr.v])) (hi_const (by simp [eval, Expr.v]))) (by simp)
  simpa [eval, Expr.v, BinOp.denote, memNoHost] using this

end Slinky
