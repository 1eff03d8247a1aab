import Verif.BoundsOf
import Mathlib.Tactic.Linarith
import Mathlib.Algebra.Order.Ring.Int

/-! # C16: the bounds of a node contain its value -/

namespace Slinky

/-! ### Specification -/

/-- `e` is a lower bound of `v`: it is not positive infinity, and if it has a value (it is not undefined, infinite or
indeterminate), this is at most `v`. -/
def LoOK (m : Mem) (ρ : Env) (e : Expr) (v : Int) : Prop := e ≠ posInfE ∧ (e.ok = true → eval m ρ e ≤ v)
/-- `e` is an upper bound of `v`. -/
def HiOK (m : Mem) (ρ : Env) (e : Expr) (v : Int) : Prop := e ≠ negInfE ∧ (e.ok = true → v ≤ eval m ρ e)

/-- The interval contains `v`. -/
structure Encl (m : Mem) (ρ : Env) (i : Interval) (v : Int) : Prop where
  wf : i.WF
  lo : LoOK m ρ i.min v
  hi : HiOK m ρ i.max v

/-- The guards are right, and `buffer_at` ignores an index equal to the min. -/
structure SimpCfgOK (cfg : SimpCfg) (m : Mem) (ρ : Env) : Prop where
  g : GuardOK cfg.g m ρ
  trust : TrustOK cfg.trust m ρ
  stair : ∀ a b c d e f, cfg.stair a b c d e f = true → fits32 a b c d e f = true
  ev : m.call = cfg.ev
  buf : BufferAtMin m
  splitMinMax : cfg.splitMinMax = false
  factNonBool : cfg.factNonBool = false
  learnModZero : cfg.learnModZero = false
  modUnnormalized : cfg.modUnnormalized = false
  foldZero : cfg.foldZero = false
  leakLets : cfg.leakLets = false

/-- The simplifier that is used for correlated bounds preserves values. -/
def SimpOK (simp : Expr → Expr) (m : Mem) (ρ : Env) : Prop :=
  ∀ e, e.ok = true → (simp e).ok = true ∧ eval m ρ (simp e) = eval m ρ e

/-- The interval can be used for an operand of a logical operator: it is exact, or there are no negative values. -/
def BoolOp (m : Mem) (ρ : Env) (i : Interval) (v : Int) : Prop :=
  i.isPoint = true ∨ (0 ≤ v ∧ (i.min.ok = true → 0 ≤ eval m ρ i.min))

theorem safeCfg_ok (m : Mem) (ρ : Env) (hm : BufferAtMin m) : SimpCfgOK (safeCfg m.call) m ρ :=
  ⟨gSafe_ok m ρ, trustSafe_ok m ρ, fun _ _ _ _ _ _ h => h, rfl, hm, rfl, rfl, rfl, rfl, rfl, rfl⟩

/-! ### Ends -/

section
variable {m : Mem} {ρ : Env}

theorem LoOK.mono {e : Expr} {v w : Int} (h : LoOK m ρ e v) (hw : v ≤ w) : LoOK m ρ e w := ⟨h.1, fun ho => (h.2 ho).trans hw⟩
theorem HiOK.mono {e : Expr} {v w : Int} (h : HiOK m ρ e v) (hw : w ≤ v) : HiOK m ρ e w := ⟨h.1, fun ho => hw.trans (h.2 ho)⟩

theorem ok_ne_posInf {e : Expr} (h : e.ok = true) : e ≠ posInfE := by rintro rfl; simp [posInfE, Expr.ok, Fn.isOk] at h
theorem ok_ne_negInf {e : Expr} (h : e.ok = true) : e ≠ negInfE := by rintro rfl; simp [negInfE, Expr.ok, Fn.isOk] at h
theorem noInfo_not_ok : noInfo.ok = false := by simp [noInfo, Expr.ok, Fn.isOk]
theorem noInfo_lo (v : Int) : LoOK m ρ noInfo v := ⟨by simp [noInfo, posInfE], fun h => by simp [noInfo_not_ok] at h⟩
theorem noInfo_hi (v : Int) : HiOK m ρ noInfo v := ⟨by simp [noInfo, negInfE], fun h => by simp [noInfo_not_ok] at h⟩
theorem negInf_lo (v : Int) : LoOK m ρ negInfE v :=
  ⟨by simp [negInfE, posInfE], fun h => by simp [negInfE, Expr.ok, Fn.isOk] at h⟩
theorem posInf_hi (v : Int) : HiOK m ρ posInfE v :=
  ⟨by simp [negInfE, posInfE], fun h => by simp [posInfE, Expr.ok, Fn.isOk] at h⟩
theorem lo_of_ok {e : Expr} {v : Int} (ho : e.ok = true) (h : eval m ρ e ≤ v) : LoOK m ρ e v := ⟨ok_ne_posInf ho, fun _ => h⟩
theorem hi_of_ok {e : Expr} {v : Int} (ho : e.ok = true) (h : v ≤ eval m ρ e) : HiOK m ρ e v := ⟨ok_ne_negInf ho, fun _ => h⟩
theorem lo_const {c v : Int} (h : c ≤ v) : LoOK m ρ (.const c) v := lo_of_ok (by simp) (by simpa [eval] using h)
theorem hi_const {c v : Int} (h : v ≤ c) : HiOK m ρ (.const c) v := hi_of_ok (by simp) (by simpa [eval] using h)
theorem undef_lo (v : Int) : LoOK m ρ .undef v := ⟨by simp [posInfE], fun h => by simp [Expr.ok] at h⟩
theorem undef_hi (v : Int) : HiOK m ρ .undef v := ⟨by simp [negInfE], fun h => by simp [Expr.ok] at h⟩

theorem Encl.bounds {a b : Expr} {v : Int} (ha : LoOK m ρ a v) (hb : HiOK m ρ b v) : Encl m ρ (.bounds a b) v :=
  ⟨fun h => by simp [Interval.bounds] at h, ha, hb⟩
theorem Encl.point {a : Expr} {v : Int} (ha : LoOK m ρ a v) (hb : HiOK m ρ a v) : Encl m ρ (.point a) v :=
  ⟨fun _ => rfl, ha, hb⟩
theorem Encl.point_ok {a : Expr} {v : Int} (ho : a.ok = true) (h : eval m ρ a = v) : Encl m ρ (.point a) v :=
  .point (lo_of_ok ho h.le) (hi_of_ok ho h.ge)

/-- The ends of a point are equal. -/
theorem Encl.isPoint {i : Interval} {v : Int} (h : Encl m ρ i v) (hp : i.isPoint = true) : i.max = i.min := by
  simp only [Interval.isPoint, Bool.and_eq_true] at hp
  exact (h.wf hp.2).symm

/-- The value of a point. -/
theorem Encl.point_eq {i : Interval} {v : Int} (h : Encl m ρ i v) (hp : i.isPoint = true) (ho : i.min.ok = true) :
    eval m ρ i.min = v := by
  have h1 := h.lo.2 ho
  have h2 := h.hi.2 (by rw [h.isPoint hp]; exact ho)
  rw [h.isPoint hp] at h2
  omega

variable {cfg : SimpCfg}

/-- The simplifiers of nodes, in the bounds. -/
theorem sB_cases (hc : SimpCfgOK cfg m ρ) (op : BinOp) (h1 : op ≠ .min) (h2 : op ≠ .max) (a b : Expr) :
    (a.ok = true ∧ b.ok = true ∧ (sB cfg op a b).ok = true ∧
      eval m ρ (sB cfg op a b) = op.denote (eval m ρ a) (eval m ρ b)) ∨ sB cfg op a b = noInfo := by
  unfold sB
  by_cases h : (a.ok && b.ok) = true
  · rw [if_pos h]
    rw [Bool.and_eq_true] at h
    have := simplifyBin_sound_partial m ρ hc.g op h.1 h.2
    exact .inl ⟨h.1, h.2, this.2, this.1⟩
  · right
    rw [if_neg h, if_neg (fun h => h2 h.1), if_neg (fun h => h2 h.1), if_neg (fun h => h1 h.1), if_neg (fun h => h1 h.1)]

theorem opS_lo (hc : SimpCfgOK cfg m ρ) {op : BinOp} (h1 : op ≠ .min) (h2 : op ≠ .max) {orig : Option (Expr × Expr)}
    {a b : Expr} {v : Int} (h : a.ok = true → b.ok = true → op.denote (eval m ρ a) (eval m ρ b) ≤ v) :
    LoOK m ρ (opS cfg op orig a b) v := by
  unfold opS
  split
  · exact ⟨by simp [posInfE], fun ho => by simp only [Expr.ok_bin, Bool.and_eq_true] at ho; simpa [eval] using h ho.1 ho.2⟩
  · rcases sB_cases hc op h1 h2 a b with ⟨ha, hb, ho, he⟩ | hn
    · exact lo_of_ok ho (he ▸ h ha hb)
    · rw [hn]; exact noInfo_lo v

theorem opS_hi (hc : SimpCfgOK cfg m ρ) {op : BinOp} (h1 : op ≠ .min) (h2 : op ≠ .max) {orig : Option (Expr × Expr)}
    {a b : Expr} {v : Int} (h : a.ok = true → b.ok = true → v ≤ op.denote (eval m ρ a) (eval m ρ b)) :
    HiOK m ρ (opS cfg op orig a b) v := by
  unfold opS
  split
  · exact ⟨by simp [negInfE], fun ho => by simp only [Expr.ok_bin, Bool.and_eq_true] at ho; simpa [eval] using h ho.1 ho.2⟩
  · rcases sB_cases hc op h1 h2 a b with ⟨ha, hb, ho, he⟩ | hn
    · exact hi_of_ok ho (he ▸ h ha hb)
    · rw [hn]; exact noInfo_hi v

theorem sB_lo (hc : SimpCfgOK cfg m ρ) {op : BinOp} (h1 : op ≠ .min) (h2 : op ≠ .max)
    {a b : Expr} {v : Int} (h : a.ok = true → b.ok = true → op.denote (eval m ρ a) (eval m ρ b) ≤ v) :
    LoOK m ρ (sB cfg op a b) v := by simpa [opS] using opS_lo hc h1 h2 (orig := none) h

theorem sB_hi (hc : SimpCfgOK cfg m ρ) {op : BinOp} (h1 : op ≠ .min) (h2 : op ≠ .max)
    {a b : Expr} {v : Int} (h : a.ok = true → b.ok = true → v ≤ op.denote (eval m ρ a) (eval m ρ b)) :
    HiOK m ρ (sB cfg op a b) v := by simpa [opS] using opS_hi hc h1 h2 (orig := none) h

theorem sB_both {op : BinOp} (hc : SimpCfgOK cfg m ρ) {a b : Expr} (ha : a.ok = true) (hb : b.ok = true) :
    (sB cfg op a b).ok = true ∧ eval m ρ (sB cfg op a b) = op.denote (eval m ρ a) (eval m ρ b) := by
  unfold sB
  rw [if_pos (by simp [ha, hb])]
  have := simplifyBin_sound_partial m ρ hc.g op ha hb
  exact ⟨this.2, this.1⟩

theorem lo_max (hc : SimpCfgOK cfg m ρ) {a b : Expr} {v : Int} (ha : LoOK m ρ a v) (hb : LoOK m ρ b v) :
    LoOK m ρ (sB cfg .max a b) v := by
  by_cases h : a.ok = true ∧ b.ok = true
  · obtain ⟨h1, h2⟩ := sB_both (op := .max) hc h.1 h.2
    refine lo_of_ok h1 ?_
    rw [h2]
    have := ha.2 h.1; have := hb.2 h.2
    simp only [BinOp.denote]; omega
  · unfold sB
    rw [if_neg (by simpa using h)]
    split
    · exact hb
    · split
      · exact ha
      · rw [if_neg (by simp), if_neg (by simp)]; exact noInfo_lo v

theorem hi_max (hc : SimpCfgOK cfg m ρ) {a b : Expr} {va vb v : Int} (ha : HiOK m ρ a va) (hb : HiOK m ρ b vb)
    (hv : v ≤ max va vb) : HiOK m ρ (sB cfg .max a b) v := by
  by_cases h : a.ok = true ∧ b.ok = true
  · obtain ⟨h1, h2⟩ := sB_both (op := .max) hc h.1 h.2
    refine hi_of_ok h1 ?_
    rw [h2]
    have := ha.2 h.1; have := hb.2 h.2
    simp only [BinOp.denote]; omega
  · unfold sB
    rw [if_neg (by simpa using h), if_neg (fun h => ha.1 h.2), if_neg (fun h => hb.1 h.2), if_neg (by simp), if_neg (by simp)]
    exact noInfo_hi v

theorem lo_min (hc : SimpCfgOK cfg m ρ) {a b : Expr} {va vb v : Int} (ha : LoOK m ρ a va) (hb : LoOK m ρ b vb)
    (hv : min va vb ≤ v) : LoOK m ρ (sB cfg .min a b) v := by
  by_cases h : a.ok = true ∧ b.ok = true
  · obtain ⟨h1, h2⟩ := sB_both (op := .min) hc h.1 h.2
    refine lo_of_ok h1 ?_
    rw [h2]
    have := ha.2 h.1; have := hb.2 h.2
    simp only [BinOp.denote]; omega
  · unfold sB
    rw [if_neg (by simpa using h), if_neg (by simp), if_neg (by simp), if_neg (fun h => ha.1 h.2), if_neg (fun h => hb.1 h.2)]
    exact noInfo_lo v

theorem hi_min (hc : SimpCfgOK cfg m ρ) {a b : Expr} {v : Int} (ha : HiOK m ρ a v) (hb : HiOK m ρ b v) :
    HiOK m ρ (sB cfg .min a b) v := by
  by_cases h : a.ok = true ∧ b.ok = true
  · obtain ⟨h1, h2⟩ := sB_both (op := .min) hc h.1 h.2
    refine hi_of_ok h1 ?_
    rw [h2]
    have := ha.2 h.1; have := hb.2 h.2
    simp only [BinOp.denote]; omega
  · unfold sB
    rw [if_neg (by simpa using h), if_neg (by simp), if_neg (by simp)]
    split
    · exact hb
    · split
      · exact ha
      · exact noInfo_hi v

theorem lo_loMax (hc : SimpCfgOK cfg m ρ) {a b : Expr} {v : Int} (ha : LoOK m ρ a v) (hb : LoOK m ρ b v) :
    LoOK m ρ (loMax cfg a b) v := by
  unfold loMax
  split
  · exact hb
  · split
    · exact ha
    · exact lo_max hc ha hb

theorem hi_hiMin (hc : SimpCfgOK cfg m ρ) {a b : Expr} {v : Int} (ha : HiOK m ρ a v) (hb : HiOK m ρ b v) :
    HiOK m ρ (hiMin cfg a b) v := by
  unfold hiMin
  split
  · exact hb
  · split
    · exact ha
    · exact hi_min hc ha hb

theorem lo_neg (hc : SimpCfgOK cfg m ρ) {a : Expr} {v : Int} (ha : HiOK m ρ a v) : LoOK m ρ (sNeg cfg a) (-v) :=
  sB_lo hc (by simp) (by simp) fun _ h => by have := ha.2 h; simp only [BinOp.denote, eval]; omega

theorem hi_neg (hc : SimpCfgOK cfg m ρ) {a : Expr} {v : Int} (ha : LoOK m ρ a v) : HiOK m ρ (sNeg cfg a) (-v) :=
  sB_hi hc (by simp) (by simp) fun _ h => by have := ha.2 h; simp only [BinOp.denote, eval]; omega

theorem sAbs_cases (hc : SimpCfgOK cfg m ρ) (a : Expr) :
    (a.ok = true ∧ (sAbs cfg a).ok = true ∧ eval m ρ (sAbs cfg a) = ((eval m ρ a).natAbs : Int)) ∨ sAbs cfg a = noInfo := by
  unfold sAbs
  split
  · next h =>
    have := simplifyCall_sound_partial m ρ hc.g hc.buf hc.ev (fn := .abs) (args := .cons a .nil)
      (by simp [Expr.ok, Exprs.ok, h, Fn.isOk, Exprs.length]) (by simp [Fn.isSem])
    refine .inl ⟨h, this.2, ?_⟩
    rw [this.1]
    simp [eval, evalArgs, ok_defined h, Fn.denote]
  · exact .inr rfl

theorem sNot_cases (hc : SimpCfgOK cfg m ρ) (a : Expr) :
    (a.ok = true ∧ (sNot cfg a).ok = true ∧ eval m ρ (sNot cfg a) = b2i (eval m ρ a = 0)) ∨ sNot cfg a = noInfo := by
  unfold sNot
  split
  · next h =>
    have := simplifyNot_sound m ρ hc.g h
    refine .inl ⟨h, this.2, ?_⟩
    rw [this.1]; simp [eval]
  · exact .inr rfl

theorem sSel_cases (hc : SimpCfgOK cfg m ρ) (c t f : Expr) :
    (c.ok = true ∧ t.ok = true ∧ f.ok = true ∧ (sSel cfg c t f).ok = true ∧
      eval m ρ (sSel cfg c t f) = if eval m ρ c ≠ 0 then eval m ρ t else eval m ρ f) ∨ sSel cfg c t f = noInfo := by
  unfold sSel
  split
  · next h =>
    simp only [Bool.and_eq_true] at h
    have := simplifySelect_sound_partial m ρ hc.g h.1.1 h.1.2 h.2
    refine .inl ⟨h.1.1, h.1.2, h.2, this.2, ?_⟩
    rw [this.1]; simp [eval]
  · exact .inr rfl

/-! ### Signs -/

theorem isNonNeg_sound (hc : SimpCfgOK cfg m ρ) {i : Interval} {v : Int} (h : Encl m ρ i v) (hn : isNonNeg cfg i = true) :
    i.min.ok = true ∧ 0 ≤ eval m ρ i.min ∧ 0 ≤ v := by
  unfold isNonNeg cLo at hn
  by_cases ho : i.min.ok = true
  · rw [if_pos ho] at hn
    cases he : evaluateConstantLowerBound cfg.trust i.min with
    | none => simp [he] at hn
    | some c =>
      have h1 := evaluateConstantLowerBound_sound_partial hc.trust ho he
      have h2 := h.lo.2 ho
      simp only [he, ge_iff_le, decide_eq_true_eq] at hn
      exact ⟨ho, by omega, by omega⟩
  · simp [ho] at hn

theorem isPos_sound (hc : SimpCfgOK cfg m ρ) {i : Interval} {v : Int} (h : Encl m ρ i v) (hn : isPos cfg i = true) :
    i.min.ok = true ∧ 0 < eval m ρ i.min ∧ 0 < v := by
  unfold isPos cLo at hn
  by_cases ho : i.min.ok = true
  · rw [if_pos ho] at hn
    cases he : evaluateConstantLowerBound cfg.trust i.min with
    | none => simp [he] at hn
    | some c =>
      have h1 := evaluateConstantLowerBound_sound_partial hc.trust ho he
      have h2 := h.lo.2 ho
      simp only [he, gt_iff_lt, decide_eq_true_eq] at hn
      exact ⟨ho, by omega, by omega⟩
  · simp [ho] at hn

theorem isNonPos_sound (hc : SimpCfgOK cfg m ρ) {i : Interval} {v : Int} (h : Encl m ρ i v) (hn : isNonPos cfg i = true) :
    i.max.ok = true ∧ eval m ρ i.max ≤ 0 ∧ v ≤ 0 := by
  unfold isNonPos cHi at hn
  by_cases ho : i.max.ok = true
  · rw [if_pos ho] at hn
    cases he : evaluateConstantUpperBound cfg.trust i.max with
    | none => simp [he] at hn
    | some c =>
      have h1 := evaluateConstantUpperBound_sound_partial hc.trust ho he
      have h2 := h.hi.2 ho
      simp only [he, decide_eq_true_eq] at hn
      exact ⟨ho, by omega, by omega⟩
  · simp [ho] at hn

theorem isNeg_sound (hc : SimpCfgOK cfg m ρ) {i : Interval} {v : Int} (h : Encl m ρ i v) (hn : isNeg cfg i = true) :
    i.max.ok = true ∧ eval m ρ i.max < 0 ∧ v < 0 := by
  unfold isNeg cHi at hn
  by_cases ho : i.max.ok = true
  · rw [if_pos ho] at hn
    cases he : evaluateConstantUpperBound cfg.trust i.max with
    | none => simp [he] at hn
    | some c =>
      have h1 := evaluateConstantUpperBound_sound_partial hc.trust ho he
      have h2 := h.hi.2 ho
      simp only [he, decide_eq_true_eq] at hn
      exact ⟨ho, by omega, by omega⟩
  · simp [ho] at hn

/-! ### Operators -/

/-- A point, for operators other than min and max. -/
theorem opS_point (hc : SimpCfgOK cfg m ρ) {op : BinOp} (h1 : op ≠ .min) (h2 : op ≠ .max) {orig : Option (Expr × Expr)}
    {a b : Interval} {va vb : Int} (ha : Encl m ρ a va) (hb : Encl m ρ b vb) (pa : a.isPoint = true) (pb : b.isPoint = true) :
    Encl m ρ (.point (opS cfg op orig a.min b.min)) (op.denote va vb) :=
  .point (opS_lo hc h1 h2 fun h h' => by rw [ha.point_eq pa h, hb.point_eq pb h'])
    (opS_hi hc h1 h2 fun h h' => by rw [ha.point_eq pa h, hb.point_eq pb h'])

/-- `boundsLinear` for an operator that is monotone on the bounds. -/
theorem boundsLinear_sound (hc : SimpCfgOK cfg m ρ) {op : BinOp} (h1 : op ≠ .min) (h2 : op ≠ .max) {orig : Option (Expr × Expr)}
    {a b : Interval} {v : Int}
    (hlo : a.min.ok = true → b.min.ok = true → op.denote (eval m ρ a.min) (eval m ρ b.min) ≤ v)
    (hhi : a.max.ok = true → b.max.ok = true → v ≤ op.denote (eval m ρ a.max) (eval m ρ b.max))
    (wa : a.WF) (wb : b.WF) : Encl m ρ (boundsLinear cfg op orig a b) v := by
  unfold boundsLinear
  split
  · next h =>
    simp only [Interval.isPoint, Bool.and_eq_true] at h
    have ea := wa h.1.2; have eb := wb h.2.2
    refine .point (opS_lo hc h1 h2 hlo) (opS_hi hc h1 h2 fun o o' => ?_)
    rw [ea, eb]
    exact hhi (ea ▸ o) (eb ▸ o')
  · exact .bounds (opS_lo hc h1 h2 hlo) (opS_hi hc h1 h2 hhi)

theorem opS_minmax {op : BinOp} {orig : Option (Expr × Expr)} {a b : Expr} :
    opS cfg op orig a b = sB cfg op a b ∨ opS cfg op orig a b = .bin op a b := by
  unfold opS; split
  · exact .inr rfl
  · exact .inl rfl

theorem opS_min (hc : SimpCfgOK cfg m ρ) {orig : Option (Expr × Expr)} {a b : Expr} {va vb : Int} :
    (LoOK m ρ a va → LoOK m ρ b vb → LoOK m ρ (opS cfg .min orig a b) (min va vb)) ∧
    (HiOK m ρ a va → HiOK m ρ b vb → HiOK m ρ (opS cfg .min orig a b) (min va vb)) := by
  rcases opS_minmax (cfg := cfg) (op := .min) (orig := orig) (a := a) (b := b) with h | h <;> rw [h]
  · exact ⟨fun ha hb => lo_min hc ha hb (le_refl _), fun ha hb => hi_min hc (ha.mono (by omega)) (hb.mono (by omega))⟩
  · refine ⟨fun ha hb => ⟨by simp [posInfE], fun ho => ?_⟩, fun ha hb => ⟨by simp [negInfE], fun ho => ?_⟩⟩ <;>
      simp only [Expr.ok_bin, Bool.and_eq_true] at ho <;> have := ha.2 ho.1 <;> have := hb.2 ho.2 <;>
      simp only [eval, BinOp.denote] <;> omega

theorem opS_max (hc : SimpCfgOK cfg m ρ) {orig : Option (Expr × Expr)} {a b : Expr} {va vb : Int} :
    (LoOK m ρ a va → LoOK m ρ b vb → LoOK m ρ (opS cfg .max orig a b) (max va vb)) ∧
    (HiOK m ρ a va → HiOK m ρ b vb → HiOK m ρ (opS cfg .max orig a b) (max va vb)) := by
  rcases opS_minmax (cfg := cfg) (op := .max) (orig := orig) (a := a) (b := b) with h | h <;> rw [h]
  · exact ⟨fun ha hb => lo_max hc (ha.mono (by omega)) (hb.mono (by omega)), fun ha hb => hi_max hc ha hb (le_refl _)⟩
  · refine ⟨fun ha hb => ⟨by simp [posInfE], fun ho => ?_⟩, fun ha hb => ⟨by simp [negInfE], fun ho => ?_⟩⟩ <;>
      simp only [Expr.ok_bin, Bool.and_eq_true] at ho <;> have := ha.2 ho.1 <;> have := hb.2 ho.2 <;>
      simp only [eval, BinOp.denote] <;> omega

theorem boundsMin_sound (hc : SimpCfgOK cfg m ρ) {orig : Option (Expr × Expr)} {a b : Interval} {va vb : Int}
    (ha : Encl m ρ a va) (hb : Encl m ρ b vb) : Encl m ρ (boundsLinear cfg .min orig a b) (min va vb) := by
  unfold boundsLinear
  split
  · next h =>
    rw [Bool.and_eq_true] at h
    refine .point ((opS_min hc).1 ha.lo hb.lo) ((opS_min hc).2 ?_ ?_)
    · rw [← ha.isPoint h.1]; exact ha.hi
    · rw [← hb.isPoint h.2]; exact hb.hi
  · exact .bounds ((opS_min hc).1 ha.lo hb.lo) ((opS_min hc).2 ha.hi hb.hi)

theorem boundsMax_sound (hc : SimpCfgOK cfg m ρ) {orig : Option (Expr × Expr)} {a b : Interval} {va vb : Int}
    (ha : Encl m ρ a va) (hb : Encl m ρ b vb) : Encl m ρ (boundsLinear cfg .max orig a b) (max va vb) := by
  unfold boundsLinear
  split
  · next h =>
    rw [Bool.and_eq_true] at h
    refine .point ((opS_max hc).1 ha.lo hb.lo) ((opS_max hc).2 ?_ ?_)
    · rw [← ha.isPoint h.1]; exact ha.hi
    · rw [← hb.isPoint h.2]; exact hb.hi
  · exact .bounds ((opS_max hc).1 ha.lo hb.lo) ((opS_max hc).2 ha.hi hb.hi)

theorem simpleOrUnbounded_sound {a b : Expr} {v : Int} (ha : LoOK m ρ a v) (hb : HiOK m ρ b v) :
    Encl m ρ (simpleOrUnbounded a b) v := by
  unfold simpleOrUnbounded
  refine .bounds ?_ ?_
  · split
    · exact ha
    · exact negInf_lo v
  · split
    · exact hb
    · exact posInf_hi v

theorem boundsMul_sound (hc : SimpCfgOK cfg m ρ) {orig : Option (Expr × Expr)} {a b : Interval} {va vb : Int}
    (ha : Encl m ρ a va) (hb : Encl m ρ b vb) : Encl m ρ (boundsMul cfg orig a b) (va * vb) := by
  have L : ∀ {x y : Expr} {v : Int}, (x.ok = true → y.ok = true → eval m ρ x * eval m ρ y ≤ v) →
      LoOK m ρ (opS cfg .mul orig x y) v := fun h => opS_lo hc (by simp) (by simp) h
  have H : ∀ {x y : Expr} {v : Int}, (x.ok = true → y.ok = true → v ≤ eval m ρ x * eval m ρ y) →
      HiOK m ρ (opS cfg .mul orig x y) v := fun h => opS_hi hc (by simp) (by simp) h
  unfold boundsMul
  simp only
  split
  · next h => rw [Bool.and_eq_true] at h; exact opS_point hc (by simp) (by simp) ha hb h.1 h.2
  split
  · next h =>
    rw [Bool.and_eq_true] at h
    have na := isNonNeg_sound hc ha h.1; have nb := isNonNeg_sound hc hb h.2
    refine .bounds (L fun o o' => ?_) (H fun o o' => ?_)
    · exact mul_le_mul (ha.lo.2 o) (hb.lo.2 o') nb.2.1 na.2.2
    · exact mul_le_mul (ha.hi.2 o) (hb.hi.2 o') nb.2.2 (na.2.2.trans (ha.hi.2 o))
  split
  · next h =>
    rw [Bool.and_eq_true] at h
    have na := isNonPos_sound hc ha h.1; have nb := isNonPos_sound hc hb h.2
    refine .bounds (L fun o o' => ?_) (H fun o o' => ?_)
    · exact mul_le_mul_of_nonpos_of_nonpos (ha.hi.2 o) (hb.hi.2 o') na.2.2 nb.2.1
    · exact mul_le_mul_of_nonpos_of_nonpos (ha.lo.2 o) (hb.lo.2 o') ((ha.lo.2 o).trans na.2.2) nb.2.2
  split
  · next h =>
    have eb := hb.point_eq h
    split
    · next h' =>
      have nb := isNonNeg_sound hc hb h'
      refine .bounds (L fun o o' => ?_) (H fun o o' => ?_) <;> rw [eb o']
      · exact mul_le_mul_of_nonneg_right (ha.lo.2 o) nb.2.2
      · exact mul_le_mul_of_nonneg_right (ha.hi.2 o) nb.2.2
    · split
      · next h' =>
        have nb := isNonPos_sound hc hb h'
        refine .bounds (L fun o o' => ?_) (H fun o o' => ?_) <;> rw [eb o']
        · exact mul_le_mul_of_nonpos_right (ha.hi.2 o) nb.2.2
        · exact mul_le_mul_of_nonpos_right (ha.lo.2 o) nb.2.2
      · rcases le_total 0 vb with hs | hs
        · have l : LoOK m ρ (opS cfg .mul orig a.min b.min) (va * vb) :=
            L fun o o' => by rw [eb o']; exact mul_le_mul_of_nonneg_right (ha.lo.2 o) hs
          have h' : HiOK m ρ (opS cfg .mul orig a.max b.min) (va * vb) :=
            H fun o o' => by rw [eb o']; exact mul_le_mul_of_nonneg_right (ha.hi.2 o) hs
          have l2 : ∃ w, LoOK m ρ (opS cfg .mul orig a.max b.min) w :=
            ⟨eval m ρ a.max * vb, L fun o o' => by rw [eb o']⟩
          have h2 : ∃ w, HiOK m ρ (opS cfg .mul orig a.min b.min) w := ⟨eval m ρ a.min * vb, H fun o o' => by rw [eb o']⟩
          obtain ⟨w, l2⟩ := l2; obtain ⟨w', h2⟩ := h2
          exact simpleOrUnbounded_sound (lo_min hc l l2 (by omega)) (hi_max hc h2 h' (by omega))
        · have l : LoOK m ρ (opS cfg .mul orig a.max b.min) (va * vb) :=
            L fun o o' => by rw [eb o']; exact mul_le_mul_of_nonpos_right (ha.hi.2 o) hs
          have h' : HiOK m ρ (opS cfg .mul orig a.min b.min) (va * vb) :=
            H fun o o' => by rw [eb o']; exact mul_le_mul_of_nonpos_right (ha.lo.2 o) hs
          have l2 : ∃ w, LoOK m ρ (opS cfg .mul orig a.min b.min) w :=
            ⟨eval m ρ a.min * vb, L fun o o' => by rw [eb o']⟩
          have h2 : ∃ w, HiOK m ρ (opS cfg .mul orig a.max b.min) w := ⟨eval m ρ a.max * vb, H fun o o' => by rw [eb o']⟩
          obtain ⟨w, l2⟩ := l2; obtain ⟨w', h2⟩ := h2
          exact simpleOrUnbounded_sound (lo_min hc l2 l (by omega)) (hi_max hc h' h2 (by omega))
  split
  · next h =>
    have ea := ha.point_eq h
    split
    · next h' =>
      have na := isNonNeg_sound hc ha h'
      refine .bounds (L fun o o' => ?_) (H fun o o' => ?_) <;> rw [ea o]
      · exact mul_le_mul_of_nonneg_left (hb.lo.2 o') na.2.2
      · exact mul_le_mul_of_nonneg_left (hb.hi.2 o') na.2.2
    · split
      · next h' =>
        have na := isNonPos_sound hc ha h'
        refine .bounds (L fun o o' => ?_) (H fun o o' => ?_) <;> rw [ea o]
        · exact mul_le_mul_of_nonpos_left (hb.hi.2 o') na.2.2
        · exact mul_le_mul_of_nonpos_left (hb.lo.2 o') na.2.2
      · rcases le_total 0 va with hs | hs
        · have l : LoOK m ρ (opS cfg .mul orig a.min b.min) (va * vb) :=
            L fun o o' => by rw [ea o]; exact mul_le_mul_of_nonneg_left (hb.lo.2 o') hs
          have h' : HiOK m ρ (opS cfg .mul orig a.min b.max) (va * vb) :=
            H fun o o' => by rw [ea o]; exact mul_le_mul_of_nonneg_left (hb.hi.2 o') hs
          have l2 : ∃ w, LoOK m ρ (opS cfg .mul orig a.min b.max) w :=
            ⟨va * eval m ρ b.max, L fun o o' => by rw [ea o]⟩
          have h2 : ∃ w, HiOK m ρ (opS cfg .mul orig a.min b.min) w := ⟨va * eval m ρ b.min, H fun o o' => by rw [ea o]⟩
          obtain ⟨w, l2⟩ := l2; obtain ⟨w', h2⟩ := h2
          exact simpleOrUnbounded_sound (lo_min hc l l2 (by omega)) (hi_max hc h2 h' (by omega))
        · have l : LoOK m ρ (opS cfg .mul orig a.min b.max) (va * vb) :=
            L fun o o' => by rw [ea o]; exact mul_le_mul_of_nonpos_left (hb.hi.2 o') hs
          have h' : HiOK m ρ (opS cfg .mul orig a.min b.min) (va * vb) :=
            H fun o o' => by rw [ea o]; exact mul_le_mul_of_nonpos_left (hb.lo.2 o') hs
          have l2 : ∃ w, LoOK m ρ (opS cfg .mul orig a.min b.min) w :=
            ⟨va * eval m ρ b.min, L fun o o' => by rw [ea o]⟩
          have h2 : ∃ w, HiOK m ρ (opS cfg .mul orig a.min b.max) w := ⟨va * eval m ρ b.max, H fun o o' => by rw [ea o]⟩
          obtain ⟨w, l2⟩ := l2; obtain ⟨w', h2⟩ := h2
          exact simpleOrUnbounded_sound (lo_min hc l2 l (by omega)) (hi_max hc h' h2 (by omega))
  · -- the four corners
    have key : LoOK m ρ (sB cfg .min (sB cfg .min (opS cfg .mul orig a.min b.min) (opS cfg .mul orig a.min b.max))
        (sB cfg .min (opS cfg .mul orig a.max b.min) (opS cfg .mul orig a.max b.max))) (va * vb) ∧
      HiOK m ρ (sB cfg .max (sB cfg .max (opS cfg .mul orig a.min b.min) (opS cfg .mul orig a.min b.max))
        (sB cfg .max (opS cfg .mul orig a.max b.min) (opS cfg .mul orig a.max b.max))) (va * vb) := by
      have c : ∀ x y, LoOK m ρ (opS cfg .mul orig x y) (eval m ρ x * eval m ρ y) ∧
          HiOK m ρ (opS cfg .mul orig x y) (eval m ρ x * eval m ρ y) := fun x y => ⟨L fun _ _ => le_refl _, H fun _ _ => le_refl _⟩
      -- the results only have a value if all ends have one
      have bad : ∀ {x y : Expr}, ¬(x.ok = true ∧ y.ok = true) → ∀ v, LoOK m ρ (opS cfg .mul orig x y) v ∧
          HiOK m ρ (opS cfg .mul orig x y) v := fun h v => ⟨L fun o o' => absurd ⟨o, o'⟩ h, H fun o o' => absurd ⟨o, o'⟩ h⟩
      by_cases o1 : a.min.ok = true
      · by_cases o2 : a.max.ok = true
        · by_cases o3 : b.min.ok = true
          · by_cases o4 : b.max.ok = true
            · have h1 := ha.lo.2 o1; have h2 := ha.hi.2 o2; have h3 := hb.lo.2 o3; have h4 := hb.hi.2 o4
              constructor
              · refine lo_min hc (lo_min hc (c _ _).1 (c _ _).1 (le_refl _)) (lo_min hc (c _ _).1 (c _ _).1 (le_refl _)) ?_
                rcases le_total 0 vb with s | s
                · have e1 : eval m ρ a.min * vb ≤ va * vb := mul_le_mul_of_nonneg_right (ha.lo.2 o1) s
                  rcases le_total 0 (eval m ρ a.min) with t | t
                  · have : eval m ρ a.min * eval m ρ b.min ≤ eval m ρ a.min * vb := mul_le_mul_of_nonneg_left h3 t
                    omega
                  · have : eval m ρ a.min * eval m ρ b.max ≤ eval m ρ a.min * vb := mul_le_mul_of_nonpos_left h4 t
                    omega
                · have e1 : eval m ρ a.max * vb ≤ va * vb := mul_le_mul_of_nonpos_right h2 s
                  rcases le_total 0 (eval m ρ a.max) with t | t
                  · have : eval m ρ a.max * eval m ρ b.min ≤ eval m ρ a.max * vb := mul_le_mul_of_nonneg_left h3 t
                    omega
                  · have : eval m ρ a.max * eval m ρ b.max ≤ eval m ρ a.max * vb := mul_le_mul_of_nonpos_left h4 t
                    omega
              · refine hi_max hc (hi_max hc (c _ _).2 (c _ _).2 (le_refl _)) (hi_max hc (c _ _).2 (c _ _).2 (le_refl _)) ?_
                rcases le_total 0 vb with s | s
                · have e1 : va * vb ≤ eval m ρ a.max * vb := mul_le_mul_of_nonneg_right h2 s
                  rcases le_total 0 (eval m ρ a.max) with t | t
                  · have : eval m ρ a.max * vb ≤ eval m ρ a.max * eval m ρ b.max := mul_le_mul_of_nonneg_left h4 t
                    omega
                  · have : eval m ρ a.max * vb ≤ eval m ρ a.max * eval m ρ b.min := mul_le_mul_of_nonpos_left h3 t
                    omega
                · have e1 : va * vb ≤ eval m ρ a.min * vb := mul_le_mul_of_nonpos_right (ha.lo.2 o1) s
                  rcases le_total 0 (eval m ρ a.min) with t | t
                  · have : eval m ρ a.min * vb ≤ eval m ρ a.min * eval m ρ b.max := mul_le_mul_of_nonneg_left h4 t
                    omega
                  · have : eval m ρ a.min * vb ≤ eval m ρ a.min * eval m ρ b.min := mul_le_mul_of_nonpos_left h3 t
                    omega
            · have b1 := bad (x := a.min) (y := b.max) (fun h => o4 h.2) (va * vb)
              exact ⟨lo_min hc (lo_min hc (c _ _).1 b1.1 (min_le_right _ _)) (lo_min hc (c _ _).1 (c _ _).1 (le_refl _)) (min_le_left _ _),
                hi_max hc (hi_max hc (c _ _).2 b1.2 (le_max_right _ _)) (hi_max hc (c _ _).2 (c _ _).2 (le_refl _)) (le_max_left _ _)⟩
          · have b1 := bad (x := a.min) (y := b.min) (fun h => o3 h.2) (va * vb)
            exact ⟨lo_min hc (lo_min hc b1.1 (c _ _).1 (min_le_left _ _)) (lo_min hc (c _ _).1 (c _ _).1 (le_refl _)) (min_le_left _ _),
              hi_max hc (hi_max hc b1.2 (c _ _).2 (le_max_left _ _)) (hi_max hc (c _ _).2 (c _ _).2 (le_refl _)) (le_max_left _ _)⟩
        · have b1 := bad (x := a.max) (y := b.min) (fun h => o2 h.1) (va * vb)
          exact ⟨lo_min hc (lo_min hc (c _ _).1 (c _ _).1 (le_refl _)) (lo_min hc b1.1 (c _ _).1 (min_le_left _ _)) (min_le_right _ _),
            hi_max hc (hi_max hc (c _ _).2 (c _ _).2 (le_refl _)) (hi_max hc b1.2 (c _ _).2 (le_max_left _ _)) (le_max_right _ _)⟩
      · have b1 := bad (x := a.min) (y := b.min) (fun h => o1 h.1) (va * vb)
        exact ⟨lo_min hc (lo_min hc b1.1 (c _ _).1 (min_le_left _ _)) (lo_min hc (c _ _).1 (c _ _).1 (le_refl _)) (min_le_left _ _),
          hi_max hc (hi_max hc b1.2 (c _ _).2 (le_max_left _ _)) (hi_max hc (c _ _).2 (c _ _).2 (le_refl _)) (le_max_left _ _)⟩
    exact simpleOrUnbounded_sound key.1 key.2

/-! ### Division -/

theorem ediv_le_ediv_nonneg {a b c : Int} (ha : 0 ≤ a) (hb : 0 < b) (h : b ≤ c) : a / c ≤ a / b := by
  rw [Int.le_ediv_iff_mul_le hb]
  have h1 : 0 ≤ a / c := Int.ediv_nonneg ha (by omega)
  have h2 : a / c * b ≤ a / c * c := mul_le_mul_of_nonneg_left h h1
  have h3 := Int.ediv_mul_le a (show c ≠ 0 by omega)
  omega

theorem ediv_le_ediv_nonpos {a b c : Int} (ha : a ≤ 0) (hb : 0 < b) (h : b ≤ c) : a / b ≤ a / c := by
  rw [Int.le_ediv_iff_mul_le (by omega)]
  have h1 : a / b ≤ 0 := by
    have := Int.ediv_le_ediv hb ha
    simpa using this
  have h2 : a / b * c ≤ a / b * b := mul_le_mul_of_nonpos_left h h1
  have h3 := Int.ediv_mul_le a (show b ≠ 0 by omega)
  omega

/-- `union_x_negate_x` contains everything that is not larger than the value. -/
theorem unionNeg_sound (hc : SimpCfgOK cfg m ρ) {a : Interval} {v w : Int} (ha : Encl m ρ a v) (hw : |w| ≤ |v|) :
    Encl m ρ (unionNeg cfg a) w := by
  have h1 := abs_cases v
  have h2 := abs_cases w
  unfold unionNeg
  refine .bounds (lo_min hc ha.lo (lo_neg hc ha.hi) ?_) (hi_max hc ha.hi (hi_neg hc ha.lo) ?_) <;> omega

theorem boundsDiv_sound (hc : SimpCfgOK cfg m ρ) {orig : Option (Expr × Expr)} {a b : Interval} {va vb : Int}
    (ha : Encl m ρ a va) (hb : Encl m ρ b vb) : Encl m ρ (boundsDiv cfg orig a b) (va / vb) := by
  have L : ∀ {x y : Expr} {v : Int}, (x.ok = true → y.ok = true → eval m ρ x / eval m ρ y ≤ v) →
      LoOK m ρ (opS cfg .div orig x y) v := fun h => opS_lo hc (by simp) (by simp) (by simpa [denote_div] using h)
  have H : ∀ {x y : Expr} {v : Int}, (x.ok = true → y.ok = true → v ≤ eval m ρ x / eval m ρ y) →
      HiOK m ρ (opS cfg .div orig x y) v := fun h => opS_hi hc (by simp) (by simp) (by simpa [denote_div] using h)
  have mono : ∀ {x y s : Int}, x ≤ y → 0 ≤ s → x / s ≤ y / s := fun h hs => by simpa [ediv] using ediv_mono h hs
  have anti : ∀ {x y s : Int}, x ≤ y → s ≤ 0 → y / s ≤ x / s := fun h hs => by simpa [ediv] using ediv_anti h hs
  have hneg : ∀ x y : Int, x / y = -(x / -y) := fun x y => by rw [Int.ediv_neg]; omega
  unfold boundsDiv
  simp only
  split
  · next h =>
    rw [Bool.and_eq_true] at h
    have e := asConst_eq (isZero_asConst h.2)
    have : vb = 0 := by
      have := hb.point_eq h.1 (by rw [e]; simp)
      rw [e] at this
      simpa [eval] using this.symm
    rw [this, Int.ediv_zero]
    exact .bounds (lo_const (le_refl _)) (hi_const (le_refl _))
  split
  · next h =>
    rw [Bool.and_eq_true] at h
    have := opS_point hc (op := .div) (orig := orig) (by simp) (by simp) ha hb h.2 h.1
    rwa [denote_div] at this
  split
  · next h =>
    rw [Bool.and_eq_true] at h
    have eb := hb.point_eq h.1
    have nb := isNonNeg_sound hc hb h.2
    exact .bounds (L fun o o' => by rw [eb o']; exact mono (ha.lo.2 o) nb.2.2)
      (H fun o o' => by rw [eb o']; exact mono (ha.hi.2 o) nb.2.2)
  split
  · next h =>
    rw [Bool.and_eq_true] at h
    have eb := hb.point_eq h.1
    have nb := isNonPos_sound hc hb h.2
    exact .bounds (L fun o o' => by rw [eb o']; exact anti (ha.hi.2 o) nb.2.2)
      (H fun o o' => by rw [eb o']; exact anti (ha.lo.2 o) nb.2.2)
  split
  · exact unionNeg_sound hc ha (abs_ediv_le _ _)
  split
  · next h =>
    have nb := isPos_sound hc hb h
    split
    · next h' =>
      have na := isNonNeg_sound hc ha h'
      refine .bounds (L fun o o' => ?_) (H fun o o' => ?_)
      · have h1 := hb.hi.2 o'
        exact (ediv_le_ediv_nonneg na.2.1 nb.2.2 h1).trans (mono (ha.lo.2 o) nb.2.2.le)
      · have h1 := hb.lo.2 o'
        exact (ediv_le_ediv_nonneg na.2.2 nb.2.1 h1).trans (mono (ha.hi.2 o) nb.2.1.le)
    · split
      · next h' =>
        have na := isNonPos_sound hc ha h'
        refine .bounds (L fun o o' => ?_) (H fun o o' => ?_)
        · have h1 := hb.lo.2 o'
          exact (mono (ha.lo.2 o) nb.2.1.le).trans (ediv_le_ediv_nonpos na.2.2 nb.2.1 h1)
        · have h1 := hb.hi.2 o'
          exact (mono (ha.hi.2 o) nb.2.2.le).trans (ediv_le_ediv_nonpos na.2.1 nb.2.2 h1)
      · have u1 := unionNeg_sound hc (w := |va|) ha (by rw [abs_abs])
        have u2 := unionNeg_sound hc (w := -|va|) ha (by rw [abs_neg, abs_abs])
        have p := abs_nonneg va
        refine .bounds (L fun o o' => ?_) (H fun o o' => ?_)
        · have h1 := hb.lo.2 o'
          calc _ ≤ -|va| / eval m ρ b.min := mono (u2.lo.2 o) nb.2.1.le
            _ ≤ -|va| / vb := ediv_le_ediv_nonpos (by omega) nb.2.1 h1
            _ ≤ va / vb := mono (neg_abs_le va) nb.2.2.le
        · have h1 := hb.lo.2 o'
          calc va / vb ≤ |va| / vb := mono (le_abs_self va) nb.2.2.le
            _ ≤ |va| / eval m ρ b.min := ediv_le_ediv_nonneg p nb.2.1 h1
            _ ≤ _ := mono (u1.hi.2 o) nb.2.1.le
  split
  · next h =>
    have nb := isNeg_sound hc hb h
    split
    · next h' =>
      have na := isNonNeg_sound hc ha h'
      refine .bounds (L fun o o' => ?_) (H fun o o' => ?_)
      · have h1 := hb.hi.2 o'
        refine (anti (ha.hi.2 o) (by omega)).trans ?_
        rw [hneg va vb, hneg va (eval m ρ b.max)]
        have := ediv_le_ediv_nonneg (a := va) (b := -eval m ρ b.max) (c := -vb) na.2.2 (by omega) (by omega)
        omega
      · have h1 := hb.lo.2 o'
        refine (anti (ha.lo.2 o) (by omega)).trans ?_
        rw [hneg _ vb, hneg _ (eval m ρ b.min)]
        have := ediv_le_ediv_nonneg (a := eval m ρ a.min) (b := -vb) (c := -eval m ρ b.min) na.2.1 (by omega) (by omega)
        omega
    · split
      · next h' =>
        have na := isNonPos_sound hc ha h'
        refine .bounds (L fun o o' => ?_) (H fun o o' => ?_)
        · have h1 := hb.lo.2 o'
          refine le_trans ?_ (anti (ha.hi.2 o) nb.2.2.le)
          rw [hneg _ vb, hneg _ (eval m ρ b.min)]
          have := ediv_le_ediv_nonpos (a := eval m ρ a.max) (b := -vb) (c := -eval m ρ b.min) na.2.1 (by omega) (by omega)
          omega
        · have h1 := hb.hi.2 o'
          refine le_trans ?_ (anti (ha.lo.2 o) nb.2.1.le)
          rw [hneg _ vb, hneg _ (eval m ρ b.max)]
          have := ediv_le_ediv_nonpos (a := va) (b := -eval m ρ b.max) (c := -vb) na.2.2 (by omega) (by omega)
          omega
      · have u1 := unionNeg_sound hc (w := |va|) ha (by rw [abs_abs])
        have u2 := unionNeg_sound hc (w := -|va|) ha (by rw [abs_neg, abs_abs])
        have p := abs_nonneg va
        refine .bounds (L fun o o' => ?_) (H fun o o' => ?_)
        · have h1 := hb.hi.2 o'
          have e1 : _ ≤ |va| / eval m ρ b.max := anti (u1.hi.2 o) nb.2.1.le
          have e2 := ediv_le_ediv_nonneg (a := |va|) (b := -eval m ρ b.max) (c := -vb) p (by omega) (by omega)
          have e3 : |va| / vb ≤ va / vb := anti (le_abs_self va) nb.2.2.le
          have q1 := hneg |va| (eval m ρ b.max)
          have q2 := hneg |va| vb
          omega
        · have h1 := hb.hi.2 o'
          have e1 : -|va| / eval m ρ b.max ≤ _ := anti (u2.lo.2 o) nb.2.1.le
          have e2 := ediv_le_ediv_nonpos (a := -|va|) (b := -eval m ρ b.max) (c := -vb) (by omega) (by omega) (by omega)
          have e3 : va / vb ≤ -|va| / vb := anti (neg_abs_le va) nb.2.2.le
          have q1 := hneg (-|va|) (eval m ρ b.max)
          have q2 := hneg (-|va|) vb
          omega
  · exact unionNeg_sound hc ha (abs_ediv_le _ _)

/-! ### The other operators -/

theorem boundsMod_sound (hc : SimpCfgOK cfg m ρ) {orig : Option (Expr × Expr)} {a b : Interval} {va vb : Int}
    (ha : Encl m ρ a va) (hb : Encl m ρ b vb) : Encl m ρ (boundsMod cfg orig a b) (emod va vb) := by
  unfold boundsMod
  split
  · next h => rw [Bool.and_eq_true] at h; exact opS_point hc (op := .mod) (by simp) (by simp) ha hb h.1 h.2
  · have hm := emod_bounds va vb
    -- the largest absolute value of b
    have key : HiOK m ρ (if isNonNeg cfg b then b.max else if b.isPoint then sAbs cfg b.max
        else sB cfg .max (sAbs cfg b.min) (sAbs cfg b.max)) (max (-vb) vb) := by
      split
      · next h =>
        have nb := isNonNeg_sound hc hb h
        exact hb.hi.mono (by omega)
      · split
        · next h =>
          rcases sAbs_cases hc b.max with ⟨o, o', e⟩ | h'
          · refine hi_of_ok o' ?_
            rw [e, hb.isPoint h, hb.point_eq h (hb.isPoint h ▸ o)]
            omega
          · rw [h']; exact noInfo_hi _
        · by_cases o1 : b.min.ok = true
          · by_cases o2 : b.max.ok = true
            · rcases sAbs_cases hc b.min with ⟨-, p1, e1⟩ | h1
              · rcases sAbs_cases hc b.max with ⟨-, p2, e2⟩ | h2
                · refine hi_max hc (hi_of_ok p1 (le_refl _)) (hi_of_ok p2 (le_refl _)) ?_
                  rw [e1, e2]
                  have := hb.lo.2 o1; have := hb.hi.2 o2
                  omega
                · rw [h2]; exact hi_max hc (hi_of_ok p1 (le_refl _)) (noInfo_hi (max (-vb) vb)) (le_max_right _ _)
              · rcases sAbs_cases hc b.max with ⟨-, p2, e2⟩ | h2
                · rw [h1]; exact hi_max hc (noInfo_hi (max (-vb) vb)) (hi_of_ok p2 (le_refl _)) (le_max_left _ _)
                · rw [h1, h2]; exact hi_max hc (noInfo_hi (max (-vb) vb)) (noInfo_hi (max (-vb) vb)) (le_max_left _ _)
            · have : sAbs cfg b.max = noInfo := by simp [sAbs, o2]
              rw [this]
              rcases sAbs_cases hc b.min with ⟨-, p1, e1⟩ | h1
              · exact hi_max hc (hi_of_ok p1 (le_refl _)) (noInfo_hi (max (-vb) vb)) (le_max_right _ _)
              · rw [h1]; exact hi_max hc (noInfo_hi (max (-vb) vb)) (noInfo_hi (max (-vb) vb)) (le_max_left _ _)
          · have : sAbs cfg b.min = noInfo := by simp [sAbs, o1]
            rw [this]
            rcases sAbs_cases hc b.max with ⟨-, p2, e2⟩ | h2
            · exact hi_max hc (noInfo_hi (max (-vb) vb)) (hi_of_ok p2 (le_refl _)) (le_max_left _ _)
            · rw [h2]; exact hi_max hc (noInfo_hi (max (-vb) vb)) (noInfo_hi (max (-vb) vb)) (le_max_left _ _)
    refine .bounds (lo_const hm.1) (hi_max hc (va := max (-vb) vb - 1) (sB_hi hc (by simp) (by simp) fun o _ => ?_)
      (hi_const (le_refl (0 : Int))) (by omega))
    have := key.2 o
    simp only [BinOp.denote, eval]
    omega

theorem b2i_le {p q : Prop} [Decidable p] [Decidable q] (h : p → q) : b2i p ≤ b2i q := by
  unfold b2i; split <;> split <;> first | omega | (exfalso; tauto)

theorem boundsLess_sound (hc : SimpCfgOK cfg m ρ) {op : BinOp} (hop : op = .lt ∨ op = .le) {orig : Option (Expr × Expr)}
    {a b : Interval} {va vb : Int} (ha : Encl m ρ a va) (hb : Encl m ρ b vb) :
    Encl m ρ (boundsLess cfg op orig a b) (op.denote va vb) := by
  unfold boundsLess
  have h1 : op ≠ .min := by rcases hop with rfl | rfl <;> simp
  have h2 : op ≠ .max := by rcases hop with rfl | rfl <;> simp
  split
  · next h => rw [Bool.and_eq_true] at h; exact opS_point hc h1 h2 ha hb h.1 h.2
  · refine .bounds (opS_lo hc h1 h2 fun o o' => ?_) (opS_hi hc h1 h2 fun o o' => ?_)
    · have := ha.hi.2 o; have := hb.lo.2 o'
      rcases hop with rfl | rfl <;> simp only [BinOp.denote] <;> exact b2i_le (by omega)
    · have := ha.lo.2 o; have := hb.hi.2 o'
      rcases hop with rfl | rfl <;> simp only [BinOp.denote] <;> exact b2i_le (by omega)

theorem boundsEq_sound (hc : SimpCfgOK cfg m ρ) {orig : Option (Expr × Expr)} {a b : Interval} {va vb : Int}
    (ha : Encl m ρ a va) (hb : Encl m ρ b vb) : Encl m ρ (boundsEq cfg orig a b) (b2i (va = vb)) := by
  unfold boundsEq
  split
  · next h => rw [Bool.and_eq_true] at h; exact opS_point hc (op := .eq) (by simp) (by simp) ha hb h.1 h.2
  · refine .bounds (lo_const (b2i_range _).1) (sB_hi hc (by simp) (by simp) fun o o' => ?_)
    rcases sB_cases hc .le (by simp) (by simp) a.min b.max with ⟨p1, p2, -, e1⟩ | h1
    · rcases sB_cases hc .le (by simp) (by simp) b.min a.max with ⟨p3, p4, -, e2⟩ | h2
      · rw [e1, e2]
        have := ha.lo.2 p1; have := hb.hi.2 p2; have := hb.lo.2 p3; have := ha.hi.2 p4
        simp only [BinOp.denote]
        refine b2i_le fun h => ?_
        unfold b2i
        constructor <;> rw [if_pos (by omega)] <;> simp
      · rw [h2, noInfo_not_ok] at o'; cases o'
    · rw [h1, noInfo_not_ok] at o; cases o

theorem boundsNe_sound (hc : SimpCfgOK cfg m ρ) {orig : Option (Expr × Expr)} {a b : Interval} {va vb : Int}
    (ha : Encl m ρ a va) (hb : Encl m ρ b vb) : Encl m ρ (boundsNe cfg orig a b) (b2i (va ≠ vb)) := by
  unfold boundsNe
  split
  · next h => rw [Bool.and_eq_true] at h; exact opS_point hc (op := .ne) (by simp) (by simp) ha hb h.1 h.2
  · refine .bounds (sB_lo hc (by simp) (by simp) fun o o' => ?_) (hi_const (b2i_range _).2)
    rcases sB_cases hc .lt (by simp) (by simp) a.max b.min with ⟨p1, p2, -, e1⟩ | h1
    · rcases sB_cases hc .lt (by simp) (by simp) b.max a.min with ⟨p3, p4, -, e2⟩ | h2
      · rw [e1, e2]
        have := ha.hi.2 p1; have := hb.lo.2 p2; have := hb.hi.2 p3; have := ha.lo.2 p4
        simp only [BinOp.denote]
        refine b2i_le fun h => ?_
        rintro rfl
        rcases h with h | h
        · exact h (by unfold b2i; rw [if_neg (by omega)])
        · exact h (by unfold b2i; rw [if_neg (by omega)])
      · rw [h2, noInfo_not_ok] at o'; cases o'
    · rw [h1, noInfo_not_ok] at o; cases o

/-- The truth of the ends, and of the value. -/
theorem boolOp_ends {i : Interval} {v : Int} (h : Encl m ρ i v) (hb : BoolOp m ρ i v) :
    (i.min.ok = true → eval m ρ i.min ≠ 0 → v ≠ 0) ∧ (i.max.ok = true → v ≠ 0 → eval m ρ i.max ≠ 0) := by
  rcases hb with hp | ⟨h0, h1⟩
  · constructor
    · intro o hn; rw [← h.point_eq hp o]; exact hn
    · intro o hn; rw [h.isPoint hp] at o ⊢; rw [h.point_eq hp o]; exact hn
  · constructor
    · intro o hn; have := h1 o; have := h.lo.2 o; omega
    · intro o hn; have := h.hi.2 o; omega

theorem boundsAnd_sound (hc : SimpCfgOK cfg m ρ) {orig : Option (Expr × Expr)} {a b : Interval} {va vb : Int}
    (ha : Encl m ρ a va) (hb : Encl m ρ b vb) (hba : BoolOp m ρ a va) (hbb : BoolOp m ρ b vb) :
    Encl m ρ (boundsLinear cfg .and orig a b) (b2i (va ≠ 0 ∧ vb ≠ 0)) := by
  have ea := boolOp_ends ha hba
  have eb := boolOp_ends hb hbb
  refine boundsLinear_sound hc (by simp) (by simp) (fun o o' => ?_) (fun o o' => ?_) ha.wf hb.wf
  · exact b2i_le fun h => ⟨ea.1 o h.1, eb.1 o' h.2⟩
  · exact b2i_le fun h => ⟨ea.2 o h.1, eb.2 o' h.2⟩

theorem boundsOr_sound (hc : SimpCfgOK cfg m ρ) {orig : Option (Expr × Expr)} {a b : Interval} {va vb : Int}
    (ha : Encl m ρ a va) (hb : Encl m ρ b vb) (hba : BoolOp m ρ a va) (hbb : BoolOp m ρ b vb) :
    Encl m ρ (boundsLinear cfg .or orig a b) (b2i (va ≠ 0 ∨ vb ≠ 0)) := by
  have ea := boolOp_ends ha hba
  have eb := boolOp_ends hb hbb
  refine boundsLinear_sound hc (by simp) (by simp) (fun o o' => ?_) (fun o o' => ?_) ha.wf hb.wf
  · exact b2i_le fun h => h.imp (ea.1 o) (eb.1 o')
  · exact b2i_le fun h => h.imp (ea.2 o) (eb.2 o')

theorem boundsNot_sound (hc : SimpCfgOK cfg m ρ) {a : Interval} {v : Int} (ha : Encl m ρ a v) (hb : BoolOp m ρ a v) :
    Encl m ρ (boundsNot cfg a) (b2i (v = 0)) := by
  have e := boolOp_ends ha hb
  have lo : ∀ {x : Expr} {w : Int}, (x.ok = true → b2i (eval m ρ x = 0) ≤ w) → LoOK m ρ (sNot cfg x) w := by
    intro x w h
    rcases sNot_cases hc x with ⟨o, o', e⟩ | h'
    · exact lo_of_ok o' (e ▸ h o)
    · rw [h']; exact noInfo_lo _
  have hi : ∀ {x : Expr} {w : Int}, (x.ok = true → w ≤ b2i (eval m ρ x = 0)) → HiOK m ρ (sNot cfg x) w := by
    intro x w h
    rcases sNot_cases hc x with ⟨o, o', e⟩ | h'
    · exact hi_of_ok o' (e ▸ h o)
    · rw [h']; exact noInfo_hi _
  unfold boundsNot
  split
  · next h =>
    have := ha.point_eq h
    exact .point (lo fun o => by rw [this o]) (hi fun o => by rw [this o])
  · exact .bounds (lo fun o => b2i_le fun h => by by_contra hv; exact e.2 o hv h)
      (hi fun o => b2i_le fun h => by by_contra hv; exact e.1 o hv h)

/-- The lower bound of the selected operand suffices. -/
theorem lo_min_right (hc : SimpCfgOK cfg m ρ) {a b : Expr} {v : Int} (hb : LoOK m ρ b v) : LoOK m ρ (sB cfg .min a b) v := by
  by_cases h : a = posInfE
  · subst h
    unfold sB
    rw [if_neg (by simp [posInfE, Expr.ok, Fn.isOk]), if_neg (by simp), if_neg (by simp), if_pos ⟨rfl, rfl⟩]
    exact hb
  · exact lo_min hc (va := eval m ρ a) ⟨h, fun _ => le_refl _⟩ hb (min_le_right _ _)
theorem lo_min_left (hc : SimpCfgOK cfg m ρ) {a b : Expr} {v : Int} (ha : LoOK m ρ a v) : LoOK m ρ (sB cfg .min a b) v := by
  by_cases h : b = posInfE
  · subst h
    unfold sB
    rw [if_neg (by simp [posInfE, Expr.ok, Fn.isOk]), if_neg (by simp), if_neg (by simp), if_neg (fun h => ha.1 h.2),
      if_pos ⟨rfl, rfl⟩]
    exact ha
  · exact lo_min hc (vb := eval m ρ b) ha ⟨h, fun _ => le_refl _⟩ (min_le_left _ _)
/-- The upper bound of the selected operand suffices. -/
theorem hi_max_right (hc : SimpCfgOK cfg m ρ) {a b : Expr} {v : Int} (hb : HiOK m ρ b v) : HiOK m ρ (sB cfg .max a b) v := by
  by_cases h : a = negInfE
  · subst h
    unfold sB
    rw [if_neg (by simp [negInfE, Expr.ok, Fn.isOk]), if_pos ⟨rfl, rfl⟩]
    exact hb
  · exact hi_max hc (va := eval m ρ a) ⟨h, fun _ => le_refl _⟩ hb (le_max_right _ _)
theorem hi_max_left (hc : SimpCfgOK cfg m ρ) {a b : Expr} {v : Int} (ha : HiOK m ρ a v) : HiOK m ρ (sB cfg .max a b) v := by
  by_cases h : b = negInfE
  · subst h
    unfold sB
    rw [if_neg (by simp [negInfE, Expr.ok, Fn.isOk]), if_neg (fun h => ha.1 h.2), if_pos ⟨rfl, rfl⟩]
    exact ha
  · exact hi_max hc (vb := eval m ρ b) ha ⟨h, fun _ => le_refl _⟩ (le_max_left _ _)

/-- The bounds of a select. The bounds of an operand need only hold if it is selected. -/
theorem boundsSelect_sound (hc : SimpCfgOK cfg m ρ) {orig : Option (Expr × Expr × Expr)} {c t f : Interval} {vc vt vf : Int}
    (ec : Encl m ρ c vc) (hb : BoolOp m ρ c vc) (et : vc ≠ 0 → Encl m ρ t vt) (ef : vc = 0 → Encl m ρ f vf) :
    Encl m ρ (boundsSelect cfg orig c t f) (if vc ≠ 0 then vt else vf) := by
  have e := boolOp_ends ec hb
  unfold boundsSelect
  split
  · next h =>
    simp only [Bool.and_eq_true] at h
    have pc := ec.point_eq h.1.1
    have key : c.min.ok = true → t.min.ok = true → f.min.ok = true →
        (if eval m ρ c.min ≠ 0 then eval m ρ t.min else eval m ρ f.min) = if vc ≠ 0 then vt else vf := by
      intro o1 o2 o3
      rw [pc o1]
      split
      · next hv => exact (et hv).point_eq h.1.2 o2
      · next hv => exact (ef (by simpa using hv)).point_eq h.2 o3
    split
    · refine .point ⟨by simp [posInfE], fun o => ?_⟩ ⟨by simp [negInfE], fun o => ?_⟩ <;>
        simp only [Expr.ok, Bool.and_eq_true] at o <;> rw [← key o.1.1 o.1.2 o.2] <;> simp [eval]
    · rcases sSel_cases hc c.min t.min f.min with ⟨o1, o2, o3, o, e⟩ | h'
      · exact .point_ok o (by rw [e, key o1 o2 o3])
      · rw [h']; exact .point (noInfo_lo _) (noInfo_hi _)
  split
  · next h =>
    obtain ⟨k, hk⟩ : ∃ k, asConst c.min = some k := by
      cases h' : asConst c.min with
      | some k => exact ⟨k, rfl⟩
      | none => simp [isTrue, h'] at h
    have hv : vc ≠ 0 := e.1 (by rw [asConst_eq hk]; simp) ((isTrue_sound m ρ c.min).1 h)
    rw [if_pos hv]
    exact et hv
  split
  · next h =>
    have hk : asConst c.max = some 0 := by simpa [isFalse] using isZero_asConst h
    have hv : vc = 0 := by
      by_contra hv
      exact e.2 (by rw [asConst_eq hk]; simp) hv (by rw [asConst_eq hk]; simp [eval])
    rw [if_neg (by simpa using hv)]
    exact ef hv
  split
  · next h =>
    have pc := ec.point_eq h
    have lo : LoOK m ρ (.select c.min t.min f.min) (if vc ≠ 0 then vt else vf) := by
      refine ⟨by simp [posInfE], fun o => ?_⟩
      simp only [Expr.ok, Bool.and_eq_true] at o
      simp only [eval, pc o.1.1]
      split
      · next hv => exact (et hv).lo.2 o.1.2
      · next hv => exact (ef (by simpa using hv)).lo.2 o.2
    have hi : HiOK m ρ (.select c.min t.max f.max) (if vc ≠ 0 then vt else vf) := by
      refine ⟨by simp [negInfE], fun o => ?_⟩
      simp only [Expr.ok, Bool.and_eq_true] at o
      simp only [eval, pc o.1.1]
      split
      · next hv => exact (et hv).hi.2 o.1.2
      · next hv => exact (ef (by simpa using hv)).hi.2 o.2
    unfold Interval.select
    split
    · next hp =>
      simp only [Bool.and_eq_true] at hp
      refine .point lo ⟨by simp [negInfE], fun o => ?_⟩
      simp only [Expr.ok, Bool.and_eq_true] at o
      simp only [eval, pc o.1.1]
      split
      · next hv => exact ((et hv).point_eq hp.1 o.1.2).ge
      · next hv => exact ((ef (by simpa using hv)).point_eq hp.2 o.2).ge
    · exact .bounds lo hi
  · by_cases hv : vc = 0
    · rw [if_neg (by simpa using hv)]
      exact .bounds (lo_min_right hc (ef hv).lo) (hi_max_right hc (ef hv).hi)
    · rw [if_pos hv]
      exact .bounds (lo_min_left hc (et hv).lo) (hi_max_left hc (et hv).hi)

theorem boundsAbs_sound (hc : SimpCfgOK cfg m ρ) {a : Interval} {v : Int} (ha : Encl m ρ a v) :
    Encl m ρ (boundsAbs cfg a) (v.natAbs : Int) := by
  unfold boundsAbs
  split
  · next h =>
    rw [Bool.and_eq_true] at h
    have := isNonNegative_ok m ρ h.1 h.2
    have := ha.lo.2 h.1
    rw [show (v.natAbs : Int) = v by omega]
    exact ha
  split
  · next h =>
    rw [Bool.and_eq_true] at h
    have := isNonPositive_ok m ρ h.1 h.2
    have := ha.hi.2 h.1
    rw [show (v.natAbs : Int) = -v by omega]
    unfold negateI
    split
    · next hp => exact .point (lo_neg hc (ha.isPoint hp ▸ ha.hi)) (hi_neg hc ha.lo)
    · exact .bounds (lo_neg hc ha.hi) (hi_neg hc ha.lo)
  split
  · next h =>
    refine .bounds (lo_const (by omega)) ?_
    rcases sAbs_cases hc a.min with ⟨o, o', e⟩ | h'
    · exact hi_of_ok o' (by rw [e, ha.point_eq h o])
    · rw [h']; exact noInfo_hi _
  · refine .bounds (lo_const (by omega)) ?_
    have any : ∀ x, HiOK m ρ (sAbs cfg x) (if x.ok = true then ((eval m ρ x).natAbs : Int) else v.natAbs) := by
      intro x
      rcases sAbs_cases hc x with ⟨o, o', e⟩ | h'
      · exact hi_of_ok o' (by rw [e, if_pos o])
      · rw [h']; exact noInfo_hi _
    refine hi_max hc (any a.min) (any a.max) ?_
    split
    · next o =>
      split
      · next o' =>
        have := ha.lo.2 o; have := ha.hi.2 o'
        omega
      · exact le_max_right _ _
    · exact le_max_left _ _

/-! ### Correlated bounds -/

theorem asStair_sound {e x : Expr} {a b c : Int} (he : e.ok = true) (h : asStair e = some (x, a, b, c)) :
    x.ok = true ∧ eval m ρ e = staircase (eval m ρ x) a b c := by
  unfold asStair at h
  split at h
  · next ctx hm =>
    split at h
    · next x' a' b' c' h0 h1 h2 h3 =>
      simp only [Option.some.injEq, Prod.mk.injEq] at h
      obtain ⟨rfl, rfl, rfl, rfl⟩ := h
      have hs := matchAny_sound m ρ (p := stairPat) rfl he hm
      refine ⟨hs.ok (fun i e h => by simp [MCtx.empty] at h) 0 x' h0, ?_⟩
      have := hs.val ctx (MCtx.Ext.refl _) (fun _ _ => false)
      simp only [Rel, patVal, stairPat, MCtx.σ, MCtx.κ, h0, h1, h2, h3, Option.getD_some] at this
      simpa using this.symm
    · cases h
  · cases h

theorem tightenStairs_sound (hc : SimpCfgOK cfg m ρ) {i : Interval} {a b : Expr} {sign : Int}
    (ha : a.ok = true) (hb : b.ok = true) (h : Encl m ρ i (eval m ρ a + sign * eval m ρ b)) :
    Encl m ρ (tightenStairs cfg i a b sign) (eval m ρ a + sign * eval m ρ b) := by
  unfold tightenStairs
  split
  · next x la lb lc y ra rb rc h1 h2 =>
    split
    · exact h
    split
    · exact h
    · next hm hs =>
      have hxy : x = y := (match_iff x y).1 (by simpa using hm)
      have hs : cfg.stair la lb lc ra rb (rc * sign) = true := by simpa using hs
      have f := hc.stair _ _ _ _ _ _ hs
      simp only [fits32, decide_eq_true_eq] at f
      have e1 := (asStair_sound (m := m) (ρ := ρ) ha h1).2
      have e2 := (asStair_sound (m := m) (ρ := ρ) hb h2).2
      subst hxy
      have key := staircaseSumBounds32_sound_partial la lb lc ra rb (rc * sign) (eval m ρ x) f.1 f.2.1 f.2.2.1 f.2.2.2.1
        f.2.2.2.2.1 f.2.2.2.2.2
      have es : stairSum la lb lc ra rb (rc * sign) (eval m ρ x) = eval m ρ a + sign * eval m ρ b := by
        rw [e1, e2]; simp only [stairSum, staircase]; ring
      rw [es] at key
      generalize staircaseSumBounds32 la lb lc ra rb (rc * sign) = sb at key
      obtain ⟨k1, k2⟩ := key
      refine ⟨?_, ?_, ?_⟩
      · intro hs
        simp only [Bool.and_eq_true, Option.isNone_iff_eq_none] at hs
        simp only [hs.1.2, hs.2]
        exact h.wf hs.1.1
      · simp only
        cases hmn : sb.min with
        | none => exact h.lo
        | some c => exact lo_loMax hc h.lo (lo_const (k1 c hmn))
      · simp only
        cases hmx : sb.max with
        | none => exact h.hi
        | some c => exact hi_hiMin hc h.hi (hi_const (k2 c hmx))
  · exact h

theorem tightenMinMax_sound (hc : SimpCfgOK cfg m ρ) {simp : Expr → Expr} (hs : SimpOK simp m ρ) {i : Interval} {a b : Expr}
    {sign : Int} (ha : a.ok = true) (hb : b.ok = true) (h : Encl m ρ i (eval m ρ a + sign * eval m ρ b)) :
    Encl m ρ (tightenMinMax cfg simp i a b sign) (eval m ρ a + sign * eval m ρ b) := by
  unfold tightenMinMax
  split
  · exact h
  · next hsg =>
    have hsg : sign = -1 := by simpa using hsg
    subst hsg
    split
    · next aa ab ba bb =>
      simp only [Expr.ok_bin, Bool.and_eq_true] at ha hb
      refine ⟨fun h => by simp at h, h.lo, ?_⟩
      refine hi_hiMin hc ?_ h.hi
      have := hs (mkBin .min (mkBin .min (mkBin .sub aa ba) (mkBin .sub ab bb)) (mkBin .min (mkBin .sub aa bb) (mkBin .sub ab ba)))
        (by simp [ha.1, ha.2, hb.1, hb.2])
      refine hi_of_ok this.1 ?_
      rw [this.2]
      simp only [eval_mkBin, eval, BinOp.denote]
      omega
    · exact h

theorem tighten_sound (hc : SimpCfgOK cfg m ρ) {simp : Expr → Expr} (hs : SimpOK simp m ρ) {i : Interval}
    {orig : Option (Expr × Expr)} {sign va vb : Int}
    (ho : ∀ x y, orig = some (x, y) → x.ok = true ∧ y.ok = true ∧ eval m ρ x = va ∧ eval m ρ y = vb)
    (h : Encl m ρ i (va + sign * vb)) : Encl m ρ (tighten cfg simp i orig sign) (va + sign * vb) := by
  unfold tighten
  split
  · next a b =>
    obtain ⟨o1, o2, e1, e2⟩ := ho a b rfl
    subst e1; subst e2
    exact tightenMinMax_sound hc hs o1 o2 (tightenStairs_sound hc o1 o2 h)
  · exact h

end

end Slinky
