import Verif.Interval
import Verif.SubstProps

/-! # C11: interval operations; part of C38: predicates on expressions and builders -/

namespace Slinky

/-! ### Specification -/

/-- `v` is in the interval: an undefined end does not bound. -/
def Interval.Has (m : Mem) (ρ : Env) (i : Interval) (v : Int) : Prop :=
  (i.min.defined = true → eval m ρ i.min ≤ v) ∧ (i.max.defined = true → v ≤ eval m ρ i.max)

/-- If the two ends are the same node, they are equal. -/
def Interval.WF (i : Interval) : Prop := i.same = true → i.min = i.max

/-- The interpretation of the infinities (which the evaluator never evaluates) has the right sign. -/
structure MemInf (m : Mem) : Prop where
  pos : ∀ as, 0 < m.call .posInf as
  neg : ∀ as, m.call .negInf as < 0

/-- `abs` has one, defined, argument. -/
def AbsOK : Expr → Prop
  | .call .abs (.cons a as) => as = .nil ∧ a.defined = true ∧ AbsOK a
  | .call .abs .nil => False
  | _ => True

/-- `v` is in the box: missing dimensions are unbounded. -/
def BoxHas (m : Mem) (ρ : Env) (b : List Interval) (v : Nat → Int) : Prop := ∀ (i : Nat) (I : Interval), b[i]? = some I → I.Has m ρ (v i)

/-! ### Predicates (C38) -/

theorem isPositive_sound (m : Mem) (hm : MemInf m) (ρ : Env) : ∀ e : Expr, AbsOK e → isPositive e = true → 0 < eval m ρ e
  | .undef, _, h => by simp [isPositive] at h
  | .var _ _ _, _, h => by simp [isPositive] at h
  | .const c, _, h => by simpa [isPositive, eval] using h
  | .lets _ _, _, h => by simp [isPositive] at h
  | .bin _ _ _, _, h => by simp [isPositive] at h
  | .not _, _, h => by simp [isPositive] at h
  | .select _ _ _, _, h => by simp [isPositive] at h
  | .call fn .nil, h, h' => by
    cases fn <;> simp [isPositive] at h'
    · simp only [eval, Fn.denote]; exact hm.pos _
  | .call fn (.cons a as), h, h' => by
    cases fn <;> simp [isPositive] at h'
    · simp only [eval, Fn.denote]; exact hm.pos _
    · simp only [AbsOK] at h
      obtain ⟨rfl, hd, ha⟩ := h
      have := isPositive_sound m hm ρ a ha h'
      simp only [eval, evalArgs, hd, if_true, Fn.denote]
      omega

theorem isNonNegative_sound (m : Mem) (hm : MemInf m) (ρ : Env) (e : Expr) (ha : AbsOK e) (h : isNonNegative e = true) :
    0 ≤ eval m ρ e := by
  cases e <;> simp [isNonNegative] at h
  case const c => simpa [eval] using h
  case call fn as =>
    cases fn <;> simp [isNonNegative] at h
    · simp only [eval, Fn.denote]; exact (hm.pos _).le
    · cases as with
      | nil => simp [AbsOK] at ha
      | cons a as =>
        simp only [AbsOK] at ha
        obtain ⟨rfl, hd, ha⟩ := ha
        simp only [eval, evalArgs, hd, if_true, Fn.denote]; omega

theorem isNegative_sound (m : Mem) (hm : MemInf m) (ρ : Env) (e : Expr) (h : isNegative e = true) : eval m ρ e < 0 := by
  cases e <;> simp [isNegative] at h
  case const c => simpa [eval] using h
  case call fn as => cases fn <;> simp [isNegative] at h; simp only [eval, Fn.denote]; exact hm.neg _

theorem isNonPositive_sound (m : Mem) (hm : MemInf m) (ρ : Env) (e : Expr) (h : isNonPositive e = true) : eval m ρ e ≤ 0 := by
  cases e <;> simp [isNonPositive] at h
  case const c => simpa [eval] using h
  case call fn as => cases fn <;> simp [isNonPositive] at h; simp only [eval, Fn.denote]; exact (hm.neg _).le

theorem b2i_01 (p : Prop) [Decidable p] : b2i p = 0 ∨ b2i p = 1 := by unfold b2i; split <;> simp

/-- C38: an expression that `is_boolean` is 0 or 1. -/
theorem isBoolean_sound (m : Mem) (ρ : Env) (e : Expr) (h : isBoolean e = true) : eval m ρ e = 0 ∨ eval m ρ e = 1 := by
  cases e <;> simp [isBoolean, isBooleanNode, isOne, isZero, asConst] at h
  case const c => simp only [eval]; omega
  case bin op a b => cases op <;> simp [isBooleanNode] at h <;> simp only [eval, BinOp.denote] <;> exact b2i_01 _
  case not a => simp only [eval]; exact b2i_01 _

/-- C38: `boolean(x)` is 1 if `x` is not zero and 0 otherwise. -/
theorem boolean_correct (m : Mem) (ρ : Env) (e : Expr) (hd : e.defined = true) :
    eval m ρ (boolean e) = if eval m ρ e ≠ 0 then 1 else 0 := by
  unfold boolean
  by_cases hb : isBoolean e = true
  · rw [if_pos (by simp [hb])]
    rcases isBoolean_sound m ρ e hb with h | h <;> simp [h]
  · rw [if_neg (by simp [hb, hd])]
    cases hc : asConst e with
    | some c =>
      have : e = .const c := by cases e <;> simp [asConst] at hc; rw [hc]
      subst this
      simp only [eval]
      by_cases h0 : c = 0 <;> simp [h0]
    | none =>
      simp only [eval_mkBin, BinOp.denote, eval, b2i]
      by_cases h0 : eval m ρ e = 0 <;> simp [h0]

/-- C38: `is_true`, `is_false`, `is_zero`, `is_one` of an expression. -/
theorem isTrue_sound (m : Mem) (ρ : Env) (e : Expr) :
    (isTrue e = true → eval m ρ e ≠ 0) ∧ (isFalse e = true → eval m ρ e = 0) ∧ (isOne e = true → eval m ρ e = 1) := by
  cases e <;> simp [isTrue, isFalse, isZero, isOne, asConst, eval]

/-! ### Builders -/

/-- C11: `clamp(x, a, b)` is `max(min(x, b), a)`, with an undefined bound ignored; in particular, if `a <= b` the result
lies in `[a, b]`, and `x` is unchanged if it already does. -/
theorem clamp_correct (m : Mem) (ρ : Env) (x a b : Expr) :
    eval m ρ (clampE x a b) =
      (let y := if b.defined then min (eval m ρ x) (eval m ρ b) else eval m ρ x
       if a.defined then max y (eval m ρ a) else y) := by
  unfold clampE
  by_cases ha : a.defined = true <;> by_cases hb : b.defined = true <;>
    simp [ha, hb, eval_mkBin, BinOp.denote]

theorem clamp_in (m : Mem) (ρ : Env) (x : Expr) (i : Interval)
    (h : i.min.defined = true → i.max.defined = true → eval m ρ i.min ≤ eval m ρ i.max) :
    i.Has m ρ (eval m ρ (i.clamp x)) ∧ (i.Has m ρ (eval m ρ x) → eval m ρ (i.clamp x) = eval m ρ x) := by
  unfold Interval.clamp
  rw [clamp_correct]
  unfold Interval.Has
  by_cases ha : i.min.defined = true <;> by_cases hb : i.max.defined = true <;>
    simp only [ha, hb, if_true, if_false, true_implies, false_implies, Bool.false_eq_true] at * <;>
    (refine ⟨⟨?_, ?_⟩, ?_⟩) <;> first | trivial | omega

/-- C11: `align_down` and `align_up` of expressions with a positive alignment. -/
theorem alignE_correct (m : Mem) (ρ : Env) (x a : Expr) (ha : 0 < eval m ρ a) :
    (eval m ρ a ∣ eval m ρ (alignDownE x a) ∧ eval m ρ (alignDownE x a) ≤ eval m ρ x ∧
      eval m ρ x < eval m ρ (alignDownE x a) + eval m ρ a) ∧
    (eval m ρ a ∣ eval m ρ (alignUpE x a) ∧ eval m ρ x ≤ eval m ρ (alignUpE x a) ∧
      eval m ρ (alignUpE x a) < eval m ρ x + eval m ρ a) := by
  simp only [alignDownE, alignUpE, eval_mkBin, BinOp.denote, ediv, eval]
  generalize eval m ρ a = s at *
  generalize eval m ρ x = v
  have h1 := Int.emod_add_mul_ediv v s
  have h2 := Int.emod_nonneg v ha.ne'
  have h3 := Int.emod_lt_of_pos v ha
  have h4 := Int.emod_add_mul_ediv (v + s - 1) s
  have h5 := Int.emod_nonneg (v + s - 1) ha.ne'
  have h6 := Int.emod_lt_of_pos (v + s - 1) ha
  rw [Int.mul_comm (v / s), Int.mul_comm ((v + s - 1) / s)]
  refine ⟨⟨Dvd.intro _ rfl, ?_, ?_⟩, Dvd.intro _ rfl, ?_, ?_⟩ <;> omega

/-! ### Interval operations -/

theorem mapEnd_defined (f : Expr → Expr) (hf : ∀ e, (f e).defined = true) (e : Expr) : (mapEnd f e).defined = e.defined := by
  unfold mapEnd; split <;> simp_all

theorem eval_mapEnd (m : Mem) (ρ : Env) (f : Expr → Expr) (e : Expr) (h : e.defined = true) :
    eval m ρ (mapEnd f e) = eval m ρ (f e) := by simp [mapEnd, h]

/-- C11: the expression `contains(x)` is true exactly if the value of `x` is in the interval. -/
theorem contains_correct (m : Mem) (ρ : Env) (i : Interval) (x : Expr) :
    eval m ρ (i.contains x) ≠ 0 ↔ i.Has m ρ (eval m ρ x) := by
  unfold Interval.contains Interval.Has
  by_cases ha : i.min.defined = true <;> by_cases hb : i.max.defined = true <;>
    simp [ha, hb, eval_mkBin, BinOp.denote, b2i, eval]

/-- C11: `a | b` contains everything that `a` or `b` contains. -/
theorem union_sound (m : Mem) (ρ : Env) (a b : Interval) (v : Int) (h : a.Has m ρ v ∨ b.Has m ρ v) :
    (a.union b).Has m ρ v := by
  unfold Interval.union Interval.bounds Interval.Has at *
  constructor
  · by_cases ha : a.min.defined = true <;> by_cases hb : b.min.defined = true <;> simp_all [eval_mkBin, BinOp.denote]
    omega
  · by_cases ha : a.max.defined = true <;> by_cases hb : b.max.defined = true <;> simp_all [eval_mkBin, BinOp.denote]
    omega

/-- C11: `a | b` is the smallest such interval, if nothing is unbounded. -/
theorem union_tight (m : Mem) (ρ : Env) (a b : Interval) (ha : a.min.defined = true ∧ a.max.defined = true)
    (hb : b.min.defined = true ∧ b.max.defined = true) (v : Int) (h : (a.union b).Has m ρ v) :
    (eval m ρ a.min ≤ v ∨ eval m ρ b.min ≤ v) ∧ (v ≤ eval m ρ a.max ∨ v ≤ eval m ρ b.max) := by
  simp [Interval.union, Interval.bounds, Interval.Has, ha, hb, eval_mkBin, BinOp.denote, defined_mkBin] at h
  omega

/-- C11: `a & b` contains exactly the values that both contain. -/
theorem inter_exact (m : Mem) (ρ : Env) (a b : Interval) (v : Int) :
    (a.inter b).Has m ρ v ↔ a.Has m ρ v ∧ b.Has m ρ v := by
  unfold Interval.inter Interval.Has
  by_cases ha : a.min.defined = true <;> by_cases hb : b.min.defined = true <;>
    by_cases ha' : a.max.defined = true <;> by_cases hb' : b.max.defined = true <;>
    simp_all [eval_mkBin, BinOp.denote, defined_mkBin] <;> omega

theorem point_has (m : Mem) (ρ : Env) (i : Interval) (hw : i.WF) (hp : i.isPoint = true) (v : Int) (h : i.Has m ρ v) :
    v = eval m ρ i.min := by
  simp only [Interval.isPoint, Bool.and_eq_true] at hp
  have := hw hp.2
  have h1 := h.1 hp.1
  have h2 := h.2 (this ▸ hp.1)
  rw [← this] at h2
  omega

/-- C11: an interval plus or minus a scalar contains exactly the shifted values. -/
theorem shift_exact (m : Mem) (ρ : Env) (i : Interval) (hw : i.WF) (s : Expr) (v : Int) :
    ((i.shift .add s).Has m ρ (v + eval m ρ s) ↔ i.Has m ρ v) ∧ ((i.shift .sub s).Has m ρ (v - eval m ρ s) ↔ i.Has m ρ v) := by
  unfold Interval.shift
  by_cases hp : i.isPoint = true
  · simp only [Interval.isPoint, Bool.and_eq_true] at hp
    have h := hw hp.2
    simp only [Interval.isPoint, hp, Bool.and_self, if_true, Interval.point, Interval.Has, defined_mkBin, eval_mkBin, BinOp.denote,
      true_implies, ← h]
    constructor <;> constructor <;> intro <;> constructor <;> omega
  · simp only [hp, if_false, Interval.bounds, Interval.Has, Bool.false_eq_true]
    rw [mapEnd_defined _ (fun _ => defined_mkBin ..), mapEnd_defined _ (fun _ => defined_mkBin ..),
      mapEnd_defined _ (fun _ => defined_mkBin ..), mapEnd_defined _ (fun _ => defined_mkBin ..)]
    by_cases ha : i.min.defined = true <;> by_cases hb : i.max.defined = true <;>
      simp [ha, hb, eval_mapEnd, eval_mkBin, BinOp.denote]

/-- C11: `-i` contains exactly the negated values. -/
theorem neg_exact (m : Mem) (ρ : Env) (i : Interval) (v : Int) : (i.neg).Has m ρ (-v) ↔ i.Has m ρ v := by
  simp only [Interval.neg, Interval.bounds, Interval.Has, mapEnd_defined negE (fun _ => defined_mkBin ..)]
  by_cases ha : i.min.defined = true <;> by_cases hb : i.max.defined = true <;>
    simp [ha, hb, eval_mapEnd, negE, eval_mkBin, BinOp.denote, eval] <;> omega

/-- C11: `a - i` contains exactly the values `a - v`. -/
theorem rsub_exact (m : Mem) (ρ : Env) (a : Expr) (i : Interval) (v : Int) :
    (Interval.rsub a i).Has m ρ (eval m ρ a - v) ↔ i.Has m ρ v := by
  unfold Interval.rsub
  have h := (shift_exact m ρ i.neg (by simp [Interval.WF, Interval.neg, Interval.bounds]) a (-v)).1
  rw [show eval m ρ a - v = -v + eval m ρ a by omega, h, neg_exact]

theorem ediv_mono {a b s : Int} (h : a ≤ b) (hs : 0 ≤ s) : ediv a s ≤ ediv b s := by
  unfold ediv
  rcases hs.eq_or_lt with rfl | hs
  · simp
  · exact Int.ediv_le_ediv hs h

theorem ediv_anti {a b s : Int} (h : a ≤ b) (hs : s ≤ 0) : ediv b s ≤ ediv a s := by
  have := ediv_mono h (show 0 ≤ -s by omega)
  unfold ediv at *
  rw [Int.ediv_neg, Int.ediv_neg] at this
  omega

theorem scale_mono (op : BinOp) (hop : op = .mul ∨ op = .div) {a b s : Int} (h : a ≤ b) :
    (0 ≤ s → op.denote a s ≤ op.denote b s) ∧ (s ≤ 0 → op.denote b s ≤ op.denote a s) := by
  rcases hop with rfl | rfl <;> simp only [BinOp.denote]
  · exact ⟨fun hs => Int.mul_le_mul_of_nonneg_right h hs, fun hs => Int.mul_le_mul_of_nonpos_right h hs⟩
  · exact ⟨fun hs => ediv_mono h hs, fun hs => ediv_anti h hs⟩

/-- C11: an interval scaled or divided by a scalar of any sign contains the scaled values. -/
theorem scale_sound (m : Mem) (hm : MemInf m) (ρ : Env) (op : BinOp) (hop : op = .mul ∨ op = .div) (i : Interval) (hw : i.WF)
    (s : Expr) (hs : AbsOK s) (v : Int) (h : i.Has m ρ v) :
    (i.scale op s).Has m ρ (op.denote v (eval m ρ s)) := by
  unfold Interval.scale
  split
  · rename_i hp
    have := point_has m ρ i hw hp v h
    simp [Interval.point, Interval.Has, eval_mkBin, this]
  · split
    · rename_i hn
      have h0 := isNonNegative_sound m hm ρ s hs hn
      simp only [Interval.bounds, Interval.Has, mapEnd_defined _ (fun e => defined_mkBin op e s)]
      constructor <;> intro hd <;> rw [eval_mapEnd _ _ _ _ hd, eval_mkBin]
      · exact (scale_mono op hop (h.1 hd)).1 h0
      · exact (scale_mono op hop (h.2 hd)).1 h0
    · split
      · rename_i hn
        have h0 := (isNegative_sound m hm ρ s hn).le
        simp only [Interval.bounds, Interval.Has, mapEnd_defined _ (fun e => defined_mkBin op e s)]
        constructor <;> intro hd <;> rw [eval_mapEnd _ _ _ _ hd, eval_mkBin]
        · exact (scale_mono op hop (h.2 hd)).2 h0
        · exact (scale_mono op hop (h.1 hd)).2 h0
      · have hdef : ∀ e, (mapEnd (mkBin op · s) e).defined = e.defined := mapEnd_defined _ (fun e => defined_mkBin op e s)
        rcases le_total 0 (eval m ρ s) with h0 | h0
        · apply union_sound; left
          simp only [Interval.bounds, Interval.Has, hdef]
          constructor <;> intro hd <;> rw [eval_mapEnd _ _ _ _ hd, eval_mkBin]
          · exact (scale_mono op hop (h.1 hd)).1 h0
          · exact (scale_mono op hop (h.2 hd)).1 h0
        · apply union_sound; right
          simp only [Interval.bounds, Interval.Has, hdef]
          constructor <;> intro hd <;> rw [eval_mapEnd _ _ _ _ hd, eval_mkBin]
          · exact (scale_mono op hop (h.2 hd)).2 h0
          · exact (scale_mono op hop (h.1 hd)).2 h0

/-- C11: `select(c, t, f)` of bounded intervals contains a value exactly if the selected interval does. -/
theorem select_exact_partial (m : Mem) (ρ : Env) (c : Expr) (t f : Interval) (ht : t.WF) (hf : f.WF)
    (hdt : t.min.defined = true ∧ t.max.defined = true) (hdf : f.min.defined = true ∧ f.max.defined = true) (v : Int) :
    (Interval.select c t f).Has m ρ v ↔ if eval m ρ c ≠ 0 then t.Has m ρ v else f.Has m ρ v := by
  unfold Interval.select
  by_cases hp : (t.isPoint && f.isPoint) = true
  · simp only [Bool.and_eq_true, Interval.isPoint] at hp
    have h1 := ht hp.1.2
    have h2 := hf hp.2.2
    simp only [Interval.isPoint, hp, Bool.and_self, if_true, Interval.point, Interval.Has, defined_select, true_implies, eval, ← h1, ← h2]
    split <;> simp
  · simp only [hp, if_false, Interval.bounds, Interval.Has, defined_select, true_implies, eval, hdt, hdf, Bool.false_eq_true]
    split <;> simp

/-- With an unbounded interval, `select` builds a `select` of an undefined expression as a bound, which is not the bound
of the selected interval. -/
theorem select_unbounded_counterexample :
    ∃ (m : Mem) (ρ : Env) (c : Expr) (t f : Interval) (v : Int), t.WF ∧ f.WF ∧ eval m ρ c ≠ 0 ∧ t.Has m ρ v ∧
      ¬ (Interval.select c t f).Has m ρ v := by
  refine ⟨Mem.zero, fun _ => 0, .const 1, .unbounded, .point (.const 0), 5, ?_, ?_, ?_, ?_, ?_⟩ <;>
    simp [Interval.WF, Interval.unbounded, Interval.point, Interval.select, Interval.isPoint, Interval.Has, Interval.bounds, eval,
      Mem.zero]

/-- C11: `align(i, a)` contains `i`, and its ends are aligned. -/
theorem align_sound (m : Mem) (ρ : Env) (i : Interval) (a : Expr) (ha : 0 < eval m ρ a)
    (hd : i.min.defined = true ∧ i.max.defined = true) :
    (∀ v, i.Has m ρ v → (i.align a).Has m ρ v) ∧ eval m ρ a ∣ eval m ρ (i.align a).min ∧
      eval m ρ a ∣ eval m ρ (i.align a).max + 1 := by
  have h1 := (alignE_correct m ρ i.min a ha).1
  have h2 := (alignE_correct m ρ (mkBin .add i.max (.const 1)) a ha).2
  simp only [Interval.align, Interval.bounds, Interval.Has, eval_mkBin, BinOp.denote, eval] at *
  refine ⟨fun v hv => ⟨fun _ => ?_, fun _ => ?_⟩, h1.1, by simpa using h2.1⟩
  · have := hv.1 hd.1; omega
  · have := hv.2 hd.2; omega

/-- C11: `range(b, e)`, `min_extent(b, n)`, `extent` and `empty`. -/
theorem range_correct (m : Mem) (ρ : Env) (b e : Expr) (hb : b.defined = true) (v : Int) :
    ((Interval.range b e).Has m ρ v ↔ eval m ρ b ≤ v ∧ v < eval m ρ e) ∧
    ((Interval.minExtent b e).Has m ρ v ↔ eval m ρ b ≤ v ∧ v < eval m ρ b + eval m ρ e) := by
  simp [Interval.range, Interval.minExtent, Interval.bounds, Interval.Has, eval_mkBin, BinOp.denote, eval, hb, defined_mkBin]
  omega

theorem extent_empty_correct (m : Mem) (ρ : Env) (i : Interval) (hd : i.min.defined = true ∧ i.max.defined = true) :
    (eval m ρ i.empty ≠ 0 ↔ ∀ v, ¬ i.Has m ρ v) ∧
      (eval m ρ i.empty = 0 → eval m ρ i.extent = eval m ρ i.max + 1 - eval m ρ i.min ∧ 0 < eval m ρ i.extent) := by
  simp only [Interval.empty, Interval.extent, eval_mkBin, BinOp.denote, b2i, eval, Interval.Has, hd, true_implies]
  constructor
  · constructor
    · intro h v hv; split at h <;> [omega; simp at h]
    · intro h hc; apply h (eval m ρ i.min); split at hc <;> [simp at hc; omega]
  · intro h; split at h <;> [simp at h; omega]

/-! ### Boxes -/

theorem BoxHas_cons {m : Mem} {ρ : Env} {a : Interval} {as : List Interval} {v : Nat → Int} :
    BoxHas m ρ (a :: as) v ↔ a.Has m ρ (v 0) ∧ BoxHas m ρ as (fun i => v (i + 1)) := by
  constructor
  · intro h; exact ⟨h 0 a rfl, fun i I hi => h (i + 1) I (by simpa using hi)⟩
  · rintro ⟨h0, h⟩ i I hi
    cases i with
    | zero => simp at hi; exact hi ▸ h0
    | succ i => exact h i I (by simpa using hi)

theorem BoxHas_nil {m : Mem} {ρ : Env} {v : Nat → Int} : BoxHas m ρ [] v := by intro i I h; simp at h

theorem unbounded_has (m : Mem) (ρ : Env) (v : Int) : Interval.unbounded.Has m ρ v := by
  simp [Interval.unbounded, Interval.Has]

/-- C11: the union of boxes contains both, if the first does not have more dimensions than the second. `_partial`: if it has
more, the union does not contain the second box, see `boxUnion_counterexample`. -/
theorem boxUnion_sound_partial (m : Mem) (ρ : Env) : ∀ (a b : List Interval) (_ : a.length ≤ b.length) (v : Nat → Int)
    (_ : BoxHas m ρ a v ∨ BoxHas m ρ b v), BoxHas m ρ (boxUnion a b) v
  | [], [], _, _, _ => BoxHas_nil
  | _ :: _, [], hl, _, _ => by simp at hl
  | [], b :: bs, _, v, h => by
    rw [boxUnion, BoxHas_cons]
    exact ⟨union_sound _ _ _ _ _ (Or.inl (unbounded_has ..)), boxUnion_sound_partial m ρ [] bs (by simp) _ (Or.inl BoxHas_nil)⟩
  | a :: as, b :: bs, hl, v, h => by
    rw [boxUnion, BoxHas_cons]
    rw [BoxHas_cons, BoxHas_cons] at h
    exact ⟨union_sound _ _ _ _ _ (h.imp And.left And.left),
      boxUnion_sound_partial m ρ as bs (by simpa using hl) _ (h.imp And.right And.right)⟩

/-- `[0, 0] | {}`: the box without dimensions contains everything, the union does not. -/
theorem boxUnion_counterexample : ∃ (m : Mem) (ρ : Env) (a b : List Interval) (v : Nat → Int),
    BoxHas m ρ b v ∧ ¬ BoxHas m ρ (boxUnion a b) v := by
  refine ⟨Mem.zero, fun _ => 0, [.point (.const 0)], [], fun _ => 5, BoxHas_nil, ?_⟩
  simp [boxUnion, BoxHas_cons, Interval.point, Interval.Has, eval]

/-- C11: the intersection of boxes contains exactly what both contain, if it is defined. -/
theorem boxInter_exact (m : Mem) (ρ : Env) : ∀ (a b r : List Interval) (_ : boxInter a b = some r) (v : Nat → Int),
    BoxHas m ρ r v ↔ BoxHas m ρ a v ∧ BoxHas m ρ b v
  | [], [], r, hr, v => by simp [boxInter] at hr; subst hr; simp [BoxHas_nil]
  | _ :: _, [], r, hr, _ => by simp [boxInter] at hr
  | [], b :: bs, r, hr, v => by
    simp only [boxInter, Option.map_eq_some_iff] at hr
    obtain ⟨r', hr', rfl⟩ := hr
    have ih := boxInter_exact m ρ [] bs r' hr'
    simp only [BoxHas_cons, ih, inter_exact, unbounded_has, BoxHas_nil, true_and]
  | a :: as, b :: bs, r, hr, v => by
    simp only [boxInter, Option.map_eq_some_iff] at hr
    obtain ⟨r', hr', rfl⟩ := hr
    have ih := boxInter_exact m ρ as bs r' hr'
    simp only [BoxHas_cons, ih, inter_exact]
    constructor
    · rintro ⟨⟨h1, h2⟩, h3, h4⟩; exact ⟨⟨h1, h3⟩, h2, h4⟩
    · rintro ⟨⟨h1, h3⟩, h2, h4⟩; exact ⟨⟨h1, h2⟩, h3, h4⟩

/-- C11: the intersection of boxes has undefined behaviour exactly if the first has more dimensions than the second. -/
theorem boxInter_defined : ∀ a b : List Interval, boxInter a b = none ↔ b.length < a.length
  | [], [] => by simp [boxInter]
  | _ :: _, [] => by simp [boxInter]
  | [], b :: bs => by have := boxInter_defined [] bs; simp [boxInter] at *; exact this
  | a :: as, b :: bs => by have := boxInter_defined as bs; simp [boxInter] at *; exact this

/-! ### The hypotheses are satisfiable -/

example : MemInf ⟨fun _ _ _ => 0, fun f _ => if f = .posInf then 1 else if f = .negInf then -1 else 0, 0⟩ :=
  ⟨by simp, by simp⟩
example : (Interval.bounds (.v 0) (.v 1)).Has Mem.zero (fun x => if x = 0 then -3 else 4) 2 := by
  simp [Interval.bounds, Interval.Has, Expr.v, eval]
example : AbsOK (.call .abs (.cons (.v 0) .nil)) := by simp [AbsOK, Expr.v]

end Slinky
