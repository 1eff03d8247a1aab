import Verif.SimplifierLearn

/-! # C17, C18: every step of the simplifier is right -/

namespace Slinky

/-- The result of the simplifier for an expression with the value `v`. -/
structure ResOK (m : Mem) (ρ : Env) (r : Expr × SInfo) (v : Int) : Prop where
  value : eval m ρ r.1 = v
  info : InfoOK m ρ r.2 v
  nonneg : isBoolean r.1 = true → r.2.bounds.min.ok = true → 0 ≤ eval m ρ r.2.bounds.min

/-- The result, if what is known is true. -/
def Good (m : Mem) (s : SState) (r : Expr × SInfo) (v : Env → Int) : Prop :=
  r.1.ok = true ∧ ∀ ρ, StateOK m ρ s → ResOK m ρ r (v ρ)

/-- The recursive call is right. -/
def Sound (m : Mem) (rec : Rec) : Prop := ∀ s e, e.ok = true → Good m s (rec s e) (fun ρ => eval m ρ e)

section
variable {m : Mem} {cfg : SimpCfg} {rec : Rec} {s : SState}

theorem Good.recur (h : Sound m rec) {e : Expr} (ho : e.ok = true) {v : Env → Int}
    (hv : ∀ ρ, StateOK m ρ s → eval m ρ e = v ρ) : Good m s (rec s e) v := by
  obtain ⟨h1, h2⟩ := h s e ho
  refine ⟨h1, fun ρ hs => ?_⟩
  rw [← hv ρ hs]
  exact h2 ρ hs

theorem Good.setR {e : Expr} {i : SInfo} {v : Env → Int} (ho : e.ok = true)
    (h : ∀ ρ, StateOK m ρ s → eval m ρ e = v ρ ∧ InfoOK m ρ i (v ρ) ∧
      (isBoolean e = true → i.bounds.min.ok = true → 0 ≤ eval m ρ i.bounds.min)) : Good m s (setR e i) v := by
  refine ⟨ho, fun ρ hs => ?_⟩
  obtain ⟨h1, h2, h3⟩ := h ρ hs
  exact ⟨h1, h2.setR, h3⟩

theorem Good.setRes {r : Expr × SInfo} {v w : Env → Int} (h : Good m s r v) (hv : ∀ ρ, StateOK m ρ s → v ρ = w ρ) :
    Good m s (Slinky.setR r.1 r.2) w :=
  .setR h.1 fun ρ hs => by
    have := h.2 ρ hs
    rw [← hv ρ hs]
    exact ⟨this.value, this.info, this.nonneg⟩

theorem Good.congr {r : Expr × SInfo} {v w : Env → Int} (h : Good m s r v) (hv : ∀ ρ, StateOK m ρ s → v ρ = w ρ) : Good m s r w :=
  ⟨h.1, fun ρ hs => hv ρ hs ▸ h.2 ρ hs⟩

theorem Sound.simp (h : Sound m rec) (ρ : Env) : SimpOK rec.simp m ρ := fun e ho =>
  ⟨(h .empty e ho).1, ((h .empty e ho).2 ρ .empty).value⟩

theorem isBoolean_bin {op : BinOp} {a b : Expr} : isBoolean (.bin op a b) = op.isLogic := by
  cases op <;> rfl

/-! ### Proofs -/

theorem pTrue_sound {ρ : Env} (hc : SimpCfgOK cfg m ρ) {e : Expr} (h : pTrue cfg e = true) : e.ok = true ∧ eval m ρ e ≠ 0 := by
  simp only [pTrue, Bool.and_eq_true] at h
  exact ⟨h.1, proveConstantTrue_sound_partial hc.trust h.1 h.2⟩
theorem pFalse_sound {ρ : Env} (hc : SimpCfgOK cfg m ρ) {e : Expr} (h : pFalse cfg e = true) : e.ok = true ∧ eval m ρ e = 0 := by
  simp only [pFalse, Bool.and_eq_true] at h
  exact ⟨h.1, proveConstantFalse_sound_partial hc.trust h.1 h.2⟩

theorem attemptI_sound {ρ : Env} (hc : SimpCfgOK cfg m ρ) {i : Interval} {v : Int} (h : Encl m ρ i v) (hb : BoolOp m ρ i v)
    {p : Bool} (ha : attemptI cfg i = some p) : v ≠ 0 ↔ p = true := by
  have e := boolOp_ends h hb
  unfold attemptI at ha
  split at ha
  · next hp =>
    cases ha
    have := pTrue_sound hc hp
    simpa using e.1 this.1 this.2
  split at ha
  · next hp =>
    cases ha
    have := pFalse_sound hc hp
    simp only [Bool.false_eq_true, iff_false, not_not]
    by_contra hv
    exact e.2 this.1 hv this.2
  · cases ha

theorem stripBoolean_ok : ∀ {e : Expr}, e.ok = true → (stripBoolean e).ok = true := by
  intro e
  fun_induction stripBoolean e with
  | case1 a b hb ih => intro h; simp only [Expr.ok_bin, Bool.and_eq_true] at h; exact ih h.1
  | case2 => exact id
  | case3 => exact id

theorem stripBoolean_truth {ρ : Env} : ∀ {e : Expr}, eval m ρ (stripBoolean e) ≠ 0 ↔ eval m ρ e ≠ 0 := by
  intro e
  fun_induction stripBoolean e with
  | case1 a b hb ih =>
    rw [ih]
    have : eval m ρ b = 0 := (isTrue_sound m ρ b).2.1 hb
    simp [eval, BinOp.denote, b2i, this]
  | case2 => rfl
  | case3 => rfl

theorem stripBoolean_bool : ∀ {e : Expr}, isBoolean (stripBoolean e) = true → isBoolean e = true := by
  intro e
  fun_induction stripBoolean e with
  | case1 a b hb ih => intro _; rfl
  | case2 => exact id
  | case3 => exact id

/-- What `mutateBool` returns. -/
structure BoolRes (m : Mem) (ρ : Env) (r : Expr × SInfo) (v : Int) : Prop where
  truth : eval m ρ r.1 ≠ 0 ↔ v ≠ 0
  bounds : Encl m ρ r.2.bounds (b2i (v ≠ 0))
  nonneg : r.2.bounds.min.ok = true → 0 ≤ eval m ρ r.2.bounds.min

theorem b2i_nonneg {p : Prop} [Decidable p] : 0 ≤ b2i p := (b2i_range p).1
theorem b2i_ne {p : Prop} [Decidable p] : b2i p ≠ 0 ↔ p := by unfold b2i; split <;> simp_all

theorem BoolRes.boolOp {ρ : Env} {r : Expr × SInfo} {v : Int} (h : BoolRes m ρ r v) : BoolOp m ρ r.2.bounds (b2i (v ≠ 0)) :=
  .inr ⟨b2i_nonneg, h.nonneg⟩

theorem mutateBool_sound (hc : ∀ ρ, SimpCfgOK cfg m ρ) (h : Sound m rec) {e : Expr} (ho : e.ok = true) :
    (mutateBool cfg rec s e).1.ok = true ∧ ∀ ρ, StateOK m ρ s → BoolRes m ρ (mutateBool cfg rec s e) (eval m ρ e) := by
  obtain ⟨h1, h2⟩ := h s e ho
  refine ⟨stripBoolean_ok h1, fun ρ hs => ?_⟩
  have r : ResOK m ρ (rec s e) (eval m ρ e) := h2 ρ hs
  have ht : eval m ρ (stripBoolean (rec s e).1) ≠ 0 ↔ eval m ρ e ≠ 0 := by rw [stripBoolean_truth, r.value]
  unfold mutateBool
  by_cases hb : isBoolean (stripBoolean (rec s e).1) = true
  · simp only [hb, if_true]
    have hb' := stripBoolean_bool hb
    have hv : b2i (eval m ρ e ≠ 0) = eval m ρ e := by
      rw [← r.value]
      rcases isBoolean_sound m ρ _ hb' with h | h <;> rw [h] <;> simp [b2i]
    exact ⟨ht, by rw [hv]; exact r.info.bounds, r.nonneg hb'⟩
  · simp only [hb]
    refine ⟨ht, ?_, ?_⟩
    · have := boundsBin_sound_partial (hc ρ) (h.simp ρ) .ne (orig := none) (by simp) r.info.bounds
        (Encl.point_ok (a := .const 0) (v := 0) (by simp) (by simp [eval])) (by simp)
      simpa [BinOp.denote] using this
    · exact boundsBin_nonneg (hc ρ) rfl

/-! ### Variables -/

theorem visitScalar_good (h : Sound m rec) (x : Nat) (d : Int) :
    Good m s (visitScalar rec s x d) (fun ρ => ρ x) := by
  have hv : ∀ ρ, eval m ρ (.var x .none d) = ρ x := fun ρ => by simp [eval]
  have hvo : (Expr.var x .none d).ok = true := by simp [Expr.ok]
  have hnb : isBoolean (.var x .none d) = false := rfl
  unfold visitScalar
  simp only
  cases hx : s.vars x with
  | none =>
    refine .setR hvo fun ρ hs => ⟨hv ρ, ⟨.point_ok hvo (hv ρ), MR.mem_default _, fun h => by simp [Expr.ok] at h⟩, by simp [hnb]⟩
  | some i =>
    simp only
    split
    · next ho => exact .recur h ho fun ρ hs => (hs.vars x i hx).known ho
    · split
      · next c hp =>
        refine .setR (by simp) fun ρ hs => ?_
        have := pointConst_sound (hs.vars x i hx).bounds hp
        refine ⟨by simp [eval, this], ⟨.point_ok (by simp) (by simp [eval, this]), MR.mem_default _, fun h => by simp [Expr.ok] at h⟩, ?_⟩
        intro hb _
        rcases isBoolean_sound m ρ _ hb with h | h
        · simp only [Interval.point]; omega
        · simp only [Interval.point]; omega
      · refine .setR hvo fun ρ hs => ⟨hv ρ, ⟨(hs.vars x i hx).bounds.fill (lo_of_ok hvo (hv ρ).le) (hi_of_ok hvo (hv ρ).ge),
          (hs.vars x i hx).align, fun h => by simp [Expr.ok] at h⟩, by simp [hnb]⟩

theorem visitSymbol_sound {ρ : Env} (hs : StateOK m ρ s) (x : Nat) : ρ (visitSymbol s x) = ρ x := by
  unfold visitSymbol
  split
  · next i hi =>
    split
    · next y d hk =>
      have := (hs.vars x i hi).known (by rw [hk]; simp [Expr.ok])
      rw [hk] at this
      simpa [eval] using this
    · rfl
  · rfl

theorem eval_field {ρ : Env} {x : Nat} {f : Field} {d : Int} (hf : f ≠ .none) : eval m ρ (.var x f d) = m.field (ρ x) f d := by
  cases f <;> simp_all [eval]

theorem fieldInfo_sound {ρ : Env} {b : SBuf} {p : Int} (hb : SBufOK m ρ b p) {f : Field} {d : Int} {i : SInfo}
    (h : fieldInfo b f d = some i) : InfoOK m ρ i (m.field p f d) := by
  unfold fieldInfo at h
  split at h
  · next hf => subst hf; cases h; exact hb.elem d
  split at h
  · next hf =>
    simp only [Bool.and_eq_true, decide_eq_true_eq] at hf
    rw [Option.map_eq_some_iff] at h
    obtain ⟨D, hD, rfl⟩ := h
    have := hb.dims d.toNat D hD f hf.1
    rwa [Int.toNat_of_nonneg hf.2] at this
  · cases h

theorem visitField_good (hm : BufMem m) (h : Sound m rec) (x : Nat) {f : Field} (d : Int) (hf : f ≠ .none) :
    Good m s (visitField rec s x f d) (fun ρ => m.field (ρ x) f d) := by
  have hv : ∀ ρ, StateOK m ρ s → eval m ρ (.var (visitSymbol s x) f d) = m.field (ρ x) f d := fun ρ hs => by
    rw [eval_field hf, visitSymbol_sound hs]
  have hvo : (Expr.var (visitSymbol s x) f d).ok = true := by simp [Expr.ok]
  have hnb : isBoolean (.var (visitSymbol s x) f d) = false := rfl
  have hlo : ∀ ρ, StateOK m ρ s →
      LoOK m ρ (if f = .rank ∨ f = .elemSize then .const 0 else .var (visitSymbol s x) f d) (m.field (ρ x) f d) := by
    intro ρ hs
    split
    · next h => rcases h with rfl | rfl
                · exact lo_const (hm.rank_nonneg _ _)
                · exact lo_const (hm.elem_nonneg _ _)
    · exact lo_of_ok hvo (hv ρ hs).le
  have fin : ∀ (i : Interval) (a : MR), (∀ ρ, StateOK m ρ s → Encl m ρ i (m.field (ρ x) f d) ∧ MR.Mem (m.field (ρ x) f d) a) →
      Good m s (setR (.var (visitSymbol s x) f d) ⟨fillI i (if f = .rank ∨ f = .elemSize then .const 0 else .var (visitSymbol s x) f d)
        (.var (visitSymbol s x) f d), a, .undef⟩) (fun ρ => m.field (ρ x) f d) := by
    intro i a hi
    exact .setR hvo fun ρ hs => ⟨hv ρ hs, ⟨(hi ρ hs).1.fill (hlo ρ hs) (hi_of_ok hvo (hv ρ hs).ge), (hi ρ hs).2,
      fun h => by simp [Expr.ok] at h⟩, by simp [hnb]⟩
  unfold visitField
  simp only
  cases hx : s.bufs (visitSymbol s x) with
  | none => exact fin _ _ fun ρ _ => ⟨Encl.unbounded _, MR.mem_default _⟩
  | some b =>
    have hb : ∀ ρ, StateOK m ρ s → SBufOK m ρ b (ρ x) := fun ρ hs => by
      have := hs.bufs _ b hx
      rwa [visitSymbol_sound hs] at this
    simp only
    split
    · next hr =>
      refine .recur h (by simp) fun ρ hs => ?_
      rw [hm.beyond _ f d hr.1 (by rw [(hb ρ hs).rank hr.2.1]; exact hr.2.2)]
      simp [eval]
    · split
      · exact fin _ _ fun ρ _ => ⟨Encl.unbounded _, MR.mem_default _⟩
      · next i hi =>
        have hi' := fun ρ hs => fieldInfo_sound (hb ρ hs) hi
        split
        · next v hval =>
          split
          · exact .recur h (value_ok hval) fun ρ hs => ((hi' ρ hs).value hval).2
          · exact fin _ _ fun ρ hs => ⟨(hi' ρ hs).bounds, (hi' ρ hs).align⟩
        · exact fin _ _ fun ρ hs => ⟨(hi' ρ hs).bounds, (hi' ρ hs).align⟩

/-! ### Operators -/

theorem sBlt_false {ρ : Env} (hc : SimpCfgOK cfg m ρ) {a b : Expr} (h : pFalse cfg (sB cfg .lt a b) = true) :
    a.ok = true ∧ b.ok = true ∧ eval m ρ b ≤ eval m ρ a := by
  have hp := pFalse_sound hc h
  rcases sB_cases hc .lt (by simp) (by simp) a b with ⟨h1, h2, -, e⟩ | e
  · refine ⟨h1, h2, ?_⟩
    rw [e] at hp
    have := hp.2
    simp only [BinOp.denote, b2i] at this
    split at this
    · simp at this
    · omega
  · rw [e, noInfo_not_ok] at hp; simp at hp

theorem lessEq_sound {ρ : Env} (hc : SimpCfgOK cfg m ρ) {a aMax b bMin : Expr} {va vb : Int} (ha : eval m ρ a = va)
    (hb : eval m ρ b = vb) (h1 : HiOK m ρ aMax va) (h2 : LoOK m ρ bMin vb) (h : lessEq cfg a aMax b bMin = true) : va ≤ vb := by
  simp only [lessEq, Bool.or_eq_true, Bool.and_eq_true] at h
  rcases h with (h | ⟨-, h⟩) | ⟨-, h⟩
  · obtain ⟨o1, o2, h⟩ := sBlt_false hc h
    have := h1.2 o2; have := h2.2 o1; omega
  · obtain ⟨o1, o2, h⟩ := sBlt_false hc h
    have := h2.2 o1; omega
  · obtain ⟨o1, o2, h⟩ := sBlt_false hc h
    have := h1.2 o2; omega

theorem visitMinMax_good (hc : ∀ ρ, SimpCfgOK cfg m ρ) (h : Sound m rec) {op : BinOp} (hop : op = .min ∨ op = .max) {a0 b0 : Expr}
    (ha : a0.ok = true) (hb : b0.ok = true) :
    Good m s (visitMinMax cfg rec s op a0 b0) (fun ρ => op.denote (eval m ρ a0) (eval m ρ b0)) := by
  have ra := h s a0 ha
  have rb := h s b0 hb
  unfold visitMinMax
  simp only [ok_defined ra.1, ok_defined rb.1, Bool.not_true, Bool.or_self, Bool.false_eq_true, if_false]
  split
  · next hl =>
    have hle : ∀ ρ, StateOK m ρ s → eval m ρ a0 ≤ eval m ρ b0 := fun ρ hs =>
      lessEq_sound (hc ρ) (ra.2 ρ hs).value (rb.2 ρ hs).value (ra.2 ρ hs).info.bounds.hi (rb.2 ρ hs).info.bounds.lo hl
    rcases hop with rfl | rfl
    · exact ra.setRes fun ρ hs => by have := hle ρ hs; simp only [BinOp.denote]; omega
    · exact rb.setRes fun ρ hs => by have := hle ρ hs; simp only [BinOp.denote]; omega
  split
  · next hl =>
    have hle : ∀ ρ, StateOK m ρ s → eval m ρ b0 ≤ eval m ρ a0 := fun ρ hs =>
      lessEq_sound (hc ρ) (rb.2 ρ hs).value (ra.2 ρ hs).value (rb.2 ρ hs).info.bounds.hi (ra.2 ρ hs).info.bounds.lo hl
    rcases hop with rfl | rfl
    · exact rb.setRes fun ρ hs => by have := hle ρ hs; simp only [BinOp.denote]; omega
    · exact ra.setRes fun ρ hs => by have := hle ρ hs; simp only [BinOp.denote]; omega
  have hr := fun ρ => simplifyBin_sound_partial m ρ (hc ρ).g op ra.1 rb.1
  have hval : ∀ ρ, StateOK m ρ s → eval m ρ (simplifyBin cfg.g op (rec s a0).1 (rec s b0).1) =
      op.denote (eval m ρ a0) (eval m ρ b0) := fun ρ hs => by
    rw [(hr ρ).1, (ra.2 ρ hs).value, (rb.2 ρ hs).value]
  split
  · next he =>
    refine .setR (hr (fun _ => 0)).2 fun ρ hs => ⟨hval ρ hs, ⟨?_, ?_, fun h => by simp [Expr.ok] at h⟩, ?_⟩
    · exact boundsBin_sound_partial (hc ρ) (h.simp ρ) op (by rcases hop with rfl | rfl <;> simp) (ra.2 ρ hs).info.bounds
        (rb.2 ρ hs).info.bounds (by rcases hop with rfl | rfl <;> simp)
    · refine MR.union_sound ?_
      have e1 := (ra.2 ρ hs).info.align
      have e2 := (rb.2 ρ hs).info.align
      rcases hop with rfl | rfl
      · simp only [BinOp.denote]
        rcases min_choice (eval m ρ a0) (eval m ρ b0) with h | h <;> rw [h]
        · exact .inl e1
        · exact .inr e2
      · simp only [BinOp.denote]
        rcases max_choice (eval m ρ a0) (eval m ρ b0) with h | h <;> rw [h]
        · exact .inl e1
        · exact .inr e2
    · rw [he, isBoolean_bin]; rcases hop with rfl | rfl <;> simp [BinOp.isLogic]
  · exact .recur h (hr (fun _ => 0)).2 hval

theorem modulusOf_sound {ρ : Env} (hc : SimpCfgOK cfg m ρ) (op : BinOp) {a b : MR} {x y : Int} (ha : MR.Mem x a) (hb : MR.Mem y b) :
    MR.Mem (op.denote x y) (modulusOf cfg op a b) := by
  cases op <;> simp only [modulusOf, BinOp.denote] <;> try exact MR.mem_default _
  · exact MR.add_sound ha hb
  · exact MR.sub_sound ha hb
  · exact MR.mul_sound ha hb
  · split
    · next hr =>
      cases h : MR.div a b with
      | none => exact MR.mem_default _
      | some c => exact MR.div_sound ha hb hr.1 hr.2 h
    · exact MR.mem_default _
  · split
    · next h =>
      rw [hc.modUnnormalized, Bool.false_or, decide_eq_true_eq] at h
      refine MR.mod_sound_partial ha hb fun h0 => h ?_
      rw [MR.mem_iff] at h0
      simpa using h0
    · exact MR.mem_default _

theorem mulRule_sound (h : Sound m rec) {a b r : Expr} (ha : a.ok = true) (he : mulRule rec s a b = some r) :
    r.ok = true ∧ ∀ ρ, StateOK m ρ s → eval m ρ r = eval m ρ a * eval m ρ b := by
  unfold mulRule at he
  split at he
  · next x0 c0 c1 =>
    split at he
    · cases he
    · next h0 =>
      simp only at he
      split at he
      · next hcond =>
        cases he
        have hx : x0.ok = true := by simpa using ha
        have hr := h s x0 hx
        refine ⟨by simp [hr.1], fun ρ hs => ?_⟩
        have hal : MR.Mem (eval m ρ x0) _ := (hr.2 ρ hs).info.align
        rw [eval_mkBin, eval_mkBin, (hr.2 ρ hs).value]
        simp only [eval]
        set v := eval m ρ x0 with hvd
        have hd : c0 ∣ v := by
          obtain ⟨y, hy⟩ := hal
          have h1 : c0 ∣ (rec s x0).2.align.m := Int.dvd_of_tmod_eq_zero hcond.2.1
          have h2 : c0 ∣ (rec s x0).2.align.r := Int.dvd_of_tmod_eq_zero hcond.2.2
          rw [hy]
          exact dvd_add (h1.mul_right y) h2
        obtain ⟨w, hw⟩ := hd
        rw [hw, denote_div, denote_div]
        simp only [BinOp.denote]
        rw [Int.mul_ediv_cancel_left _ h0, mul_assoc, Int.mul_ediv_cancel_left _ h0]
      · cases he
  · cases he

theorem divParts_sound {ρ : Env} {a b x : Expr} {c0 c1 : Int} (ha : a.ok = true) :
    (divParts addPat a b = some (x, c0, c1) → x.ok = true ∧ b = .const c1 ∧ eval m ρ a = eval m ρ x + c0) ∧
    (divParts subPat a b = some (x, c0, c1) → x.ok = true ∧ b = .const c1 ∧ eval m ρ a = c0 - eval m ρ x) := by
  constructor
  · intro h
    unfold divParts at h
    split at h
    · next c c1' hm hc1 =>
      split at h
      · next x' c0' h0 h1 =>
        simp only [Option.some.injEq, Prod.mk.injEq] at h
        obtain ⟨rfl, rfl, rfl⟩ := h
        have hs := matchAny_sound m ρ (p := addPat) rfl ha hm
        refine ⟨hs.ok (fun i e h => by simp [MCtx.empty] at h) 0 _ h0, asConst_eq hc1, ?_⟩
        have := hs.val c (MCtx.Ext.refl _) (fun _ _ => false)
        simp only [Rel, patVal, addPat, MCtx.σ, MCtx.κ, h0, h1, Option.getD_some] at this
        simpa [BinOp.denote] using this.symm
      · cases h
    · cases h
  · intro h
    unfold divParts at h
    split at h
    · next c c1' hm hc1 =>
      split at h
      · next x' c0' h0 h1 =>
        simp only [Option.some.injEq, Prod.mk.injEq] at h
        obtain ⟨rfl, rfl, rfl⟩ := h
        have hs := matchAny_sound m ρ (p := subPat) rfl ha hm
        refine ⟨hs.ok (fun i e h => by simp [MCtx.empty] at h) 0 _ h0, asConst_eq hc1, ?_⟩
        have := hs.val c (MCtx.Ext.refl _) (fun _ _ => false)
        simp only [Rel, patVal, subPat, MCtx.σ, MCtx.κ, h0, h1, Option.getD_some] at this
        simpa [BinOp.denote] using this.symm
      · cases h
    · cases h

theorem ediv_aligned {v y mm r c : Int} (h : v = mm * y + r) (hd : emod mm c = 0) (k : Int) :
    (v + k) / c = mm / c * y + (r + k) / c := by
  by_cases h0 : c = 0
  · subst h0; simp
  · have hd : c ∣ mm := by
      simp only [emod, h0, if_false] at hd
      exact Int.dvd_of_emod_eq_zero hd
    obtain ⟨w, rfl⟩ := hd
    rw [Int.mul_ediv_cancel_left _ h0, h, show c * w * y + r + k = (r + k) + c * (w * y) by ring,
      Int.add_mul_ediv_left _ _ h0]
    omega

theorem divRuleAdd_sound {al : MR} {a b r : Expr} (ha : a.ok = true) (he : divRuleAdd al a b = some r) :
    r.ok = true ∧ ∀ ρ, MR.Mem (eval m ρ a) al → eval m ρ r = ediv (eval m ρ a) (eval m ρ b) := by
  unfold divRuleAdd at he
  split at he
  · next x c0 c1 hp =>
    simp only at he
    split at he
    · next hcond =>
      cases he
      have hx := (divParts_sound (m := m) (ρ := fun _ => 0) ha).1 hp
      refine ⟨(substBinE_correct m (fun _ => 0) .add (substBinE_correct m (fun _ => 0) .div hx.1 (by simp)).2 (by simp)).2, ?_⟩
      intro ρ hal
      obtain ⟨h3, rfl, h4⟩ := (divParts_sound (m := m) (ρ := ρ) ha).1 hp
      have s1 := substBinE_correct m ρ .div h3 (b := .const c1) (by simp)
      rw [(substBinE_correct m ρ .add s1.2 (b := .const _) (by simp)).1, s1.1, denote_div]
      simp only [eval, BinOp.denote, ediv]
      obtain ⟨y, hy⟩ := hal
      by_cases h0 : c1 = 0
      · subst h0; simp
      have e1 := ediv_aligned hy hcond.1 0
      have e2 := ediv_aligned hy hcond.1 (-c0)
      rw [add_zero, add_zero] at e1
      rw [e1, show eval m ρ x = eval m ρ a + -c0 by omega, e2, show al.r + -c0 = al.r - c0 by omega]
      ring
    · cases he
  · cases he

theorem divRuleSub_sound {al : MR} {a b r : Expr} (ha : a.ok = true) (he : divRuleSub al a b = some r) :
    r.ok = true ∧ ∀ ρ, MR.Mem (eval m ρ a) al → eval m ρ r = ediv (eval m ρ a) (eval m ρ b) := by
  unfold divRuleSub at he
  split at he
  · next x c0 c1 hp =>
    simp only at he
    split at he
    · next hcond =>
      cases he
      have hx := (divParts_sound (m := m) (ρ := fun _ => 0) ha).2 hp
      refine ⟨(substBinE_correct m (fun _ => 0) .sub (by simp) (substBinE_correct m (fun _ => 0) .div hx.1 (by simp)).2).2, ?_⟩
      intro ρ hal
      obtain ⟨h3, rfl, h4⟩ := (divParts_sound (m := m) (ρ := ρ) ha).2 hp
      have s1 := substBinE_correct m ρ .div h3 (b := .const c1) (by simp)
      rw [(substBinE_correct m ρ .sub (a := .const _) (by simp) s1.2).1, s1.1, denote_div]
      simp only [eval, BinOp.denote, ediv]
      obtain ⟨y, hy⟩ := hal
      by_cases h0 : c1 = 0
      · subst h0; simp
      have e1 := ediv_aligned hy hcond.1 0
      have e2 := ediv_aligned (v := - eval m ρ a) (y := -y) (mm := al.m) (r := -al.r) (c := c1)
        (by rw [hy]; ring) hcond.1 c0
      rw [add_zero, add_zero] at e1
      rw [e1, show eval m ρ x = - eval m ρ a + c0 by omega, e2, show -al.r + c0 = c0 - al.r by omega]
      ring
    · cases he
  · cases he

theorem divRule_sound {al : MR} {a b r : Expr} (ha : a.ok = true) (he : divRule al a b = some r) :
    r.ok = true ∧ ∀ ρ, MR.Mem (eval m ρ a) al → eval m ρ r = ediv (eval m ρ a) (eval m ρ b) := by
  unfold divRule at he
  split at he
  · next r' h => cases he; exact divRuleAdd_sound ha h
  · exact divRuleSub_sound ha he

theorem modRule_sound {al : MR} {b r : Expr} (he : modRule al b = some r) :
    r.ok = true ∧ ∀ (ρ : Env) (v : Int), MR.Mem v al → eval m ρ r = emod v (eval m ρ b) := by
  unfold modRule at he
  split at he
  · next c0 =>
    split at he
    · next hd =>
      cases he
      refine ⟨by simp, fun ρ v hal => ?_⟩
      obtain ⟨y, hy⟩ := hal
      simp only [eval, emod]
      by_cases h0 : c0 = 0
      · simp [h0]
      · simp only [emod, h0, if_false] at hd ⊢
        obtain ⟨w, hw⟩ := Int.dvd_of_emod_eq_zero hd
        rw [hy, hw, show c0 * w * y + al.r = al.r + c0 * (w * y) by ring, Int.add_mul_emod_self_left]
    · cases he
  · cases he

theorem visitBin_good (hc : ∀ ρ, SimpCfgOK cfg m ρ) (h : Sound m rec) {op : BinOp} (hop : op.isLogic = false) {a0 b0 : Expr}
    (ha : a0.ok = true) (hb : b0.ok = true) :
    Good m s (visitBin cfg rec s op a0 b0) (fun ρ => op.denote (eval m ρ a0) (eval m ρ b0)) := by
  have ra := h s a0 ha
  have rb := h s b0 hb
  unfold visitBin
  simp only [ok_defined ra.1, ok_defined rb.1, Bool.not_true, Bool.or_self, Bool.false_eq_true, if_false]
  split
  · next r he =>
    have key : r.ok = true ∧ ∀ ρ, StateOK m ρ s → eval m ρ r = op.denote (eval m ρ (rec s a0).1) (eval m ρ (rec s b0).1) := by
      cases op <;> simp only [alignRule] at he <;> try cases he
      · have := mulRule_sound h ra.1 he
        exact ⟨this.1, fun ρ hs => by rw [this.2 ρ hs]; rfl⟩
      · have := divRule_sound (m := m) ra.1 he
        exact ⟨this.1, fun ρ hs => by rw [this.2 ρ (by rw [(ra.2 ρ hs).value]; exact (ra.2 ρ hs).info.align)]; rfl⟩
      · have := modRule_sound (m := m) he
        exact ⟨this.1, fun ρ hs => by
          rw [this.2 ρ (eval m ρ (rec s a0).1) (by rw [(ra.2 ρ hs).value]; exact (ra.2 ρ hs).info.align)]; rfl⟩
    exact .recur h key.1 fun ρ hs => by rw [key.2 ρ hs, (ra.2 ρ hs).value, (rb.2 ρ hs).value]
  · have hr := fun ρ => simplifyBin_sound_partial m ρ (hc ρ).g op ra.1 rb.1
    have hval : ∀ ρ, StateOK m ρ s → eval m ρ (simplifyBin cfg.g op (rec s a0).1 (rec s b0).1) =
        op.denote (eval m ρ a0) (eval m ρ b0) := fun ρ hs => by
      rw [(hr ρ).1, (ra.2 ρ hs).value, (rb.2 ρ hs).value]
    split
    · next he =>
      refine .setR (hr (fun _ => 0)).2 fun ρ hs => ⟨hval ρ hs, InfoOK.trim ⟨?_, ?_, fun h => by simp [Expr.ok] at h⟩, ?_⟩
      · refine boundsBin_sound_partial (hc ρ) (h.simp ρ) op (fun _ x y he => ?_) (ra.2 ρ hs).info.bounds (rb.2 ρ hs).info.bounds
          (by rintro (rfl | rfl) <;> simp [BinOp.isLogic] at hop)
        simp only [Option.some.injEq, Prod.mk.injEq] at he
        obtain ⟨rfl, rfl⟩ := he
        exact ⟨ha, hb, rfl, rfl⟩
      · exact modulusOf_sound (hc ρ) op (ra.2 ρ hs).info.align (rb.2 ρ hs).info.align
      · rw [he, isBoolean_bin, hop]; simp
    · exact .recur h (hr (fun _ => 0)).2 hval

theorem visitAdd_good (hc : ∀ ρ, SimpCfgOK cfg m ρ) (h : Sound m rec) {a0 b0 : Expr} (ha : a0.ok = true) (hb : b0.ok = true) :
    Good m s (visitAdd cfg rec s a0 b0) (fun ρ => BinOp.denote .add (eval m ρ a0) (eval m ρ b0)) := by
  unfold visitAdd
  simp only
  split
  · next e he =>
    split at he
    · next c hcb =>
      have := fun ρ => addConstant_sound (m := m) (ρ := ρ) he ha
      refine .recur h (this (fun _ => 0)).1 fun ρ _ => ?_
      rw [(this ρ).2, asConst_eq hcb]; simp [eval, BinOp.denote]
    · cases he
  · exact visitBin_good hc h rfl ha hb

/-! ### Conditions -/

theorem provenR_good (p : Bool) {v : Env → Int} (hv : ∀ ρ, StateOK m ρ s → v ρ = if p then 1 else 0) : Good m s (provenR p) v := by
  unfold provenR
  refine .setR (by simp) fun ρ hs => ?_
  rw [hv ρ hs]
  refine ⟨by simp [eval], ⟨.point_ok (by simp) (by simp [eval]), MR.mem_default _, fun h => by simp [Expr.ok] at h⟩, ?_⟩
  intro _ _
  cases p <;> simp [Interval.point, eval]

theorem logic_b2i {op : BinOp} (h : op.isLogic = true) (x y : Int) : op.denote x y = if op.denote x y ≠ 0 then 1 else 0 := by
  cases op <;> simp [BinOp.isLogic] at h <;> simp only [BinOp.denote] <;> unfold b2i <;> split <;> simp

/-- The operands `a`, `b` of `op` have the values `va`, `vb`, possibly coerced to booleans. -/
theorem visitLogical_core (hc : ∀ ρ, SimpCfgOK cfg m ρ) (h : Sound m rec) {op : BinOp} (hop : op.isLogic = true) {a0 b0 : Expr}
    {a b : Expr × SInfo} {va vb v : Env → Int} (ha : a.1.ok = true) (hb : b.1.ok = true)
    (hv : ∀ ρ, StateOK m ρ s → op.denote (eval m ρ a.1) (eval m ρ b.1) = v ρ ∧ op.denote (va ρ) (vb ρ) = v ρ ∧
      op.denote (eval m ρ a.1) (vb ρ) = v ρ ∧ op.denote (va ρ) (eval m ρ b.1) = v ρ)
    (hi : ∀ ρ, StateOK m ρ s → Encl m ρ a.2.bounds (va ρ) ∧ Encl m ρ b.2.bounds (vb ρ))
    (hl : ∀ ρ, StateOK m ρ s → op = .and ∨ op = .or → BoolOp m ρ a.2.bounds (va ρ) ∧ BoolOp m ρ b.2.bounds (vb ρ)) :
    Good m s (
      let r := simplifyBin cfg.g op a.1 b.1
      if !a.1.defined || !b.1.defined then (.undef, .empty)
      else if r = .bin op a0 b0 then
        let bs := boundsBin cfg rec.simp op (some (a0, b0)) a.2.bounds b.2.bounds
        match attemptI cfg bs with
        | some p => provenR p
        | none =>
          match attemptI cfg (boundsBin cfg rec.simp op (some (a0, b0)) (.point a.1) b.2.bounds) with
          | some p => provenR p
          | none =>
            match attemptI cfg (boundsBin cfg rec.simp op (some (a0, b0)) a.2.bounds (.point b.1)) with
            | some p => provenR p
            | none => setR r ⟨bs, {}, .undef⟩
      else rec s r) v := by
  have hr := fun ρ => simplifyBin_sound_partial m ρ (hc ρ).g op ha hb
  have hval : ∀ ρ, StateOK m ρ s → eval m ρ (simplifyBin cfg.g op a.1 b.1) = v ρ := fun ρ hs => by
    rw [(hr ρ).1, (hv ρ hs).1]
  have hns : ¬ (op = .add ∨ op = .sub) := by rintro (rfl | rfl) <;> simp [BinOp.isLogic] at hop
  have pr : ∀ (ia ib : Interval) (p : Bool), attemptI cfg (boundsBin cfg rec.simp op (some (a0, b0)) ia ib) = some p →
      (∀ ρ, StateOK m ρ s → Encl m ρ (boundsBin cfg rec.simp op (some (a0, b0)) ia ib) (v ρ)) → Good m s (provenR p) v := by
    intro ia ib p hp he
    refine provenR_good p fun ρ hs => ?_
    have h1 : v ρ = if v ρ ≠ 0 then 1 else 0 := by
      have := logic_b2i hop (va ρ) (vb ρ); rw [(hv ρ hs).2.1] at this; exact this
    have h0 : 0 ≤ v ρ := by rw [h1]; split <;> simp
    have := attemptI_sound (hc ρ) (he ρ hs) (.inr ⟨h0, boundsBin_nonneg (hc ρ) hop⟩) hp
    rw [h1]; simp only [this]
  have ptA : ∀ ρ, Encl m ρ (.point a.1) (eval m ρ a.1) ∧ BoolOp m ρ (.point a.1) (eval m ρ a.1) := fun ρ =>
    ⟨.point_ok ha rfl, .inl (by simp [Interval.isPoint, Interval.point, ok_defined ha])⟩
  have ptB : ∀ ρ, Encl m ρ (.point b.1) (eval m ρ b.1) ∧ BoolOp m ρ (.point b.1) (eval m ρ b.1) := fun ρ =>
    ⟨.point_ok hb rfl, .inl (by simp [Interval.isPoint, Interval.point, ok_defined hb])⟩
  have e1 : ∀ ρ, StateOK m ρ s → Encl m ρ (boundsBin cfg rec.simp op (some (a0, b0)) a.2.bounds b.2.bounds) (v ρ) := fun ρ hs => by
    rw [← (hv ρ hs).2.1]
    exact boundsBin_sound_partial (hc ρ) (h.simp ρ) op (fun h => absurd h hns) (hi ρ hs).1 (hi ρ hs).2 (hl ρ hs)
  have e2 : ∀ ρ, StateOK m ρ s → Encl m ρ (boundsBin cfg rec.simp op (some (a0, b0)) (.point a.1) b.2.bounds) (v ρ) := fun ρ hs => by
    rw [← (hv ρ hs).2.2.1]
    exact boundsBin_sound_partial (hc ρ) (h.simp ρ) op (fun h => absurd h hns) (ptA ρ).1 (hi ρ hs).2
      (fun h => ⟨(ptA ρ).2, (hl ρ hs h).2⟩)
  have e3 : ∀ ρ, StateOK m ρ s → Encl m ρ (boundsBin cfg rec.simp op (some (a0, b0)) a.2.bounds (.point b.1)) (v ρ) := fun ρ hs => by
    rw [← (hv ρ hs).2.2.2]
    exact boundsBin_sound_partial (hc ρ) (h.simp ρ) op (fun h => absurd h hns) (hi ρ hs).1 (ptB ρ).1
      (fun h => ⟨(hl ρ hs h).1, (ptB ρ).2⟩)
  simp only [ok_defined ha, ok_defined hb, Bool.not_true, Bool.or_self, Bool.false_eq_true, if_false]
  split
  · split
    · next p hp => exact pr _ _ p hp e1
    split
    · next p hp => exact pr _ _ p hp e2
    split
    · next p hp => exact pr _ _ p hp e3
    · exact .setR (hr (fun _ => 0)).2 fun ρ hs => ⟨hval ρ hs, ⟨e1 ρ hs, MR.mem_default _, fun h => by simp [Expr.ok] at h⟩,
        fun _ => boundsBin_nonneg (hc ρ) hop⟩
  · exact .recur h (hr (fun _ => 0)).2 hval

theorem logic_truth {op : BinOp} (h : op = .and ∨ op = .or) {x y x' y' : Int} (hx : x ≠ 0 ↔ x' ≠ 0) (hy : y ≠ 0 ↔ y' ≠ 0) :
    op.denote x y = op.denote x' y' := by
  rcases h with rfl | rfl <;> simp only [BinOp.denote, b2i, hx, hy]

theorem visitLogical_good (hc : ∀ ρ, SimpCfgOK cfg m ρ) (h : Sound m rec) {op : BinOp} (hop : op.isLogic = true) {coerce : Bool}
    (hco : coerce = true ↔ op = .and ∨ op = .or) {a0 b0 : Expr} (ha : a0.ok = true) (hb : b0.ok = true) :
    Good m s (visitLogical cfg rec s op coerce a0 b0) (fun ρ => op.denote (eval m ρ a0) (eval m ρ b0)) := by
  unfold visitLogical
  cases coerce with
  | false =>
    have ra := h s a0 ha
    have rb := h s b0 hb
    refine visitLogical_core hc h hop (va := fun ρ => eval m ρ a0) (vb := fun ρ => eval m ρ b0) ra.1 rb.1 (fun ρ hs => ?_)
      (fun ρ hs => ⟨(ra.2 ρ hs).info.bounds, (rb.2 ρ hs).info.bounds⟩) (fun ρ hs hl => by simpa using hco.2 hl)
    simp only [Bool.false_eq_true, if_false, (ra.2 ρ hs).value, (rb.2 ρ hs).value, and_self]
  | true =>
    have ra := mutateBool_sound (s := s) hc h ha
    have rb := mutateBool_sound (s := s) hc h hb
    have hop' := hco.1 rfl
    refine visitLogical_core hc h hop (va := fun ρ => b2i (eval m ρ a0 ≠ 0)) (vb := fun ρ => b2i (eval m ρ b0 ≠ 0)) ra.1 rb.1
      (fun ρ hs => ?_) (fun ρ hs => ⟨(ra.2 ρ hs).bounds, (rb.2 ρ hs).bounds⟩)
      (fun ρ hs _ => ⟨(ra.2 ρ hs).boolOp, (rb.2 ρ hs).boolOp⟩)
    have ta := (ra.2 ρ hs).truth
    have tb := (rb.2 ρ hs).truth
    exact ⟨logic_truth hop' ta tb, logic_truth hop' b2i_ne b2i_ne, logic_truth hop' ta b2i_ne, logic_truth hop' b2i_ne tb⟩

theorem visitNot_good (hc : ∀ ρ, SimpCfgOK cfg m ρ) (h : Sound m rec) {a0 : Expr} (ha : a0.ok = true) :
    Good m s (visitNot cfg rec s a0) (fun ρ => eval m ρ (.not a0)) := by
  have ra := mutateBool_sound (s := s) hc h ha
  unfold visitNot
  simp only [ok_defined ra.1, Bool.not_true, Bool.false_eq_true, if_false]
  split
  · next p hp =>
    refine provenR_good _ fun ρ hs => ?_
    have := attemptI_sound (hc ρ) (ra.2 ρ hs).bounds (ra.2 ρ hs).boolOp hp
    rw [b2i_ne] at this
    simp only [eval, b2i]
    cases p <;> simp_all
  · have hr := fun ρ => simplifyNot_sound m ρ (hc ρ).g ra.1
    have hval : ∀ ρ, StateOK m ρ s → eval m ρ (simplifyNot cfg.g (mutateBool cfg rec s a0).1) = eval m ρ (.not a0) := fun ρ hs => by
      rw [(hr ρ).1]
      have := (ra.2 ρ hs).truth
      simp only [eval, b2i]
      by_cases h0 : eval m ρ a0 = 0 <;> simp_all
    split
    · next he =>
      refine .setR (hr (fun _ => 0)).2 fun ρ hs => ⟨hval ρ hs, ⟨?_, MR.mem_default _, fun h => by simp [Expr.ok] at h⟩,
        fun _ => boundsNot_nonneg (hc ρ)⟩
      have := boundsNot_sound (hc ρ) (ra.2 ρ hs).bounds (ra.2 ρ hs).boolOp
      have e : b2i (b2i (eval m ρ a0 ≠ 0) = 0) = eval m ρ (.not a0) := by
        simp only [eval, b2i]; by_cases h0 : eval m ρ a0 = 0 <;> simp [h0]
      rwa [e] at this
    · exact .recur h (hr (fun _ => 0)).2 hval

theorem visitBranch_good (h : Sound m rec) {k : Know} (hw : FactsWF k) {e : Expr} (ho : e.ok = true) :
    (visitBranch rec k e).1.ok = true ∧ ∀ ρ, KnowOK m ρ k → ResOK m ρ (visitBranch rec k e) (eval m ρ e) := by
  have hr := h k.1 e ho
  have hl := applyFacts_ok hw hr.1
  have h2 := h k.1 _ hl
  unfold visitBranch
  simp only
  split
  · exact ⟨hr.1, fun ρ hk => hr.2 ρ hk.state⟩
  · refine ⟨h2.1, fun ρ hk => ?_⟩
    have : ResOK m ρ _ (eval m ρ (applyFacts k.2 (rec k.1 e).1)) := h2.2 ρ hk.state
    rwa [applyFacts_sound hw hk.facts, (hr.2 ρ hk.state).value] at this

theorem visitSelect_good (hm : BufMem m) (hc : ∀ ρ, SimpCfgOK cfg m ρ) (h : Sound m rec) {c0 t0 f0 : Expr} (hco : c0.ok = true)
    (ht : t0.ok = true) (hf : f0.ok = true) :
    Good m s (visitSelect cfg rec s c0 t0 f0) (fun ρ => if eval m ρ c0 ≠ 0 then eval m ρ t0 else eval m ρ f0) := by
  have rc := mutateBool_sound (s := s) hc h hco
  unfold visitSelect
  simp only [ok_defined rc.1, Bool.not_true, Bool.false_eq_true, if_false]
  split
  · next p hp =>
    refine .recur h (by split <;> assumption) fun ρ hs => ?_
    have := attemptI_sound (hc ρ) (rc.2 ρ hs).bounds (rc.2 ρ hs).boolOp hp
    rw [b2i_ne] at this
    cases p <;> simp_all
  · have w0 : FactsWF (s, []) := fun p hp => by simp at hp
    have hsp := (hc (fun _ => 0)).splitMinMax
    have wt := learn_wf hsp (mutateBool cfg rec s c0).1 true (s, []) rc.1 w0
    have wf := learn_wf hsp (mutateBool cfg rec s c0).1 false (s, []) rc.1 w0
    have bt := visitBranch_good h wt ht
    have bf := visitBranch_good h wf hf
    have k0 : ∀ ρ, StateOK m ρ s → KnowOK m ρ (s, []) := fun ρ hs => ⟨hs, fun p hp => by simp at hp⟩
    have bt' : ∀ ρ, StateOK m ρ s → eval m ρ c0 ≠ 0 → _ := fun ρ hs hv =>
      bt.2 ρ (learn_sound hm (hc ρ) _ true (s, []) rc.1 (by simpa [Holds] using (rc.2 ρ hs).truth.2 hv) (k0 ρ hs))
    have bf' : ∀ ρ, StateOK m ρ s → eval m ρ c0 = 0 → _ := fun ρ hs hv =>
      bf.2 ρ (learn_sound hm (hc ρ) _ false (s, []) rc.1 (by
        have := (rc.2 ρ hs).truth
        simp only [Holds, Bool.false_eq_true, if_false]
        by_contra hn
        exact this.1 hn hv) (k0 ρ hs))
    have hr := fun ρ => simplifySelect_sound_partial m ρ (hc ρ).g rc.1 bt.1 bf.1
    have hval : ∀ ρ, StateOK m ρ s → eval m ρ (simplifySelect cfg.g (mutateBool cfg rec s c0).1
        (visitBranch rec (learn cfg true (mutateBool cfg rec s c0).1 (s, [])) t0).1
        (visitBranch rec (learn cfg false (mutateBool cfg rec s c0).1 (s, [])) f0).1) =
        if eval m ρ c0 ≠ 0 then eval m ρ t0 else eval m ρ f0 := fun ρ hs => by
      rw [(hr ρ).1]
      simp only [eval]
      by_cases hv : eval m ρ c0 = 0
      · have := (rc.2 ρ hs).truth
        rw [if_neg (fun h => this.1 h hv), if_neg (by simpa using hv)]
        exact (bf' ρ hs hv).value
      · rw [if_pos ((rc.2 ρ hs).truth.2 hv), if_pos hv]
        exact (bt' ρ hs hv).value
    split
    · next he =>
      refine .setR (hr (fun _ => 0)).2 fun ρ hs => ⟨hval ρ hs, InfoOK.trim ⟨?_, ?_, fun h => by simp [Expr.ok] at h⟩, ?_⟩
      · have := boundsSelect_sound (hc ρ) (orig := some (c0, t0, f0)) (vt := eval m ρ t0) (vf := eval m ρ f0)
          (rc.2 ρ hs).bounds (rc.2 ρ hs).boolOp (fun hv => (bt' ρ hs (b2i_ne.1 hv)).info.bounds)
          (fun hv => (bf' ρ hs (by by_contra hn; exact b2i_ne.2 hn hv)).info.bounds)
        simpa only [b2i_ne] using this
      · refine MR.union_sound ?_
        by_cases hv : eval m ρ c0 = 0
        · rw [if_neg (by simpa using hv)]; exact .inr (bf' ρ hs hv).info.align
        · rw [if_pos hv]; exact .inl (bt' ρ hs hv).info.align
      · rw [he]; simp [isBoolean, isBooleanNode, isOne, isZero, asConst]
    · exact .recur h (hr (fun _ => 0)).2 hval

end

end Slinky
