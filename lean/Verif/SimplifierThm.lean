import Verif.SimplifierVisit

/-! # C17, C18: simplification, bounds and proofs with the knowledge of bounds and alignments -/

namespace Slinky

section
variable {m : Mem} {cfg : SimpCfg} {rec : Rec} {s : SState}

/-! ### Proofs -/

theorem whereTrue_sound (hc : ∀ ρ, SimpCfgOK cfg m ρ) (h : Sound m rec) {e : Expr} (ho : e.ok = true) {ρ : Env} (hs : StateOK m ρ s) :
    Encl m ρ (whereTrue cfg rec s e) (b2i (eval m ρ e ≠ 0)) ∧ BoolOp m ρ (whereTrue cfg rec s e) (b2i (eval m ρ e ≠ 0)) := by
  have := (mutateBool_sound (s := { s with proving := true }) hc h ho).2 ρ (hs.proving true)
  exact ⟨this.bounds, this.boolOp⟩

theorem proveTrueS_sound (hc : ∀ ρ, SimpCfgOK cfg m ρ) (h : Sound m rec) {e : Expr} (ho : e.ok = true) {ρ : Env} (hs : StateOK m ρ s)
    (hp : proveTrueS cfg rec s e = true) : eval m ρ e ≠ 0 := by
  obtain ⟨h1, h2⟩ := whereTrue_sound hc h ho hs
  have := pTrue_sound (hc ρ) hp
  exact b2i_ne.1 ((boolOp_ends h1 h2).1 this.1 this.2)

theorem proveFalseS_sound (hc : ∀ ρ, SimpCfgOK cfg m ρ) (h : Sound m rec) {e : Expr} (ho : e.ok = true) {ρ : Env} (hs : StateOK m ρ s)
    (hp : proveFalseS cfg rec s e = true) : eval m ρ e = 0 := by
  obtain ⟨h1, h2⟩ := whereTrue_sound hc h ho hs
  have := pFalse_sound (hc ρ) hp
  by_contra hv
  exact (boolOp_ends h1 h2).2 this.1 (b2i_ne.2 hv) this.2

/-! ### Calls -/

theorem visitArgs_sound (h : Sound m rec) : ∀ {st : Bool} {as : Exprs}, as.ok st = true → (visitArgs rec s as).ok st = true ∧
    (visitArgs rec s as).length = as.length ∧ ∀ ρ, StateOK m ρ s → evalArgs m ρ (visitArgs rec s as) = evalArgs m ρ as
  | _, .nil, _ => by simp [visitArgs, Exprs.ok]
  | st, .cons e es, ho => by
    simp only [Exprs.ok, Bool.and_eq_true] at ho
    obtain ⟨h1, h2, h3⟩ := visitArgs_sound h ho.2
    simp only [visitArgs, Exprs.ok, Exprs.length, h2, Bool.and_eq_true, evalArgs]
    by_cases hd : e.defined = true
    · rw [if_pos hd]
      have ho' : e.ok = true := by simpa [hd] using ho.1
      have hr := h s e ho'
      refine ⟨⟨by simp [hr.1], h1⟩, trivial, fun ρ hs => ?_⟩
      rw [h3 ρ hs, if_pos (ok_defined hr.1), if_pos hd, (hr.2 ρ hs).value]
    · rw [if_neg hd]
      have : e = .undef := by cases e <;> simp [Expr.defined] at hd ⊢
      subst this
      refine ⟨⟨ho.1, h1⟩, trivial, fun ρ hs => ?_⟩
      rw [h3 ρ hs]

theorem takeArgs_ok : ∀ {n : Nat} {as : Exprs}, as.ok false = true → (takeArgs n as).ok false = true
  | 0, _, _ => by simp [takeArgs, Exprs.ok]
  | n + 1, .nil, _ => by simp [takeArgs, Exprs.ok]
  | n + 1, .cons e es, h => by
    simp only [Exprs.ok, Bool.and_eq_true] at h
    simp only [takeArgs, Exprs.ok, Bool.and_eq_true]
    exact ⟨h.1, takeArgs_ok h.2⟩

theorem evalArgs_take {ρ : Env} : ∀ (n : Nat) (as : Exprs), evalArgs m ρ (takeArgs n as) = (evalArgs m ρ as).take n
  | 0, _ => by simp [takeArgs, evalArgs]
  | n + 1, .nil => by simp [takeArgs, evalArgs]
  | n + 1, .cons e es => by simp [takeArgs, evalArgs, evalArgs_take n es]

theorem bufferAt_take (hm : BufMem m) (p : Int) {n : Nat} (hn : m.field p .rank (-1) = n) (xs : List (Option Int)) :
    m.call .bufferAt (some p :: xs.take n) = m.call .bufferAt (some p :: xs) := by
  by_cases h : xs.length ≤ n
  · rw [List.take_of_length_le h]
  · have := hm.atRank p (xs.take n) (xs.drop n) (by rw [hn]; simp; omega)
    rw [List.take_append_drop] at this
    exact this.symm

theorem dropIndices_ok : ∀ {ds : List SDim} {as : Exprs}, as.ok false = true → (dropIndices cfg rec s ds as).ok false = true
  | [], as, h => by simpa [dropIndices] using h
  | _ :: _, .nil, _ => by simp [dropIndices, Exprs.ok]
  | d :: ds, .cons a as, h => by
    simp only [Exprs.ok, Bool.and_eq_true] at h
    simp only [dropIndices, Exprs.ok, Bool.and_eq_true]
    refine ⟨?_, dropIndices_ok h.2⟩
    split
    · simp [Expr.defined]
    · exact h.1

theorem dropIndex_sound (hc : ∀ ρ, SimpCfgOK cfg m ρ) (h : Sound m rec) {ρ : Env} (hs : StateOK m ρ s) {D : SDim} {p : Int} {k : Nat}
    (hD : ∀ f : Field, f.ofDim = true → InfoOK m ρ (D.get f) (m.field p f k)) {a : Expr} (hd : dropIndex cfg rec s D a = true) :
    a.ok = true ∧ (eval m ρ a = m.field p .min k ∨ m.field p .stride k = 0) := by
  simp only [dropIndex, (hc ρ).foldZero, Bool.false_and, Bool.or_false, Bool.and_eq_true, Bool.or_eq_true] at hd
  refine ⟨hd.1, ?_⟩
  rcases hd.2 with hd' | hd'
  · left
    split at hd'
    · next mn hf hmn =>
      have hv := (hD .min rfl).value hmn
      have := proveTrueS_sound hc h (by simp [hd.1, hv.1]) hs hd'
      rw [eval_mkBin, hv.2] at this
      simpa [BinOp.denote, b2i] using this
    · cases hd'
  · right
    split at hd'
    · next mn mx st h1 h2 h3 =>
      have hv := (hD .stride rfl).value h3
      have := (pTrue_sound (hc ρ) hd').2
      rw [eval_mkBin, eval_mkBin, eval_mkBin, eval_mkBin, eval_mkBin, hv.2] at this
      simp only [BinOp.denote, b2i_ne] at this
      simpa [eval] using this.2
    · cases hd'

theorem dropIndices_sound (hm : BufMem m) (hc : ∀ ρ, SimpCfgOK cfg m ρ) (h : Sound m rec) {ρ : Env} (hs : StateOK m ρ s) {p : Int} :
    ∀ (ds : List SDim) (as : Exprs) (pre : List (Option Int)),
    (∀ (k : Nat) (D : SDim), ds[k]? = some D → ∀ f : Field, f.ofDim = true → InfoOK m ρ (D.get f) (m.field p f ((pre.length + k : Nat) : Int))) →
    m.call .bufferAt (some p :: (pre ++ evalArgs m ρ (dropIndices cfg rec s ds as))) =
      m.call .bufferAt (some p :: (pre ++ evalArgs m ρ as))
  | [], as, pre, _ => by simp [dropIndices]
  | _ :: _, .nil, pre, _ => by simp [dropIndices]
  | D :: ds, .cons a as, pre, hD => by
    have ih : ∀ x : Option Int, m.call .bufferAt (some p :: (pre ++ x :: evalArgs m ρ (dropIndices cfg rec s ds as))) =
        m.call .bufferAt (some p :: (pre ++ x :: evalArgs m ρ as)) := by
      intro x
      have := dropIndices_sound hm hc h hs (p := p) ds as (pre ++ [x]) (fun k D' hk f hf => by
        have := hD (k + 1) D' (by simpa using hk) f hf
        have e : ((pre ++ [x]).length + k : Nat) = pre.length + (k + 1) := by simp; omega
        rw [e]; exact this)
      simpa using this
    simp only [dropIndices, evalArgs]
    by_cases hd : dropIndex cfg rec s D a = true
    · rw [if_pos hd]
      have h0 := dropIndex_sound hc h hs (p := p) (k := pre.length) (fun f hf => by
        have := hD 0 D (by simp) f hf
        simpa using this) hd
      rw [if_pos (ok_defined h0.1)]
      simp only [Expr.defined, Bool.false_eq_true, if_false]
      rw [ih]
      rcases h0.2 with e | e
      · rw [e]; exact (hm.min _ _ _).symm
      · exact (hm.atBcast _ _ _ _ e).symm
    · rw [if_neg hd]
      exact ih _

theorem bufferAtArgs_sound (hm : BufMem m) (hc : ∀ ρ, SimpCfgOK cfg m ρ) (h : Sound m rec) {as : Exprs} (ho : as.ok false = true) :
    (bufferAtArgs cfg rec s as).ok false = true ∧ ∀ ρ, StateOK m ρ s →
      m.call .bufferAt (evalArgs m ρ (bufferAtArgs cfg rec s as)) = m.call .bufferAt (evalArgs m ρ as) := by
  unfold bufferAtArgs
  split
  · next x d as =>
    simp only [Exprs.ok, Bool.and_eq_true] at ho
    split
    · next b hb =>
      constructor
      · simp only [Exprs.ok, Bool.and_eq_true]
        refine ⟨ho.1, dropIndices_ok ?_⟩
        split
        · exact takeArgs_ok ho.2
        · exact ho.2
      · intro ρ hs
        have hB := hs.bufs x b hb
        have := dropIndices_sound hm hc h hs (p := ρ x) b.dims (if 0 ≤ b.rank then takeArgs b.rank.toNat as else as) []
          (fun k D hk f hf => by simpa using hB.dims k D hk f hf)
        simp only [List.nil_append] at this
        simp only [evalArgs, Expr.defined, if_true, eval]
        rw [this]
        split
        · next hr =>
          rw [evalArgs_take]
          exact bufferAt_take hm _ (by rw [hB.rank hr]; omega) _
        · rfl
    · exact ⟨by simp only [Exprs.ok, Bool.and_eq_true]; exact ho, fun _ _ => rfl⟩
  · exact ⟨ho, fun _ _ => rfl⟩

theorem semArgsB_sound : ∀ {as : Exprs}, semArgsB as = true → SemArgs as
  | .nil, h => by simp [semArgsB] at h
  | .cons _ .nil, h => by simp [semArgsB] at h
  | .cons a (.cons _ .nil), h => by simpa [semArgsB, SemArgs] using h
  | .cons a (.cons _ (.cons c es)), h => by
    simp only [semArgsB, Bool.and_eq_true] at h
    simp only [SemArgs]
    exact ⟨h.1, semArgsB_sound h.2⟩

theorem simpCall_sound (hm : BufMem m) (hc : ∀ ρ, SimpCfgOK cfg m ρ) {fn : Fn} {as : Exprs} (ho : (Expr.call fn as).ok = true) (ρ : Env) :
    eval m ρ (simpCall cfg fn as) = eval m ρ (.call fn as) ∧ (simpCall cfg fn as).ok = true := by
  unfold simpCall
  split
  · exact ⟨rfl, ho⟩
  · next hn =>
    refine simplifyCall_sound_partial m ρ (hc ρ).g hm.toBufferAtMin (hc ρ).ev ho fun hsem => semArgsB_sound ?_
    simpa [hsem] using hn

theorem finishVisitCall_good (hm : BufMem m) (hc : ∀ ρ, SimpCfgOK cfg m ρ) (h : Sound m rec) {fn : Fn} {as0 as : Exprs} {i : Interval}
    (ho : (Expr.call fn as).ok = true) (hv : ∀ ρ, StateOK m ρ s → eval m ρ (.call fn as) = eval m ρ (.call fn as0))
    (hi : ∀ ρ, StateOK m ρ s → Encl m ρ i (eval m ρ (.call fn as0))) :
    Good m s (finishVisitCall cfg rec s fn as0 as i) (fun ρ => eval m ρ (.call fn as0)) := by
  have hr := simpCall_sound hm hc ho
  unfold finishVisitCall
  simp only
  split
  · next he =>
    refine .setR (hr (fun _ => 0)).2 fun ρ hs => ⟨by rw [(hr ρ).1, hv ρ hs], ⟨hi ρ hs, MR.mem_default _, fun h => by simp [Expr.ok] at h⟩, ?_⟩
    rw [he]; simp [isBoolean, isBooleanNode, isOne, isZero, asConst]
  · exact .recur h (hr (fun _ => 0)).2 fun ρ hs => by rw [(hr ρ).1, hv ρ hs]

theorem call_ok {fn : Fn} {as as' : Exprs} (ho : (Expr.call fn as).ok = true) (h1 : as'.ok fn.strict = true)
    (h2 : as'.length = as.length) : (Expr.call fn as').ok = true := by
  simp only [Expr.ok, Bool.and_eq_true] at ho ⊢
  exact ⟨⟨ho.1.1, h1⟩, by rw [h2]; exact ho.2⟩

theorem visitCall_general (hm : BufMem m) (hc : ∀ ρ, SimpCfgOK cfg m ρ) (h : Sound m rec) {fn : Fn} {as0 : Exprs}
    (ho : (Expr.call fn as0).ok = true) :
    Good m s (finishVisitCall cfg rec s fn as0 (visitArgs rec s as0) (.point (.call fn as0))) (fun ρ => eval m ρ (.call fn as0)) := by
  have ho' : as0.ok fn.strict = true := by simp only [Expr.ok, Bool.and_eq_true] at ho; exact ho.1.2
  obtain ⟨h1, h2, h3⟩ := visitArgs_sound (s := s) h ho'
  refine finishVisitCall_good hm hc h (call_ok ho h1 h2) (fun ρ hs => by simp only [eval]; rw [h3 ρ hs]) fun ρ hs => .point_ok ho rfl

theorem visitCall_good (hm : BufMem m) (hc : ∀ ρ, SimpCfgOK cfg m ρ) (h : Sound m rec) {fn : Fn} {as0 : Exprs}
    (ho : (Expr.call fn as0).ok = true) : Good m s (visitCall cfg rec s fn as0) (fun ρ => eval m ρ (.call fn as0)) := by
  have ho' : as0.ok fn.strict = true := by simp only [Expr.ok, Bool.and_eq_true] at ho; exact ho.1.2
  unfold visitCall
  split
  · next as0 =>
    obtain ⟨h1, h2, h3⟩ := visitArgs_sound (s := s) h ho'
    obtain ⟨h4, h5⟩ := bufferAtArgs_sound (s := s) hm hc h h1
    refine finishVisitCall_good hm hc h ?_ (fun ρ hs => ?_) fun ρ hs => .point_ok ho rfl
    · simp only [Expr.ok, Bool.and_eq_true]
      exact ⟨⟨rfl, h4⟩, by simp⟩
    · simp only [eval, Fn.denote]
      rw [h5 ρ hs, h3 ρ hs]
  · next a0 =>
    have ha : a0.ok = true := by simpa [Exprs.ok, Fn.strict] using ho'
    have ra := h s a0 ha
    have habs : ∀ (ρ : Env) (e : Expr), e.ok = true → eval m ρ (.call .abs (.cons e .nil)) = ((eval m ρ e).natAbs : Int) := by
      intro ρ e he; simp only [eval, evalArgs, ok_defined he, if_true, Fn.denote]
    simp only
    split
    · next hp =>
      refine .setR ra.1 fun ρ hs => ?_
      have hp' := pTrue_sound (hc ρ) hp
      have hlo : (rec s a0).2.bounds.min.ok = true := by simpa using hp'.1
      have h0 : 0 ≤ eval m ρ a0 := by
        have h1 := hp'.2
        rw [eval_mkBin] at h1
        exact (b2i_ne.1 h1 : (0 : Int) ≤ _).trans ((ra.2 ρ hs).info.bounds.lo.2 hlo)
      rw [habs ρ a0 ha, show ((eval m ρ a0).natAbs : Int) = eval m ρ a0 by omega]
      exact ⟨(ra.2 ρ hs).value, ⟨(ra.2 ρ hs).info.bounds, MR.mem_default _, fun h => by simp [Expr.ok] at h⟩, (ra.2 ρ hs).nonneg⟩
    split
    · next hp =>
      refine .recur h (by simp [negE, ra.1]) fun ρ hs => ?_
      have hp' := pTrue_sound (hc ρ) hp
      have hhi : (rec s a0).2.bounds.max.ok = true := by simpa using hp'.1
      have h0 : eval m ρ a0 ≤ 0 := by
        have h1 := hp'.2
        rw [eval_mkBin] at h1
        exact ((ra.2 ρ hs).info.bounds.hi.2 hhi).trans (b2i_ne.1 h1)
      rw [habs ρ a0 ha, negE, eval_mkBin, (ra.2 ρ hs).value]
      simp only [eval, BinOp.denote]; omega
    · refine finishVisitCall_good hm hc h ?_ (fun ρ hs => ?_) fun ρ hs => ?_
      · simp [Expr.ok, Exprs.ok, ra.1, Fn.isOk, Exprs.length]
      · rw [habs ρ _ ra.1, habs ρ a0 ha, (ra.2 ρ hs).value]
      · rw [habs ρ a0 ha]; exact boundsAbs_sound (hc ρ) (ra.2 ρ hs).info.bounds
  · exact visitCall_general hm hc h ho

/-! ### Lets -/

theorem evalBinds_app : ∀ (bs cs : Binds) (ρ : Env), evalBinds m ρ (bs.app cs) = evalBinds m (evalBinds m ρ bs) cs
  | .nil, _, _ => by simp [Binds.app, evalBinds]
  | .cons x e bs, cs, ρ => by simp only [Binds.app, evalBinds]; exact evalBinds_app bs cs _

theorem ok_app : ∀ {bs cs : Binds}, bs.ok = true → cs.ok = true → (bs.app cs).ok = true
  | .nil, _, _, h => by simpa [Binds.app] using h
  | .cons x e bs, cs, h1, h2 => by
    simp only [Binds.ok, Bool.and_eq_true] at h1
    simp only [Binds.app, Binds.ok, Bool.and_eq_true]
    exact ⟨h1.1, ok_app h1.2 h2⟩

/-- Flattening nested lets preserves the value. -/
theorem flattenLets_sound : ∀ (b : Expr) (bs : Binds) (ρ : Env), eval m ρ (flattenLets bs b) = eval m ρ (.lets bs b) ∧
    (bs.ok = true → b.ok = true → (flattenLets bs b).ok = true) := by
  intro b bs ρ
  fun_induction flattenLets bs b with
  | case1 bs x e cs b ih =>
    refine ⟨?_, fun h1 h2 => ?_⟩
    · rw [ih.1]; simp only [eval, evalBinds_app]
    · simp only [Expr.ok, Bool.and_eq_true] at h2
      exact ih.2 (ok_app h1 h2.1) h2.2
  | case2 b hne => exact ⟨by simp [eval, evalBinds], fun _ h => h⟩
  | case3 bs b hne h => exact ⟨rfl, fun h1 h2 => by simp [Expr.ok, h1, h2]⟩

/-- Removing unused lets preserves the value. -/
theorem pruneLets_sound : ∀ (bs : Binds) (b : Expr) (ρ : Env), eval m ρ (.lets (pruneLets bs b) b) = eval m ρ (.lets bs b) ∧
    (bs.ok = true → (pruneLets bs b).ok = true)
  | .nil, b, ρ => ⟨rfl, fun _ => by simp [pruneLets, Binds.ok]⟩
  | .cons x e bs, b, ρ => by
    have ih := pruneLets_sound bs b (ρ.set x (eval m ρ e))
    have e1 : eval m ρ (.lets (.cons x e bs) b) = eval m (ρ.set x (eval m ρ e)) (.lets bs b) := by simp [eval, evalBinds]
    simp only [pruneLets]
    split
    · refine ⟨?_, fun h => ?_⟩
      · rw [e1, ← ih.1]; simp [eval, evalBinds]
      · simp only [Binds.ok, Bool.and_eq_true] at h ⊢; exact ⟨h.1, ih.2 h.2⟩
    · next hf =>
      refine ⟨?_, fun h => ?_⟩
      · rw [e1, ← ih.1, eval_set_freeInB (by simpa using hf)]
      · simp only [Binds.ok, Bool.and_eq_true] at h; exact ih.2 h.2

/-- The named values. -/
def RevOK (m : Mem) (ρ : Env) (rev : List (Expr × Nat)) : Prop := ∀ p ∈ rev, eval m ρ p.1 = ρ p.2

theorem letValue_ok {rev : List (Expr × Nat)} {e : Expr} (h : e.ok = true) : (letValue rev e).ok = true := by
  unfold letValue
  split
  · simp [Expr.v, Expr.ok]
  · exact h

theorem letValue_sound {ρ : Env} {rev : List (Expr × Nat)} (hR : RevOK m ρ rev) (e : Expr) :
    eval m ρ (letValue rev e) = eval m ρ e := by
  unfold letValue
  split
  · next p hp =>
    have h1 := List.mem_of_find?_eq_some hp
    have h2 := List.find?_some hp
    simp only [decide_eq_true_eq] at h2
    have := hR p h1
    rw [h2] at this
    simp [Expr.v, eval, this]
  · rfl

theorem letRev_sound {ρ : Env} {rev : List (Expr × Nat)} (hR : RevOK m ρ rev) {e : Expr} {x : Nat} {v : Int} (hv : eval m ρ e = v) :
    RevOK m (ρ.set x v) (letRev rev x e) := by
  intro p hp
  rw [letRev, List.mem_append] at hp
  rcases hp with hp | hp
  · split at hp
    · simp at hp
    · next hn =>
      simp only [List.mem_singleton] at hp
      subst hp
      simp only [Bool.or_eq_true, not_or, Bool.not_eq_true] at hn
      rw [eval_set_freeInB hn.2, hv, Env.set_same]
  · simp only [List.mem_filter, Bool.and_eq_true, Bool.not_eq_true', bne_iff_ne] at hp
    rw [eval_set_freeInB hp.2.1, Env.set_other _ hp.2.2]
    exact hR p hp.1

theorem visitBinds_sound (h : Sound m rec) : ∀ (bs : Binds) (s : SState) (rev : List (Expr × Nat)), bs.ok = true →
    (visitBinds rec s rev bs).2.ok = true ∧ ∀ ρ, StateOK m ρ s → RevOK m ρ rev →
      evalBinds m ρ (visitBinds rec s rev bs).2 = evalBinds m ρ bs ∧ StateOK m (evalBinds m ρ bs) (visitBinds rec s rev bs).1
  | .nil, s, rev, _ => by simpa [visitBinds, Binds.ok, evalBinds] using fun ρ hs _ => hs
  | .cons x e bs, s, rev, ho => by
    simp only [Binds.ok, Bool.and_eq_true] at ho
    have hr := h s e ho.1
    simp only [visitBinds]
    have ih := visitBinds_sound h bs ((s.drop x).setVar x ((letInfo (letValue rev (rec s e).1) (rec s e).2).drop x))
      (letRev rev x (rec s e).1) ho.2
    refine ⟨by simp only [Binds.ok, Bool.and_eq_true]; exact ⟨letValue_ok hr.1, ih.1⟩, fun ρ hs hR => ?_⟩
    have r : ResOK m ρ (rec s e) (eval m ρ e) := hr.2 ρ hs
    have hval : eval m ρ (letValue rev (rec s e).1) = eval m ρ e := (letValue_sound hR _).trans r.value
    have hinfo : InfoOK m ρ (letInfo (letValue rev (rec s e).1) (rec s e).2) (eval m ρ e) := by
      unfold letInfo; split
      · exact ⟨Encl.unbounded _, MR.mem_default _, fun _ => hval⟩
      · exact r.info
    have := ih.2 (ρ.set x (eval m ρ e)) ((hs.drop x _).setVar (by
        rw [Env.set_same]
        exact hinfo.drop ⟨_, .inl rfl⟩)) (letRev_sound hR r.value)
    simp only [evalBinds, hval]
    exact this

theorem dropLets_sound : ∀ (bs : Binds) (i : SInfo) (ρ : Env) (v : Int), InfoOK m (evalBinds m ρ bs) i v → InfoOK m ρ (i.dropLets bs) v
  | .nil, i, ρ, v, h => by simpa [SInfo.dropLets, evalBinds] using h
  | .cons x e bs, i, ρ, v, h => by
    simp only [SInfo.dropLets]
    exact (dropLets_sound bs i _ v (by simpa [evalBinds] using h)).drop ⟨eval m ρ e, .inr rfl⟩

theorem app_eq_nil : ∀ {bs cs : Binds}, bs.app cs = .nil → bs = .nil ∧ cs = .nil
  | .nil, _, h => ⟨rfl, h⟩
  | .cons _ _ _, _, h => by simp [Binds.app] at h

theorem isBoolean_flattenLets : ∀ (b : Expr) (bs : Binds), isBoolean (flattenLets bs b) = true → bs = .nil ∧ flattenLets bs b = b := by
  intro b bs
  fun_induction flattenLets bs b with
  | case1 bs x e cs b ih =>
    intro h
    have h1 := app_eq_nil (ih h).1
    cases h1.2
  | case2 b _ => exact fun h => ⟨rfl, rfl⟩
  | case3 bs b _ h => intro h; simp [isBoolean, isBooleanNode, isOne, isZero, asConst] at h

theorem dropLets_min : ∀ (bs : Binds) (i : SInfo) (ρ : Env), (i.dropLets bs).bounds.min.ok = true →
    i.bounds.min.ok = true ∧ eval m ρ (i.dropLets bs).bounds.min = eval m (evalBinds m ρ bs) i.bounds.min
  | .nil, i, ρ, h => ⟨h, rfl⟩
  | .cons x e bs, i, ρ, h => by
    simp only [SInfo.dropLets, SInfo.drop, dropI, dropE] at h ⊢
    split at h
    · simp [Expr.ok] at h
    · next hf =>
      rw [if_neg hf]
      have ih := dropLets_min bs i (ρ.set x (eval m ρ e)) h
      refine ⟨ih.1, ?_⟩
      simp only [evalBinds]
      rw [← ih.2, eval_set_freeInB (by simpa using hf)]

theorem visitLets_good (hc : ∀ ρ, SimpCfgOK cfg m ρ) (h : Sound m rec) {bs : Binds} {b : Expr} (ho : (Expr.lets bs b).ok = true) :
    Good m s (visitLets cfg rec s bs b) (fun ρ => eval m ρ (.lets bs b)) := by
  simp only [Expr.ok, Bool.and_eq_true] at ho
  obtain ⟨h1, h2⟩ := visitBinds_sound h bs s [] ho.1
  have hb := h (visitBinds rec s [] bs).1 b ho.2
  unfold visitLets
  simp only [(hc (fun _ => 0)).leakLets]
  refine .setR ((flattenLets_sound (m := m) _ _ (fun _ => 0)).2 ((pruneLets_sound (m := m) _ _ (fun _ => 0)).2 h1) hb.1) fun ρ hs => ?_
  obtain ⟨h3, h4⟩ := h2 ρ hs (by simp [RevOK])
  have r : ResOK m (evalBinds m ρ bs) (rec (visitBinds rec s [] bs).1 b) (eval m (evalBinds m ρ bs) b) := hb.2 _ h4
  have hi := dropLets_sound (visitBinds rec s [] bs).2 _ ρ _ (by rw [h3]; exact r.info)
  refine ⟨?_, ⟨hi.bounds, r.info.align, fun h => by simp [Expr.ok] at h⟩, fun hbool hmin => ?_⟩
  · rw [(flattenLets_sound _ _ ρ).1, (pruneLets_sound _ _ ρ).1]
    simp only [eval, h3, r.value]
  · have := isBoolean_flattenLets _ _ hbool
    rw [this.2] at hbool
    have h5 := dropLets_min (m := m) _ _ ρ hmin
    have h6 := r.nonneg hbool h5.1
    simp only [Bool.false_eq_true, if_false]
    rw [h5.2, h3]
    exact h6

/-! ### The simplifier -/

theorem visit_good (hm : BufMem m) (hc : ∀ ρ, SimpCfgOK cfg m ρ) (h : Sound m rec) : Sound m (visit cfg rec) := by
  intro s e ho
  cases e with
  | undef => simp [Expr.ok] at ho
  | const c =>
    refine .setR ho fun ρ hs => ⟨rfl, ⟨.point_ok ho rfl, ?_, fun h => by simp [Expr.ok] at h⟩, ?_⟩
    · simp [MR.Mem, eval]
    · intro hb _
      simp [isBoolean, isBooleanNode, isOne, isZero, asConst] at hb
      simp only [Interval.point, eval]; omega
  | var x f d =>
    simp only [visit]
    split
    · next hf => subst hf; exact visitScalar_good h x d
    · next hf => exact (visitField_good hm h x d hf).congr fun ρ _ => (eval_field hf).symm
  | lets bs b => exact visitLets_good hc h ho
  | bin op a b =>
    simp only [Expr.ok, Bool.and_eq_true] at ho
    cases op <;> simp only [visit]
    all_goals first
      | exact visitMinMax_good hc h (by simp) ho.1 ho.2
      | exact visitAdd_good hc h ho.1 ho.2
      | exact visitBin_good hc h rfl ho.1 ho.2
      | exact visitLogical_good hc h rfl (by simp) ho.1 ho.2
  | not a => exact visitNot_good hc h ho
  | select c t f =>
    simp only [Expr.ok, Bool.and_eq_true] at ho
    exact visitSelect_good hm hc h ho.1.1 ho.1.2 ho.2
  | call fn as => exact visitCall_good hm hc h ho

theorem mutateN_sound (hm : BufMem m) (hc : ∀ ρ, SimpCfgOK cfg m ρ) : ∀ n, Sound m (mutateN cfg n)
  | 0 => fun s e ho => ⟨ho, fun ρ hs => ⟨rfl, .empty _, fun _ h => by simp [mutateN, SInfo.empty, Interval.unbounded, Expr.ok] at h⟩⟩
  | n + 1 => visit_good hm hc (mutateN_sound hm hc n)

end

end Slinky
