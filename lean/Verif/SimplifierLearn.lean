import Verif.SimplifierInfo

/-! # C17: what is learned from a condition is true if the condition is -/

namespace Slinky

/-- The facts are well-formed: an expression is replaced by a constant. -/
def FactsWF (k : Know) : Prop := ∀ p ∈ k.2, p.1.ok = true ∧ ∃ c, p.2 = .const c

/-- What is known is true. -/
structure KnowOK (m : Mem) (ρ : Env) (k : Know) : Prop where
  state : StateOK m ρ k.1
  facts : ∀ p ∈ k.2, eval m ρ p.1 = eval m ρ p.2

section
variable {m : Mem} {ρ : Env} {cfg : SimpCfg}

/-! ### Facts -/

theorem FactsWF.add {k : Know} (h : FactsWF k) {c : Expr} (hc : c.ok = true) (v : Int) : FactsWF (addFact c (.const v) k) := by
  intro p hp
  simp only [addFact, List.mem_append, List.mem_singleton] at hp
  rcases hp with hp | rfl
  · exact h p hp
  · exact ⟨hc, v, rfl⟩

theorem KnowOK.add {k : Know} (h : KnowOK m ρ k) {c v : Expr} (hv : eval m ρ c = eval m ρ v) : KnowOK m ρ (addFact c v k) := by
  refine ⟨h.state, fun p hp => ?_⟩
  simp only [addFact, List.mem_append, List.mem_singleton] at hp
  rcases hp with hp | rfl
  · exact h.facts p hp
  · exact hv

/-! ### Variables and fields of buffers -/

theorem addVarInfo_snd (x : Nat) (f : Field) (d : Int) (b : Interval) (al : MR) (k : Know) :
    (addVarInfo cfg x f d b al k).2 = k.2 := by
  unfold addVarInfo
  simp only
  repeat' split
  all_goals rfl

theorem learnVar_snd (e : Expr) (b : Interval) (k : Know) : (learnVar cfg e b k).2 = k.2 := by
  unfold learnVar; split
  · exact addVarInfo_snd ..
  · rfl

theorem pureEnd_lo {e : Expr} {v : Int} (h : LoOK m ρ e v) : LoOK m ρ (pureEnd e) v := by
  unfold pureEnd; split
  · exact undef_lo v
  · exact h
theorem pureEnd_hi {e : Expr} {v : Int} (h : HiOK m ρ e v) : HiOK m ρ (pureEnd e) v := by
  unfold pureEnd; split
  · exact undef_hi v
  · exact h

theorem SBufOK.ofSym (hm : BufMem m) (x : Nat) : SBufOK m ρ (.ofSym x) (ρ x) := by
  refine ⟨fun d => ?_, fun k D h => by simp [SBuf.ofSym] at h, fun h => by simp [SBuf.ofSym] at h⟩
  have := InfoOK.ofExpr (m := m) (ρ := ρ) (e := .var x .elemSize (-1)) (by simp [Expr.ok])
  rw [hm.elem_dim _ d (-1)]
  simpa [SBuf.ofSym, eval] using this

theorem SDim.get_set (D : SDim) (f g : Field) (i : SInfo) (hf : f.ofDim = true) (hg : g.ofDim = true) :
    (D.set f i).get g = if g = f then i else D.get g := by
  cases f <;> simp [Field.ofDim] at hf <;> cases g <;> simp [Field.ofDim] at hg <;> rfl

theorem SDim.get_default (f : Field) : ({} : SDim).get f = .empty := by cases f <;> rfl

theorem updDim_sound {P : Nat → SDim → Prop} {f : SDim → SDim} (h0 : ∀ k, P k {}) : ∀ (n k0 : Nat) (ds : List SDim),
    (∀ D, P (k0 + n) D → P (k0 + n) (f D)) →
    (∀ k D, ds[k]? = some D → P (k0 + k) D) → ∀ k D, (updDim f n ds)[k]? = some D → P (k0 + k) D
  | 0, k0, [], hf, _, k, D, hk => by
    simp only [updDim] at hk
    cases k with
    | zero => simp at hk; subst hk; exact hf _ (h0 _)
    | succ k => simp at hk
  | 0, k0, d :: ds, hf, h, k, D, hk => by
    simp only [updDim] at hk
    cases k with
    | zero => simp at hk; subst hk; exact hf _ (h 0 d (by simp))
    | succ k => exact h (k + 1) D (by simpa using hk)
  | n + 1, k0, [], hf, _, k, D, hk => by
    simp only [updDim] at hk
    cases k with
    | zero => simp at hk; subst hk; exact h0 _
    | succ k =>
      have := updDim_sound h0 n (k0 + 1) [] (by intro D hD; rw [show k0 + 1 + n = k0 + (n + 1) by omega] at *; exact hf D hD)
        (fun k D hk => by simp at hk) k D (by simpa using hk)
      rwa [show k0 + 1 + k = k0 + (k + 1) by omega] at this
  | n + 1, k0, d :: ds, hf, h, k, D, hk => by
    simp only [updDim] at hk
    cases k with
    | zero => exact h 0 D (by simpa using hk)
    | succ k =>
      have := updDim_sound h0 n (k0 + 1) ds (by intro D hD; rw [show k0 + 1 + n = k0 + (n + 1) by omega] at *; exact hf D hD)
        (fun k D hk => by
          have := h (k + 1) D (by simpa using hk)
          rwa [show k0 + (k + 1) = k0 + 1 + k by omega] at this) k D (by simpa using hk)
      rwa [show k0 + 1 + k = k0 + (k + 1) by omega] at this

/-- The value of a variable or a field. -/
theorem addVarInfo_sound (hm : BufMem m) (hc : SimpCfgOK cfg m ρ) {x : Nat} {f : Field} {d : Int} {b : Interval} {al : MR}
    {k : Know} (hk : KnowOK m ρ k) (hb : Encl m ρ b (eval m ρ (.var x f d))) (ha : MR.Mem (eval m ρ (.var x f d)) al) :
    KnowOK m ρ (addVarInfo cfg x f d b al k) := by
  refine ⟨?_, by rw [addVarInfo_snd]; exact hk.facts⟩
  unfold addVarInfo
  by_cases hf : f = .none
  · rw [if_pos hf]
    subst hf
    simp only [eval] at hb ha
    refine hk.state.setVar (.merge hc ?_ hb ha)
    cases h : k.1.vars x with
    | none => exact .empty _
    | some i => exact hk.state.vars x i h
  rw [if_neg hf]
  have hv : eval m ρ (.var x f d) = m.field (ρ x) f d := by cases f <;> simp_all [eval]
  rw [hv] at hb ha
  have hb' : Encl m ρ ⟨pureEnd b.min, pureEnd b.max, b.same⟩ (m.field (ρ x) f d) :=
    ⟨fun h => by simp only; rw [hb.wf h], pureEnd_lo hb.lo, pureEnd_hi hb.hi⟩
  simp only
  split
  · exact hk.state
  have hi : SBufOK m ρ ((k.1.bufs x).getD (.ofSym x)) (ρ x) := by
    cases h : k.1.bufs x with
    | none => exact .ofSym hm x
    | some i => exact hk.state.bufs x i h
  split
  · next hd =>
    split
    · next hfd =>
      refine hk.state.setBuf ⟨hi.elem, ?_, hi.rank⟩
      have := updDim_sound (P := fun (n : Nat) D => ∀ g : Field, g.ofDim = true → InfoOK m ρ (D.get g) (m.field (ρ x) g n))
        (f := fun s => s.set f ((s.get f).merge cfg ⟨pureEnd b.min, pureEnd b.max, b.same⟩ al))
        (fun k g _ => by rw [SDim.get_default]; exact .empty _) d.toNat 0 ((k.1.bufs x).getD (.ofSym x)).dims
        (by
          intro D hD g hg
          rw [SDim.get_set _ _ _ _ hfd hg]
          split
          · next e =>
            subst e
            rw [Nat.zero_add] at hD ⊢
            have e : ((d.toNat : Nat) : Int) = d := Int.toNat_of_nonneg hd
            refine .merge hc (hD g hg) ?_ ?_
            · rw [e]; exact hb'
            · rw [e]; exact ha
          · exact hD g hg)
        (fun k D hk => by rw [Nat.zero_add]; exact hi.dims k D hk)
      intro k D hk
      have := this k D hk
      rwa [Nat.zero_add] at this
    · exact hk.state.setBuf hi
  split
  · next hf =>
    subst hf
    refine hk.state.setBuf ⟨fun d' => ?_, hi.dims, hi.rank⟩
    rw [hm.elem_dim _ d' d]
    exact .merge hc (hi.elem d) hb' ha
  split
  · next hf =>
    subst hf
    refine hk.state.setBuf ⟨hi.elem, hi.dims, ?_⟩
    simp only
    split
    · next c hp => intro _; rw [hm.rank_dim _ (-1) d]; exact pointConst_sound hb' hp
    · exact hi.rank
  · exact hk.state.setBuf hi

theorem learnVar_sound (hm : BufMem m) (hc : SimpCfgOK cfg m ρ) {e : Expr} {b : Interval} {k : Know} (hk : KnowOK m ρ k)
    (hb : Encl m ρ b (eval m ρ e)) : KnowOK m ρ (learnVar cfg e b k) := by
  unfold learnVar
  split
  · exact addVarInfo_sound hm hc hk hb (MR.mem_default _)
  · exact hk

/-! ### Conditions -/

theorem learnEqual_wf {a b : Expr} (ha : a.ok = true) (hb : b.ok = true) {k : Know} (h : FactsWF k) :
    FactsWF (learnEqual cfg a b k) := by
  unfold learnEqual
  simp only
  unfold FactsWF
  rw [learnVar_snd]
  split
  · rw [addVarInfo_snd]; exact h
  · split
    · split
      · rw [addVarInfo_snd]; exact h
      · exact h
    · exact h
  · exact h
  · exact h.add (by simp [ha, hb]) 1

theorem learnEqual_sound (hm : BufMem m) (hc : SimpCfgOK cfg m ρ) {a b : Expr} (ha : a.ok = true) (hb : b.ok = true)
    (hab : eval m ρ a = eval m ρ b) {k : Know} (hk : KnowOK m ρ k) : KnowOK m ρ (learnEqual cfg a b k) := by
  unfold learnEqual
  refine learnVar_sound hm hc ?_ (.point_ok ha hab)
  split
  · exact addVarInfo_sound hm hc hk (.point_ok hb hab.symm) (MR.mem_default _)
  · next x f d md =>
    split
    · next r hr =>
      split
      · next h0 =>
        refine addVarInfo_sound hm hc hk (Encl.unbounded _) ?_
        rw [hc.learnModZero] at h0
        have h0 : md ≠ 0 := by simpa using h0
        rw [asConst_eq hr] at hab
        set v := eval m ρ (.var x f d) with hv
        simp only [eval, BinOp.denote] at hab
        rw [← hv] at hab
        refine ⟨v / md, ?_⟩
        have e : emod v md = v % md := by simp [emod, h0]
        rw [e] at hab
        have := Int.mul_ediv_add_emod v md
        simp only
        omega
      · exact hk
    · exact hk
  · exact hk
  · refine hk.add ?_
    rw [eval_mkBin]; simp [BinOp.denote, eval, hab, b2i]

theorem learnLess1_wf {a b : Expr} (ha : a.ok = true) (hb : b.ok = true) {k : Know} (h : FactsWF k) :
    FactsWF (learnLess1 cfg a b k) := by
  have h2 : FactsWF (learnVar cfg b ⟨sB cfg .add a (.const 1), .undef, false⟩
      (learnVar cfg a ⟨.undef, sB cfg .add b (.const (-1)), false⟩ k)) := by
    unfold FactsWF; rw [learnVar_snd, learnVar_snd]; exact h
  unfold learnLess1
  simp only
  split
  · exact h2
  · exact h2.add (by simp [ha, hb]) 1

theorem learnLess1_sound (hm : BufMem m) (hc : SimpCfgOK cfg m ρ) {a b : Expr}
    (hab : eval m ρ a < eval m ρ b) {k : Know} (hk : KnowOK m ρ k) : KnowOK m ρ (learnLess1 cfg a b k) := by
  have h1 := learnVar_sound hm hc hk (e := a) (b := ⟨.undef, sB cfg .add b (.const (-1)), false⟩)
    ⟨fun h => by simp at h, undef_lo _, sB_hi hc (by simp) (by simp) fun o _ => by
      simp only [BinOp.denote, eval]; omega⟩
  have h2 := learnVar_sound hm hc h1 (e := b) (b := ⟨sB cfg .add a (.const 1), .undef, false⟩)
    ⟨fun h => by simp at h, sB_lo hc (by simp) (by simp) fun o _ => by simp only [BinOp.denote, eval]; omega, undef_hi _⟩
  unfold learnLess1
  simp only
  split
  · exact h2
  · refine h2.add ?_
    rw [eval_mkBin]; simp [BinOp.denote, eval, hab, b2i]

theorem learnLe1_wf {a b : Expr} (ha : a.ok = true) (hb : b.ok = true) {k : Know} (h : FactsWF k) :
    FactsWF (learnLe1 cfg a b k) := by
  have h2 : FactsWF (learnVar cfg b ⟨a, .undef, false⟩ (learnVar cfg a ⟨.undef, b, false⟩ k)) := by
    unfold FactsWF; rw [learnVar_snd, learnVar_snd]; exact h
  unfold learnLe1
  simp only
  split
  · exact h2
  · exact h2.add (by simp [ha, hb]) 1

theorem learnLe1_sound (hm : BufMem m) (hc : SimpCfgOK cfg m ρ) {a b : Expr} (ha : a.ok = true) (hb : b.ok = true)
    (hab : eval m ρ a ≤ eval m ρ b) {k : Know} (hk : KnowOK m ρ k) : KnowOK m ρ (learnLe1 cfg a b k) := by
  have h1 := learnVar_sound hm hc hk (e := a) (b := ⟨.undef, b, false⟩) ⟨fun h => by simp at h, undef_lo _, hi_of_ok hb hab⟩
  have h2 := learnVar_sound hm hc h1 (e := b) (b := ⟨a, .undef, false⟩) ⟨fun h => by simp at h, lo_of_ok ha hab, undef_hi _⟩
  unfold learnLe1
  simp only
  split
  · exact h2
  · refine h2.add ?_
    rw [eval_mkBin]; simp [BinOp.denote, eval, hab, b2i]

theorem learn_wf (hs : cfg.splitMinMax = false) : ∀ (c : Expr) (p : Bool) (k : Know), c.ok = true → FactsWF k → FactsWF (learn cfg p c k)
  | .undef, _, _, ho, _ => by simp [Expr.ok] at ho
  | .const _, p, k, _, h => by cases p <;> simpa [learn] using h
  | .var x f d, p, k, ho, h => by
    cases p
    · simpa [learn] using h.add ho 0
    · simp only [learn]; split
      · exact h
      · exact h.add ho 1
  | .lets bs b, p, k, ho, h => by
    cases p
    · simpa [learn] using h.add ho 0
    · simp only [learn]; split
      · exact h.add ho 1
      · exact h
  | .select c t f, p, k, ho, h => by
    cases p
    · simpa [learn] using h.add ho 0
    · simp only [learn]; split
      · exact h.add ho 1
      · exact h
  | .call fn as, p, k, ho, h => by
    cases p
    · simpa [learn] using h.add ho 0
    · simp only [learn]; split
      · exact h.add ho 1
      · exact h
  | .not a, p, k, ho, h => by
    have ho : a.ok = true := by simpa [Expr.ok] using ho
    cases p <;> simp only [learn]
    · exact learn_wf hs a _ k ho h
    · exact learn_wf hs a _ k ho h
  | .bin op a b, p, k, ho, h => by
    have ho' : a.ok = true ∧ b.ok = true := by simpa using ho
    have gen1 : FactsWF (if isBoolean (.bin op a b) || cfg.factNonBool then addFact (.bin op a b) (.const 1) k else k) := by
      split
      · exact h.add ho 1
      · exact h
    have gen0 : FactsWF (addFact (.bin op a b) (.const 0) k) := h.add ho 0
    cases op <;> cases p <;> simp only [learn, learnLess, learnLe, learnSplit, hs]
    case and.true => exact learn_wf hs b _ _ ho'.2 (learn_wf hs a _ _ ho'.1 h)
    case or.false => exact learn_wf hs b _ _ ho'.2 (learn_wf hs a _ _ ho'.1 h)
    case lt.true => exact learnLess1_wf ho'.1 ho'.2 h
    case lt.false => exact learnLe1_wf ho'.2 ho'.1 h
    case le.true => exact learnLe1_wf ho'.1 ho'.2 h
    case le.false => exact learnLess1_wf ho'.2 ho'.1 h
    case eq.true => exact learnEqual_wf ho'.1 ho'.2 h
    case ne.false => exact learnEqual_wf ho'.1 ho'.2 h
    all_goals first | exact gen0 | exact gen1

/-- The condition is true, or false. -/
def Holds (m : Mem) (ρ : Env) (p : Bool) (c : Expr) : Prop := if p then eval m ρ c ≠ 0 else eval m ρ c = 0

theorem learn_sound (hm : BufMem m) (hc : SimpCfgOK cfg m ρ) : ∀ (c : Expr) (p : Bool) (k : Know), c.ok = true →
    Holds m ρ p c → KnowOK m ρ k → KnowOK m ρ (learn cfg p c k)
  | .undef, _, _, ho, _, _ => by simp [Expr.ok] at ho
  | .const _, p, k, _, _, h => by cases p <;> simpa [learn] using h
  | .var x f d, p, k, ho, hv, h => by
    cases p
    · have hv : eval m ρ (.var x f d) = 0 := by simpa [Holds] using hv
      simp only [learn]; exact h.add (by rw [hv]; simp [eval])
    · simp only [learn, hc.factNonBool]; simpa using h
  | .lets bs b, p, k, ho, hv, h => by
    cases p
    · have hv : eval m ρ (.lets bs b) = 0 := by simpa [Holds] using hv
      simp only [learn]; exact h.add (by rw [hv]; simp [eval])
    · simp only [learn, hc.factNonBool]; simpa [isBoolean, isBooleanNode, isOne, isZero, asConst] using h
  | .select c t f, p, k, ho, hv, h => by
    cases p
    · have hv : eval m ρ (.select c t f) = 0 := by simpa [Holds] using hv
      simp only [learn]; exact h.add (by rw [hv]; simp [eval])
    · simp only [learn, hc.factNonBool]; simpa [isBoolean, isBooleanNode, isOne, isZero, asConst] using h
  | .call fn as, p, k, ho, hv, h => by
    cases p
    · have hv : eval m ρ (.call fn as) = 0 := by simpa [Holds] using hv
      simp only [learn]; exact h.add (by rw [hv]; simp [eval])
    · simp only [learn, hc.factNonBool]; simpa [isBoolean, isBooleanNode, isOne, isZero, asConst] using h
  | .not a, p, k, ho, hv, h => by
    have ho : a.ok = true := by simpa [Expr.ok] using ho
    cases p <;> simp only [learn]
    · refine learn_sound hm hc a _ k ho ?_ h
      simpa [Holds, eval, b2i] using hv
    · refine learn_sound hm hc a _ k ho ?_ h
      simpa [Holds, eval, b2i] using hv
  | .bin op a b, p, k, ho, hv, h => by
    have ho' : a.ok = true ∧ b.ok = true := by simpa using ho
    have gen1 : p = true → KnowOK m ρ (if isBoolean (.bin op a b) || cfg.factNonBool then addFact (.bin op a b) (.const 1) k else k) := by
      rintro rfl
      have hv : eval m ρ (.bin op a b) ≠ 0 := by simpa [Holds] using hv
      rw [hc.factNonBool, Bool.or_false]
      split
      · next hb =>
        refine h.add ?_
        rcases isBoolean_sound m ρ _ hb with e | e
        · exact absurd e hv
        · rw [e]; simp [eval]
      · exact h
    have gen0 : p = false → KnowOK m ρ (addFact (.bin op a b) (.const 0) k) := by
      rintro rfl
      have hv : eval m ρ (.bin op a b) = 0 := by simpa [Holds] using hv
      exact h.add (by rw [hv]; simp [eval])
    cases op <;> cases p <;> simp only [learn, learnLess, learnLe, learnSplit, hc.splitMinMax]
    case and.true =>
      simp [Holds, eval, BinOp.denote, b2i] at hv
      exact learn_sound hm hc b _ _ ho'.2 (by simpa [Holds] using hv.2)
        (learn_sound hm hc a _ _ ho'.1 (by simpa [Holds] using hv.1) h)
    case or.false =>
      simp [Holds, eval, BinOp.denote, b2i] at hv
      exact learn_sound hm hc b _ _ ho'.2 (by simpa [Holds] using hv.2)
        (learn_sound hm hc a _ _ ho'.1 (by simpa [Holds] using hv.1) h)
    case lt.true => simp [Holds, eval, BinOp.denote, b2i] at hv; exact learnLess1_sound hm hc hv h
    case lt.false => simp [Holds, eval, BinOp.denote, b2i] at hv; exact learnLe1_sound hm hc ho'.2 ho'.1 hv h
    case le.true => simp [Holds, eval, BinOp.denote, b2i] at hv; exact learnLe1_sound hm hc ho'.1 ho'.2 hv h
    case le.false => simp [Holds, eval, BinOp.denote, b2i] at hv; exact learnLess1_sound hm hc hv h
    case eq.true => simp [Holds, eval, BinOp.denote, b2i] at hv; exact learnEqual_sound hm hc ho'.1 ho'.2 hv h
    case ne.false => simp [Holds, eval, BinOp.denote, b2i] at hv; exact learnEqual_sound hm hc ho'.1 ho'.2 hv h
    all_goals first | exact gen0 rfl | exact gen1 rfl

/-! ### Using the facts -/

mutual
theorem substExpr_ok {t r : Expr} (hr : r.ok = true) (ht : t.defined = true) : ∀ {e : Expr}, e.ok = true → (substExpr t r e).ok = true
  | .undef, h => by simp [Expr.ok] at h
  | .var _ _ _, h => by simp only [substExpr]; split <;> assumption
  | .const _, h => by simp only [substExpr]; split <;> assumption
  | .lets bs b, h => by
    simp only [substExpr]; split
    · exact hr
    · simp only [Expr.ok, Bool.and_eq_true] at h ⊢
      exact ⟨substExprBinds_ok hr ht h.1, substExpr_ok hr ht h.2⟩
  | .bin op a b, h => by
    simp only [substExpr]; split
    · exact hr
    · simp only [Expr.ok_bin, Bool.and_eq_true] at h
      have h1 := substExpr_ok hr ht h.1
      have h2 := substExpr_ok hr ht h.2
      unfold rebuildBin
      split <;> simp [h1, h2, h.1, h.2]
  | .not a, h => by
    simp only [substExpr]; split
    · exact hr
    · simp only [Expr.ok] at h ⊢; exact substExpr_ok hr ht h
  | .select c u v, h => by
    simp only [substExpr]; split
    · exact hr
    · simp only [Expr.ok, Bool.and_eq_true] at h ⊢
      exact ⟨⟨substExpr_ok hr ht h.1.1, substExpr_ok hr ht h.1.2⟩, substExpr_ok hr ht h.2⟩
  | .call fn as, h => by
    simp only [substExpr]; split
    · exact hr
    · simp only [Expr.ok, Bool.and_eq_true] at h ⊢
      exact ⟨⟨h.1.1, (substExprArgs_ok hr ht h.1.2).1⟩, by rw [(substExprArgs_ok hr ht h.1.2).2]; exact h.2⟩
theorem substExprArgs_ok {t r : Expr} (hr : r.ok = true) (ht : t.defined = true) : ∀ {b : Bool} {es : Exprs}, es.ok b = true →
    (substExprArgs t r es).ok b = true ∧ (substExprArgs t r es).length = es.length
  | _, .nil, h => by simp [substExprArgs, Exprs.ok]
  | b, .cons e es, h => by
    simp only [Exprs.ok, Bool.and_eq_true] at h
    have ih := substExprArgs_ok hr ht h.2
    simp only [substExprArgs, Exprs.ok, Exprs.length, ih.2, Bool.and_eq_true]
    refine ⟨⟨?_, ih.1⟩, trivial⟩
    rw [Bool.or_eq_true] at h
    rcases h.1 with h1 | h1
    · have : e = .undef := by cases e <;> simp [Expr.defined] at h1 ⊢
      subst this
      have h2 : substExpr t r .undef = .undef := by
        simp only [substExpr]; rw [if_neg]; rw [match_iff]; rintro rfl; simp [Expr.defined] at ht
      rw [h2]
      simp only [Bool.or_eq_true]
      exact .inl h1
    · rw [substExpr_ok hr ht h1]; simp
theorem substExprBinds_ok {t r : Expr} (hr : r.ok = true) (ht : t.defined = true) : ∀ {bs : Binds}, bs.ok = true →
    (substExprBinds t r bs).ok = true
  | .nil, _ => by simp [substExprBinds, Binds.ok]
  | .cons x e bs, h => by
    simp only [Binds.ok, Bool.and_eq_true] at h
    simp only [substExprBinds, Binds.ok, Bool.and_eq_true]
    exact ⟨substExpr_ok hr ht h.1, substExprBinds_ok hr ht h.2⟩
end

theorem applyFacts_ok : ∀ {fs : List (Expr × Expr)} {e : Expr}, (∀ p ∈ fs, p.1.ok = true ∧ ∃ c, p.2 = .const c) → e.ok = true →
    (applyFacts fs e).ok = true
  | [], _, _, ho => ho
  | (c, v) :: fs, e, h, ho => by
    simp only [applyFacts]
    obtain ⟨h1, d, rfl⟩ : c.ok = true ∧ ∃ d, v = .const d := h (c, v) (by simp)
    refine applyFacts_ok (fun p hp => h p (by simp [hp])) ?_
    split
    · exact substExpr_ok (by simp) (ok_defined h1) ho
    · exact ho

theorem applyFacts_sound : ∀ {fs : List (Expr × Expr)} {e : Expr}, (∀ p ∈ fs, p.1.ok = true ∧ ∃ c, p.2 = .const c) →
    (∀ p ∈ fs, eval m ρ p.1 = eval m ρ p.2) → eval m ρ (applyFacts fs e) = eval m ρ e
  | [], _, _, _ => rfl
  | (c, v) :: fs, e, h, hv => by
    simp only [applyFacts]
    obtain ⟨h1, d, rfl⟩ : c.ok = true ∧ ∃ d, v = .const d := h (c, v) (by simp)
    rw [applyFacts_sound (fun p hp => h p (by simp [hp])) (fun p hp => hv p (by simp [hp]))]
    split
    · next hf =>
      refine substituteExpr_correct m e c _ ρ (by rw [ok_defined h1]; rfl) fun ρ' hρ => ?_
      have h2 : eval m ρ c = d := by simpa [eval] using hv (c, .const d) (by simp)
      rw [show eval m ρ' (.const d) = d by simp [eval], ← h2]
      refine eval_congr_free m c ρ' ρ fun x hx => hρ x fun hb => ?_
      rw [List.all_eq_true] at hf
      have := hf x hb
      rw [← freeInB_iff] at hx
      simp [hx] at this
    · rfl

end

end Slinky
