import Verif.OptSymbols

/-!
# `optimize_symbols`: substitution of a symbol by a symbol
-/

namespace Slinky

/-- `expr(z)` -/
abbrev symE (z : Nat) : Expr := .var z .none (-1)

/-! ## What is in scope -/

mutual
theorem Expr.OptOK.bufOK : ∀ {e : Expr} {T : Nat → Prop}, e.OptOK T → e.BufOK
  | .undef, _, _ => trivial
  | .var .., _, _ => trivial
  | .const _, _, _ => trivial
  | .lets bs b, _, h => by simp only [Expr.OptOK] at h; exact ⟨h.1.bufOK, h.2.bufOK⟩
  | .bin .., _, h => by simp only [Expr.OptOK] at h; exact ⟨h.1.bufOK, h.2.bufOK⟩
  | .not _, _, h => by simp only [Expr.OptOK] at h; simp only [Expr.BufOK]; exact Expr.OptOK.bufOK h
  | .select .., _, h => by simp only [Expr.OptOK] at h; exact ⟨h.1.bufOK, h.2.1.bufOK, h.2.2.bufOK⟩
  | .call fn as, _, h => by
    simp only [Expr.OptOK] at h
    exact ⟨fun hf => by obtain ⟨z, d, es, h1, _⟩ := h.2 hf; exact ⟨z, d, es, h1⟩, h.1.bufOK⟩
termination_by structural e => e
theorem Exprs.OptOK.bufOK : ∀ {es : Exprs} {T : Nat → Prop}, es.OptOK T → es.BufOK
  | .nil, _, _ => trivial
  | .cons e es, _, h => by simp only [Exprs.OptOK] at h; exact ⟨h.1.bufOK, h.2.bufOK⟩
termination_by structural e => e
theorem Binds.OptOK.bufOK : ∀ {bs : Binds} {T : Nat → Prop}, bs.OptOK T → bs.BufOK
  | .nil, _, _ => trivial
  | .cons x e bs, _, h => by simp only [Binds.OptOK] at h; exact ⟨h.1.bufOK, h.2.2.bufOK⟩
termination_by structural e => e
end

mutual
theorem Expr.OptOK.scope : ∀ {e : Expr} {T : Nat → Prop}, e.OptOK T → ∀ y, FreeIn y e → T y
  | .undef, _, _, y, hy => by simp [FreeIn] at hy
  | .var x _ _, _, h, y, hy => by simp only [FreeIn] at hy; subst hy; exact h
  | .const _, _, _, y, hy => by simp [FreeIn] at hy
  | .lets bs b, _, h, y, hy => by
    simp only [Expr.OptOK] at h
    simp only [FreeIn] at hy
    rcases hy with hy | ⟨h1, hy⟩
    · exact h.1.scope y hy
    · exact (h.2.scope y hy).resolve_left h1
  | .bin .., _, h, y, hy => by
    simp only [Expr.OptOK] at h
    simp only [FreeIn] at hy
    exact hy.elim (h.1.scope y) (h.2.scope y)
  | .not _, _, h, y, hy => by
    simp only [Expr.OptOK] at h
    simp only [FreeIn] at hy
    exact Expr.OptOK.scope h y hy
  | .select .., _, h, y, hy => by
    simp only [Expr.OptOK] at h
    simp only [FreeIn] at hy
    rcases hy with hy | hy | hy
    · exact h.1.scope y hy
    · exact h.2.1.scope y hy
    · exact h.2.2.scope y hy
  | .call fn as, _, h, y, hy => by
    simp only [Expr.OptOK] at h
    simp only [FreeIn] at hy
    exact h.1.scope y hy
termination_by structural e => e
theorem Exprs.OptOK.scope : ∀ {es : Exprs} {T : Nat → Prop}, es.OptOK T → ∀ y, FreeInArgs y es → T y
  | .nil, _, _, y, hy => by simp [FreeInArgs] at hy
  | .cons e es, _, h, y, hy => by
    simp only [Exprs.OptOK] at h
    simp only [FreeInArgs] at hy
    exact hy.elim (h.1.scope y) (h.2.scope y)
termination_by structural e => e
theorem Binds.OptOK.scope : ∀ {bs : Binds} {T : Nat → Prop}, bs.OptOK T → ∀ y, FreeInBinds y bs → T y
  | .nil, _, _, y, hy => by simp [FreeInBinds] at hy
  | .cons x e bs, _, h, y, hy => by
    simp only [Binds.OptOK] at h
    simp only [FreeInBinds] at hy
    rcases hy with hy | ⟨h1, hy⟩
    · exact h.1.scope y hy
    · exact (h.2.2.scope y hy).resolve_left h1
termination_by structural e => e
end

theorem Expr.OptOK.reads {e : Expr} {T : Nat → Prop} (h : e.OptOK T) {p : DepO} {y : Nat} (hr : ReadsO p y e) : T y :=
  h.scope y ((freeIn_iff_reads h.bufOK y).mpr ⟨p, hr⟩)

theorem Interval.OptOK.maxEnd {i : Interval} {T : Nat → Prop} (h : i.OptOK T) : i.maxEnd.OptOK T := h.2

theorem Interval.OptOK.bufOK {i : Interval} {T : Nat → Prop} (h : i.OptOK T) : i.BufOK := ⟨h.1.bufOK, h.maxEnd.bufOK⟩

theorem Interval.OptOK.reads {i : Interval} {T : Nat → Prop} (h : i.OptOK T) {p : DepO} {y : Nat} (hr : i.Reads p y) : T y :=
  Or.elim hr h.1.reads h.maxEnd.reads

theorem DimE.OptOK.bufOK {d : DimE} {T : Nat → Prop} (h : d.OptOK T) : d.BufOK := ⟨h.1.bufOK, h.2.1.bufOK, h.2.2.bufOK⟩

theorem DimE.OptOK.reads {d : DimE} {T : Nat → Prop} (h : d.OptOK T) {p : DepO} {y : Nat} (hr : d.Reads p y) : T y := by
  rcases hr with hr | hr | hr
  · exact h.1.reads hr
  · exact h.2.1.reads hr
  · exact h.2.2.reads hr

mutual
theorem Stmt.OptOK.out : ∀ {s : Stmt} {T M : Nat → Prop}, s.OptOK T M → s.BufOK ∧ s.ClosOK ∧ ∀ p y, s.Uses p y → T y
  | .undef, _, _, _ => ⟨trivial, trivial, fun p y hy => by simp [Stmt.Uses] at hy⟩
  | .call .., T, _, h => by
    simp only [Stmt.OptOK] at h
    refine ⟨fun e he => (h.2.2 e he).bufOK, trivial, fun p y hy => ?_⟩
    simp only [Stmt.Uses] at hy
    rcases hy with hy | hy | ⟨e, he, hy⟩
    · exact h.1 y hy.1
    · exact h.2.1 y hy.1
    · exact (h.2.2 e he).reads hy
  | .copy .., _, _, h => by simp [Stmt.OptOK] at h
  | .lets bs body c, T, _, h => by
    simp only [Stmt.OptOK] at h
    obtain ⟨g1, g2, g3⟩ := h.2.2.out
    refine ⟨⟨h.2.1.bufOK, g1⟩, ⟨fun hc => by simp [h.1] at hc, g2⟩, fun p y hy => ?_⟩
    simp only [Stmt.Uses] at hy
    rcases hy with ⟨q, _, hy⟩ | ⟨h1, hy⟩
    · exact h.2.1.scope y ((freeInBinds_iff_reads h.2.1.bufOK y).mpr ⟨q, hy⟩)
    · exact (g3 p y hy).resolve_left h1
  | .block .nil, _, _, h => by simp [Stmt.OptOK] at h
  | .block (.cons s ss), T, _, h => by
    simp only [Stmt.OptOK] at h
    obtain ⟨g1, g2, g3⟩ := h.2.1.out
    obtain ⟨k1, k2, k3⟩ := h.2.2.out
    exact ⟨⟨g1, k1⟩, ⟨g2, k2⟩, fun p y hy => Or.elim hy (g3 p y) (k3 p y)⟩
  | .loop x wk b st body, T, _, h => by
    simp only [Stmt.OptOK] at h
    obtain ⟨h1, h2, h3, h4, h5, h6⟩ := h
    obtain ⟨g1, g2, g3⟩ := h6.out
    refine ⟨⟨h4.bufOK, h5.bufOK, h2, g1⟩, g2, fun p y hy => ?_⟩
    simp only [Stmt.Uses] at hy
    rcases hy with hy | hy | hy | ⟨hy1, hy⟩
    · exact h4.reads hy
    · exact h5.reads hy
    · exact (h3 y ((freeIn_iff_reads h2 y).mpr ⟨p, hy⟩)).1
    · exact (g3 p y hy).resolve_left hy1
  | .allocate x _ e ds body, T, _, h => by
    simp only [Stmt.OptOK] at h
    obtain ⟨h1, h2, h3, h4⟩ := h
    obtain ⟨g1, g2, g3⟩ := h4.out
    refine ⟨⟨h2.bufOK, fun d hd => (h3 d hd).bufOK, g1⟩, g2, fun p y hy => ?_⟩
    simp only [Stmt.Uses] at hy
    rcases hy with hy | ⟨d, hd, hy⟩ | ⟨hy1, hy⟩
    · exact h2.reads hy
    · exact (h3 d hd).reads hy
    · exact (g3 p y hy).resolve_left hy1
  | .makeBuffer x b e ds body, T, _, h => by
    simp only [Stmt.OptOK] at h
    obtain ⟨h1, h0, h2, h3, h4⟩ := h
    obtain ⟨g1, g2, g3⟩ := h4.out
    refine ⟨⟨h0.bufOK, h2.bufOK, fun d hd => (h3 d hd).bufOK, g1⟩, g2, fun p y hy => ?_⟩
    simp only [Stmt.Uses] at hy
    rcases hy with hy | hy | ⟨d, hd, hy⟩ | ⟨hy1, hy⟩
    · exact h0.reads hy
    · exact h2.reads hy
    · exact (h3 d hd).reads hy
    · exact (g3 p y hy).resolve_left hy1
  | .constantBuffer x _ body, T, _, h => by
    simp only [Stmt.OptOK] at h
    obtain ⟨g1, g2, g3⟩ := h.2.out
    refine ⟨g1, g2, fun p y hy => ?_⟩
    simp only [Stmt.Uses] at hy
    exact (g3 p y hy.2).resolve_left hy.1
  | .cloneBuffer x src body, T, _, h => by
    simp only [Stmt.OptOK] at h
    obtain ⟨g1, g2, g3⟩ := h.2.2.out
    refine ⟨g1, g2, fun p y hy => ?_⟩
    simp only [Stmt.Uses] at hy
    rcases hy with hy | ⟨hy1, hy⟩ | hy
    · rw [hy.1]; exact h.2.1
    · exact (g3 p y hy).resolve_left hy1
    · rw [hy.1]; exact h.2.1
  | .cropBuffer x src bs body, T, _, h => by
    simp only [Stmt.OptOK] at h
    obtain ⟨h1, h2, h3, _, h4⟩ := h
    obtain ⟨g1, g2, g3⟩ := h4.out
    refine ⟨⟨fun i hi => (h3 i hi).bufOK, g1⟩, g2, fun p y hy => ?_⟩
    simp only [Stmt.Uses] at hy
    rcases hy with ⟨i, hi, hy⟩ | hy | ⟨hy1, hy⟩ | hy
    · exact (h3 i hi).reads hy
    · rw [hy.1]; exact h2
    · exact (g3 p y hy).resolve_left hy1
    · rw [hy.1]; exact h2
  | .cropDim x src _ b body, T, _, h => by
    simp only [Stmt.OptOK] at h
    obtain ⟨h1, h2, h3, h4⟩ := h
    obtain ⟨g1, g2, g3⟩ := h4.out
    refine ⟨⟨h3.bufOK, g1⟩, g2, fun p y hy => ?_⟩
    simp only [Stmt.Uses] at hy
    rcases hy with hy | hy | ⟨hy1, hy⟩ | hy
    · exact h3.reads hy
    · rw [hy.1]; exact h2
    · exact (g3 p y hy).resolve_left hy1
    · rw [hy.1]; exact h2
  | .sliceBuffer x src es body, T, _, h => by
    simp only [Stmt.OptOK] at h
    obtain ⟨h1, h2, h3, h4⟩ := h
    obtain ⟨g1, g2, g3⟩ := h4.out
    refine ⟨⟨fun i hi => (h3 i hi).bufOK, g1⟩, g2, fun p y hy => ?_⟩
    simp only [Stmt.Uses] at hy
    rcases hy with ⟨i, hi, hy⟩ | hy | ⟨hy1, hy⟩ | hy
    · exact (h3 i hi).reads hy
    · rw [hy.1]; exact h2
    · exact (g3 p y hy).resolve_left hy1
    · rw [hy.1]; exact h2
  | .sliceDim x src _ b body, T, _, h => by
    simp only [Stmt.OptOK] at h
    obtain ⟨h1, h2, h3, h4⟩ := h
    obtain ⟨g1, g2, g3⟩ := h4.out
    refine ⟨⟨h3.bufOK, g1⟩, g2, fun p y hy => ?_⟩
    simp only [Stmt.Uses] at hy
    rcases hy with hy | hy | ⟨hy1, hy⟩ | hy
    · exact h3.reads hy
    · rw [hy.1]; exact h2
    · exact (g3 p y hy).resolve_left hy1
    · rw [hy.1]; exact h2
  | .transpose x src _ body, T, _, h => by
    simp only [Stmt.OptOK] at h
    obtain ⟨h1, h2, _, h4⟩ := h
    obtain ⟨g1, g2, g3⟩ := h4.out
    refine ⟨g1, g2, fun p y hy => ?_⟩
    simp only [Stmt.Uses] at hy
    rcases hy with hy | ⟨hy1, hy⟩ | hy
    · rw [hy.1]; exact h2
    · exact (g3 p y hy).resolve_left hy1
    · rw [hy.1]; exact h2
  | .async x task body, T, _, h => by
    simp only [Stmt.OptOK] at h
    obtain ⟨h1, _, h3, h4⟩ := h
    obtain ⟨g1, g2, g3⟩ := h3.out
    obtain ⟨k1, k2, k3⟩ := h4.out
    exact ⟨⟨h1, g1, k1⟩, ⟨g2, k2⟩, fun p y hy => Or.elim hy.2 (g3 p y) (k3 p y)⟩
  | .check c, T, _, h => by
    simp only [Stmt.OptOK] at h
    exact ⟨h.1.bufOK, trivial, fun p y hy => h.1.reads hy⟩
termination_by structural s => s
theorem Stmts.OptOK.out : ∀ {s : Stmts} {T M : Nat → Prop}, s.OptOK T M → s.BufOK ∧ s.ClosOK ∧ ∀ p y, s.Uses p y → T y
  | .nil, _, _, _ => ⟨trivial, trivial, fun p y hy => by simp [Stmts.Uses] at hy⟩
  | .cons s ss, T, _, h => by
    simp only [Stmts.OptOK] at h
    obtain ⟨g1, g2, g3⟩ := h.2.1.out
    obtain ⟨k1, k2, k3⟩ := h.2.2.out
    exact ⟨⟨g1, k1⟩, ⟨g2, k2⟩, fun p y hy => Or.elim hy (g3 p y) (k3 p y)⟩
termination_by structural s => s
end

/-! ## Expressions -/

/-- The symbols in scope, without `x`. -/
def withoutSym (T : Nat → Prop) (x : Nat) : Nat → Prop := fun y => y ≠ x ∧ T y

theorem withoutSym_withSym {T : Nat → Prop} {x y : Nat} (h : y ≠ x) : withoutSym (withSym T y) x = withSym (withoutSym T x) y := by
  funext z
  simp only [withoutSym, withSym, eq_iff_iff]
  constructor
  · rintro ⟨h1, h2 | h2⟩
    · exact Or.inl h2
    · exact Or.inr ⟨h1, h2⟩
  · rintro (h1 | ⟨h1, h2⟩)
    · exact ⟨h1 ▸ h, Or.inl h1⟩
    · exact ⟨h1, Or.inr h2⟩

theorem withoutSym_self {T : Nat → Prop} {x : Nat} (h : ¬ T x) : withoutSym (withSym T x) x = T := by
  funext z
  simp only [withoutSym, withSym, eq_iff_iff]
  constructor
  · rintro ⟨h1, h2⟩; exact h2.resolve_left h1
  · intro h1; exact ⟨fun e => h (e ▸ h1), Or.inr h1⟩

theorem withoutSym_syms {T : Nat → Prop} {x : Nat} {sy : List Nat} (h : x ∉ sy) :
    withoutSym (fun y => y ∈ sy ∨ T y) x = fun y => y ∈ sy ∨ withoutSym T x y := by
  funext z
  simp only [withoutSym, eq_iff_iff]
  constructor
  · rintro ⟨h1, h2 | h2⟩
    · exact Or.inl h2
    · exact Or.inr ⟨h1, h2⟩
  · rintro (h1 | ⟨h1, h2⟩)
    · exact ⟨fun e => h (e ▸ h1), Or.inl h1⟩
    · exact ⟨h1, Or.inr h2⟩

theorem Binds.OptOK.fresh : ∀ {bs : Binds} {T : Nat → Prop}, bs.OptOK T → ∀ y ∈ bs.syms, ¬ T y
  | .nil, _, _, y, hy => by simp [Binds.syms] at hy
  | .cons x e bs, T, h, y, hy => by
    simp only [Binds.OptOK] at h
    simp only [Binds.syms, List.mem_cons] at hy
    rcases hy with rfl | hy
    · exact h.2.1
    · exact fun hT => h.2.2.fresh y hy (Or.inr hT)

/-- What the substitution of `x` by `src` makes free. -/
def SubFree (x src : Nat) (F F' : Nat → Prop) : Prop := ∀ y, F' y → (y ≠ x ∧ F y) ∨ (y = src ∧ F x)

theorem substE_var {x src : Nat} (e : Expr) {z : Nat} {f : Field} {d : Int} (h : substE x (symE src) e = .var z f d) (hf : f ≠ .none) :
    (z ≠ x ∧ e = .var z f d) ∨ (z = src ∧ e = .var x f d) := by
  cases e with
  | var y g k =>
    simp only [substE] at h
    split at h
    · rename_i hy
      subst hy
      cases g <;> simp at h <;> first | exact absurd h.2.1.symm hf | (obtain ⟨rfl, rfl, rfl⟩ := h; exact Or.inr ⟨rfl, rfl⟩) | skip
      all_goals (first | exact absurd h.2.1.symm hf | skip)
    · rename_i hy
      obtain ⟨rfl, rfl, rfl⟩ := (by simpa using h : y = z ∧ g = f ∧ k = d)
      exact Or.inl ⟨hy, rfl⟩
  | bin op a b => simp only [substE, rebuildBin, mkBin] at h; split at h <;> [skip; split at h] <;> cases h
  | _ => simp [substE] at h

theorem plain_subst {x src z : Nat} (hz : z ≠ x) (hs : z ≠ src) : ∀ {es : Exprs} {d : Nat}, plainIndices z d es → plainIndices z d (substArgs x (symE src) es)
  | .nil, _, _ => trivial
  | .cons e es, d, h => by
    simp only [plainIndices] at h
    simp only [substArgs, plainIndices]
    refine ⟨fun he => ?_, plain_subst hz hs h.2⟩
    rcases substE_var e he (by simp) with h1 | h1
    · exact h.1 h1.2
    · exact hs h1.1

theorem plain_subst_self {x src : Nat} : ∀ {es : Exprs} {d : Nat}, ¬ FreeInArgs src es → plainIndices x d es →
    plainIndices src d (substArgs x (symE src) es)
  | .nil, _, _, _ => trivial
  | .cons e es, d, hn, h => by
    simp only [plainIndices] at h
    simp only [FreeInArgs, not_or] at hn
    simp only [substArgs, plainIndices]
    refine ⟨fun he => ?_, plain_subst_self hn.2 h.2⟩
    rcases substE_var e he (by simp) with h1 | h1
    · rw [h1.2] at hn; exact hn.1 rfl
    · exact h.1 h1.2

theorem popUndef_opt {T : Nat → Prop} : ∀ {es : Exprs}, es.OptOK T → (popUndef es).OptOK T
  | .nil, h => h
  | .cons e es, h => by
    simp only [Exprs.OptOK] at h
    have := popUndef_opt h.2
    unfold popUndef
    split
    · split
      · exact ⟨h.1, trivial⟩
      · trivial
    · exact ⟨h.1, this⟩

theorem popUndef_free {y : Nat} : ∀ {es : Exprs}, FreeInArgs y (popUndef es) → FreeInArgs y es
  | .nil, h => h
  | .cons e es, h => by
    unfold popUndef at h
    split at h
    · split at h
      · simp only [FreeInArgs, or_false] at h
        exact Or.inl h
      · simp [FreeInArgs] at h
    · exact Or.elim h Or.inl fun h => Or.inr (popUndef_free h)

theorem popUndef_plain {z : Nat} : ∀ {es : Exprs} {d : Nat}, plainIndices z d es → plainIndices z d (popUndef es)
  | .nil, _, h => h
  | .cons e es, d, h => by
    simp only [plainIndices] at h
    have := popUndef_plain h.2
    unfold popUndef
    split
    · split
      · exact ⟨h.1, trivial⟩
      · trivial
    · exact ⟨h.1, this⟩

section
variable {x src : Nat}

theorem SubFree.or {F F' G G' : Nat → Prop} (h1 : SubFree x src F F') (h2 : SubFree x src G G') :
    SubFree x src (fun y => F y ∨ G y) (fun y => F' y ∨ G' y) := by
  intro y hy
  rcases hy with hy | hy
  · rcases h1 y hy with h | h
    · exact Or.inl ⟨h.1, Or.inl h.2⟩
    · exact Or.inr ⟨h.1, Or.inl h.2⟩
  · rcases h2 y hy with h | h
    · exact Or.inl ⟨h.1, Or.inr h.2⟩
    · exact Or.inr ⟨h.1, Or.inr h.2⟩

theorem enterDecl_sym {y : Nat} (h1 : y ≠ x) (h2 : y ≠ src) : enterDecl x (symE src) y = true := by
  rw [enterDeclS_iff (by simp [Expr.BufOK]) (by simp [FreeIn, Ne.symm h2])]
  simpa using h1

theorem symE_free {y : Nat} (h : y ≠ src) : ¬ FreeIn y (symE src) := by simp [FreeIn, Ne.symm h]

mutual
theorem Expr.OptOK.subst (hne : src ≠ x) : ∀ {e : Expr} {T : Nat → Prop}, e.OptOK T → T x → T src → ¬ FreeIn src e →
    SubOKE x (symE src) e ∧ (substE x (symE src) e).OptOK (withoutSym T x) ∧ SubFree x src (fun y => FreeIn y e) (fun y => FreeIn y (substE x (symE src) e))
  | .undef, _, _, _, _, _ => ⟨trivial, trivial, fun y hy => by simp [substE, FreeIn] at hy⟩
  | .var y f d, T, h, hx, hs, hn => by
    refine ⟨fun _ _ => ⟨src, -1, rfl⟩, ?_⟩
    simp only [Expr.OptOK] at h
    simp only [FreeIn] at hn
    by_cases e : y = x
    · subst e
      have : ∃ g k, substE y (symE src) (.var y f d) = .var src g k := by
        simp only [substE, if_true]
        cases f <;> exact ⟨_, _, rfl⟩
      obtain ⟨g, k, hk⟩ := this
      rw [hk]
      exact ⟨⟨hne, hs⟩, fun z hz => Or.inr ⟨by simpa [FreeIn, eq_comm] using hz, by simp [FreeIn]⟩⟩
    · have : substE x (symE src) (.var y f d) = .var y f d := by simp [substE, e]
      rw [this]
      exact ⟨⟨e, h⟩, fun z hz => Or.inl ⟨by simp only [FreeIn] at hz; rw [← hz]; exact e, hz⟩⟩
  | .const _, _, _, _, _, _ => ⟨trivial, trivial, fun y hy => by simp [substE, FreeIn] at hy⟩
  | .lets bs b, T, h, hx, hs, hn => by
    simp only [Expr.OptOK] at h
    simp only [FreeIn, not_or, not_and] at hn
    obtain ⟨g1, g2, g3, g4⟩ := h.1.subst hne hx hs hn.1
    have hxs : x ∉ bs.syms := fun hh => h.1.fresh x hh hx
    have hss : src ∉ bs.syms := fun hh => h.1.fresh src hh hs
    obtain ⟨k1, k2, k3⟩ := h.2.subst hne (Or.inr hx) (Or.inr hs) (hn.2 hss)
    have hall : bs.toList.all (fun p => enterDecl x (symE src) p.1) = true := by
      rw [binds_all (by simp [Expr.BufOK]) g1]; simpa using hxs
    refine ⟨⟨g1, fun _ => k1⟩, ?_⟩
    simp only [substE, hall, if_true, Expr.OptOK, g4]
    rw [withoutSym_syms hxs] at k2
    refine ⟨⟨g2, k2⟩, fun y hy => ?_⟩
    simp only [FreeIn, g4] at hy ⊢
    rcases hy with hy | ⟨hy1, hy⟩
    · rcases g3 y hy with h | h
      · exact Or.inl ⟨h.1, Or.inl h.2⟩
      · exact Or.inr ⟨h.1, Or.inl h.2⟩
    · rcases k3 y hy with h | h
      · exact Or.inl ⟨h.1, Or.inr ⟨hy1, h.2⟩⟩
      · exact Or.inr ⟨h.1, Or.inr ⟨hxs, h.2⟩⟩
  | .bin op a b, T, h, hx, hs, hn => by
    simp only [Expr.OptOK] at h
    simp only [FreeIn, not_or] at hn
    obtain ⟨g1, g2, g3⟩ := h.1.subst hne hx hs hn.1
    obtain ⟨k1, k2, k3⟩ := h.2.subst hne hx hs hn.2
    refine ⟨⟨g1, k1⟩, ?_⟩
    have key : substE x (symE src) (.bin op a b) = .bin op (substE x (symE src) a) (substE x (symE src) b) ∨
        substE x (symE src) (.bin op a b) = .bin op (substE x (symE src) b) (substE x (symE src) a) := by
      simp only [substE, rebuildBin, mkBin]
      split
      · rename_i hh; left; rw [hh.1, hh.2]
      · split
        · exact Or.inr rfl
        · exact Or.inl rfl
    rcases key with e | e <;> rw [e]
    · exact ⟨⟨g2, k2⟩, g3.or k3⟩
    · refine ⟨⟨k2, g2⟩, fun y hy => ?_⟩
      simp only [FreeIn] at hy ⊢
      exact (g3.or k3) y hy.symm
  | .not a, T, h, hx, hs, hn => by
    simp only [Expr.OptOK] at h
    simp only [FreeIn] at hn
    obtain ⟨g1, g2, g3⟩ := Expr.OptOK.subst hne h hx hs hn
    exact ⟨g1, g2, g3⟩
  | .select c u v, T, h, hx, hs, hn => by
    simp only [Expr.OptOK] at h
    simp only [FreeIn, not_or] at hn
    obtain ⟨g1, g2, g3⟩ := h.1.subst hne hx hs hn.1
    obtain ⟨k1, k2, k3⟩ := h.2.1.subst hne hx hs hn.2.1
    obtain ⟨j1, j2, j3⟩ := h.2.2.subst hne hx hs hn.2.2
    exact ⟨⟨g1, k1, j1⟩, ⟨g2, k2, j2⟩, g3.or (k3.or j3)⟩
  | .call fn as, T, h, hx, hs, hn => by
    simp only [Expr.OptOK] at h
    simp only [FreeIn] at hn
    obtain ⟨g1, g2, g3⟩ := h.1.subst hne hx hs hn
    by_cases hf : fn = .bufferAt
    · obtain ⟨z, d, es, rfl, hp⟩ := h.2 hf
      simp only [FreeInArgs, FreeIn, not_or] at hn
      obtain ⟨z', d', he, hp'⟩ : ∃ z' d', substE x (symE src) (.var z .none d) = .var z' .none d' ∧ plainIndices z' 0 (substArgs x (symE src) es) := by
        by_cases e : z = x
        · subst e
          exact ⟨src, -1, by simp [substE], plain_subst_self hn.2 hp⟩
        · exact ⟨z, d, by simp [substE, e], plain_subst e hn.1 hp⟩
      simp only [substArgs, he, Exprs.OptOK] at g2 g3
      refine ⟨⟨g1, fun z2 d2 es2 _ hz2 => ?_⟩, ?_⟩
      · simp only [substArgs, he, Exprs.cons.injEq, Expr.var.injEq] at hz2
        rw [← hz2.1.1, ← hz2.2]; exact hp'
      · rw [substE, hf]
        simp only [substArgs, he, fixBufferAt, padArgs, bufAtArgs_plain hp']
        refine ⟨⟨⟨g2.1, popUndef_opt g2.2⟩, fun _ => ⟨_, _, _, rfl, popUndef_plain hp'⟩⟩, fun y hy => ?_⟩
        simp only [FreeIn, FreeInArgs] at hy ⊢
        exact g3 y (hy.imp id popUndef_free)
    · have e : substE x (symE src) (.call fn as) = .call fn (substArgs x (symE src) as) := by
        simp only [substE, fixBufferAt]
        cases fn <;> first | rfl | exact absurd rfl hf
      rw [e]
      exact ⟨⟨g1, fun _ _ _ hh => absurd hh hf⟩, ⟨g2, fun hh => absurd hh hf⟩, g3⟩
termination_by structural e => e
theorem Exprs.OptOK.subst (hne : src ≠ x) : ∀ {e : Exprs} {T : Nat → Prop}, e.OptOK T → T x → T src → ¬ FreeInArgs src e →
    e.SubOK x (symE src) ∧ (substArgs x (symE src) e).OptOK (withoutSym T x) ∧ SubFree x src (fun y => FreeInArgs y e) (fun y => FreeInArgs y (substArgs x (symE src) e))
  | .nil, _, _, _, _, _ => ⟨trivial, trivial, fun y hy => by simp [substArgs, FreeInArgs] at hy⟩
  | .cons a b, T, h, hx, hs, hn => by
    simp only [Exprs.OptOK] at h
    simp only [FreeInArgs, not_or] at hn
    obtain ⟨g1, g2, g3⟩ := h.1.subst hne hx hs hn.1
    obtain ⟨k1, k2, k3⟩ := h.2.subst hne hx hs hn.2
    exact ⟨⟨g1, k1⟩, ⟨g2, k2⟩, g3.or k3⟩
termination_by structural e => e
theorem Binds.OptOK.subst (hne : src ≠ x) : ∀ {e : Binds} {T : Nat → Prop}, e.OptOK T → T x → T src → ¬ FreeInBinds src e →
    e.SubOK x (symE src) ∧ (substBinds x (symE src) e).OptOK (withoutSym T x) ∧
      SubFree x src (fun y => FreeInBinds y e) (fun y => FreeInBinds y (substBinds x (symE src) e)) ∧ (substBinds x (symE src) e).syms = e.syms
  | .nil, _, _, _, _, _ => ⟨trivial, trivial, fun y hy => by simp [substBinds, FreeInBinds] at hy, rfl⟩
  | .cons u a b, T, h, hx, hs, hn => by
    simp only [Binds.OptOK] at h
    have hux : u ≠ x := fun e => h.2.1 (e ▸ hx)
    have hus : u ≠ src := fun e => h.2.1 (e ▸ hs)
    simp only [FreeInBinds, not_or, not_and] at hn
    obtain ⟨g1, g2, g3⟩ := h.1.subst hne hx hs hn.1
    obtain ⟨k1, k2, k3, k4⟩ := h.2.2.subst hne (Or.inr hx) (Or.inr hs) (hn.2 (Ne.symm hus))
    refine ⟨⟨g1, symE_free hus, fun d hd => ?_, fun _ => k1⟩, ?_⟩
    · rw [hd] at h; exact h.2.1 h.1
    · simp only [substBinds, enterDecl_sym hux hus, if_true, Binds.OptOK, Binds.syms, k4]
      rw [withoutSym_withSym hux] at k2
      refine ⟨⟨g2, fun hh => h.2.1 hh.2, k2⟩, fun y hy => ?_, trivial⟩
      simp only [FreeInBinds] at hy ⊢
      rcases hy with hy | ⟨hy1, hy⟩
      · rcases g3 y hy with h | h
        · exact Or.inl ⟨h.1, Or.inl h.2⟩
        · exact Or.inr ⟨h.1, Or.inl h.2⟩
      · rcases k3 y hy with h | h
        · exact Or.inl ⟨h.1, Or.inr ⟨hy1, h.2⟩⟩
        · exact Or.inr ⟨h.1, Or.inr ⟨Ne.symm hux, h.2⟩⟩
termination_by structural e => e
end

/-! ## Intervals -/

theorem Interval.OptOK.subst (hne : src ≠ x) {i : Interval} {T : Nat → Prop} (h : i.OptOK T) (hx : T x) (hs : T src)
    (hn : ¬ FreeIn src i.min ∧ ¬ FreeIn src i.maxEnd) : i.SubOK x (symE src) ∧ (substI x (symE src) i).OptOK (withoutSym T x) ∧
      (substI x (symE src) i).maxEnd = substE x (symE src) i.maxEnd := by
  obtain ⟨g1, g2, g3⟩ := h.1.subst hne hx hs hn.1
  obtain ⟨k1, k2, k3⟩ := h.2.subst hne hx hs hn.2
  have hp := substI_isPoint (t := x) (r := symE src) rfl (i := i) ⟨g1, k1⟩
  have e1 : (substI x (symE src) i).maxEnd = substE x (symE src) i.maxEnd := by
    unfold Interval.maxEnd
    rw [hp, substI_min]
    split
    · rfl
    · rename_i hh; rw [substI_max (by simpa using hh)]
  refine ⟨⟨g1, k1⟩, ⟨?_, ?_⟩, e1⟩
  · rw [substI_min]; exact g2
  · rw [e1]; exact k2

theorem DimE.OptOK.subst (hne : src ≠ x) {d : DimE} {T : Nat → Prop} (h : d.OptOK T) (hx : T x) (hs : T src)
    (hn : (¬ FreeIn src d.bounds.min ∧ ¬ FreeIn src d.bounds.maxEnd) ∧ ¬ FreeIn src d.stride ∧ ¬ FreeIn src d.fold) :
    d.SubOK x (symE src) ∧ (substD x (symE src) d).OptOK (withoutSym T x) := by
  obtain ⟨g1, g2, _⟩ := h.1.subst hne hx hs hn.1
  obtain ⟨k1, k2, _⟩ := h.2.1.subst hne hx hs hn.2.1
  obtain ⟨j1, j2, _⟩ := h.2.2.subst hne hx hs hn.2.2
  exact ⟨⟨g1, k1, j1⟩, ⟨g2, k2, j2⟩⟩

theorem dropOwn_opt {T : Nat → Prop} {z d : Nat} {i : Interval} (h : i.OptOK T) : (dropOwn z d i).OptOK T := by
  have hd : ∀ {f : Field} {e : Expr}, e.OptOK T → (dropEnd z f d e).OptOK T := by
    intro f e he; unfold dropEnd; split
    · trivial
    · exact he
  unfold dropOwn
  split
  · exact ⟨hd h.1, by simpa [Interval.maxEnd, Interval.isPoint] using hd h.2⟩
  · exact h

theorem dropOwn_indep {z d : Nat} {i : Interval} (h : EndIndep z d i.min ∧ EndIndep z d i.maxEnd) :
    EndIndep z d (dropOwn z d i).min ∧ EndIndep z d (dropOwn z d i).maxEnd := by
  have hd : ∀ {f : Field} {e : Expr}, EndIndep z d e → EndIndep z d (dropEnd z f d e) := by
    intro f e he; unfold dropEnd; split
    · exact Or.inl (by simp [FreeIn])
    · exact he
  unfold dropOwn
  split
  · exact ⟨hd h.1, by simpa [Interval.maxEnd, Interval.isPoint] using hd h.2⟩
  · exact h

theorem EndIndep.subst (hne : src ≠ x) {T : Nat → Prop} {e : Expr} (ho : e.OptOK T) (hx : T x) (hs : T src) (hn : ¬ FreeIn src e) {z d : Nat} (hz : z ≠ src)
    (h : EndIndep z d e) : EndIndep (substSym x (symE src) z) d (substE x (symE src) e) := by
  obtain ⟨_, _, g3⟩ := ho.subst hne hx hs hn
  by_cases e1 : z = x
  · subst e1
    simp only [substSym, if_true]
    rcases h with h | rfl | rfl
    · left
      intro hf
      rcases g3 src hf with h1 | h1
      · exact hn h1.2
      · exact h h1.2
    · right; left; simp [substE]
    · right; right; simp [substE]
  · simp only [substSym, e1, if_false]
    rcases h with h | rfl | rfl
    · left
      intro hf
      rcases g3 z hf with h1 | h1
      · exact h h1.2
      · exact hz h1.1
    · right; left; simp [substE, e1]
    · right; right; simp [substE, e1]

theorem CropIndep.subst (hne : src ≠ x) {T : Nat → Prop} (hx : T x) (hs : T src) {z : Nat} (hz : z ≠ src) : ∀ {bs : List Interval} {d : Nat},
    (∀ i ∈ bs, i.OptOK T ∧ ¬ FreeIn src i.min ∧ ¬ FreeIn src i.maxEnd) → CropIndep z d bs →
    (∀ i ∈ bs, i.SubOK x (symE src)) ∧ (∀ i ∈ substCs x (symE src) (substSym x (symE src) z) d bs, i.OptOK (withoutSym T x)) ∧
      CropIndep (substSym x (symE src) z) d (substCs x (symE src) (substSym x (symE src) z) d bs)
  | [], _, _, _ => by simp [substCs, CropIndep]
  | i :: is, d, h, hc => by
    simp only [CropIndep] at hc
    obtain ⟨h1, h2⟩ := h i (by simp)
    obtain ⟨g1, g2, g3⟩ := h1.subst hne hx hs h2
    obtain ⟨k1, k2, k3⟩ := CropIndep.subst hne hx hs hz (bs := is) (fun j hj => h j (by simp [hj])) hc.2.2
    simp only [substCs, List.mem_cons, forall_eq_or_imp, CropIndep]
    refine ⟨⟨g1, k1⟩, ⟨dropOwn_opt g2, k2⟩, ?_⟩
    have := dropOwn_indep (z := substSym x (symE src) z) (d := d) (i := substI x (symE src) i)
      ⟨by rw [substI_min]; exact hc.1.subst hne h1.1 hx hs h2.1 hz, by rw [g3]; exact hc.2.1.subst hne h1.2 hx hs h2.2 hz⟩
    exact ⟨this.1, this.2, k3⟩

end

/-! ## Statements -/

theorem notFree_of_reads {T : Nat → Prop} {e : Expr} {src : Nat} (h : e.OptOK T) (hn : ∀ p : Dep, ¬ ReadsO (some p) src e) : ¬ FreeIn src e := by
  intro hf
  obtain ⟨p, q, rfl, hq⟩ := (freeIn_iff_reads h.bufOK src).mp hf
  exact hn q ⟨q, rfl, hq⟩

theorem notFreeI {T : Nat → Prop} {i : Interval} {src : Nat} (h : i.OptOK T) (hn : ∀ p : Dep, ¬ i.Reads (some p) src) :
    ¬ FreeIn src i.min ∧ ¬ FreeIn src i.maxEnd :=
  ⟨notFree_of_reads h.1 fun p hp => hn p (Or.inl hp), notFree_of_reads h.2 fun p hp => hn p (Or.inr hp)⟩

theorem notFreeD {T : Nat → Prop} {d : DimE} {src : Nat} (h : d.OptOK T) (hn : ∀ p : Dep, ¬ d.Reads (some p) src) :
    (¬ FreeIn src d.bounds.min ∧ ¬ FreeIn src d.bounds.maxEnd) ∧ ¬ FreeIn src d.stride ∧ ¬ FreeIn src d.fold :=
  ⟨notFreeI h.1 fun p hp => hn p (Or.inl hp), notFree_of_reads h.2.1 fun p hp => hn p (Or.inr (Or.inl hp)),
    notFree_of_reads h.2.2 fun p hp => hn p (Or.inr (Or.inr hp))⟩

theorem Stmts.optOK_iff {T M : Nat → Prop} : ∀ {ss : Stmts}, ss.OptOK T M ↔ ∀ s ∈ ss.toList, s ≠ .undef ∧ s.OptOK T M
  | .nil => by simp [Stmts.OptOK, Stmts.toList]
  | .cons s ss => by simp [Stmts.OptOK, Stmts.toList, Stmts.optOK_iff (ss := ss), and_assoc]

theorem block_opt {T M : Nat → Prop} {ss : Stmts} (h : (Stmt.block ss).OptOK T M) : ss.OptOK T M := by
  cases ss with
  | nil => trivial
  | cons s ss => exact h

/-- A property of statements that holds for a block if it holds for its statements. -/
theorem flattenBlocks_all {P : Stmt → Prop} (hP : ∀ ss, P (.block ss) → ∀ s ∈ ss.toList, P s) : ∀ {ss : List Stmt}, (∀ s ∈ ss, P s) → ∀ s ∈ flattenBlocks ss, P s
  | [], _, s, hs => by simp [flattenBlocks] at hs
  | t :: ss, h, s, hs => by
    have ht := h t (by simp)
    have hfl : flattenBlocks (t :: ss) = t.flat ++ flattenBlocks ss := by
      cases t <;> simp [flattenBlocks, Stmt.flat]
    rw [hfl, List.mem_append] at hs
    rcases hs with hs | hs
    · cases t with
      | block b => exact hP b ht s hs
      | _ => simp only [Stmt.flat, List.mem_singleton] at hs; rw [hs]; exact ht
    · exact flattenBlocks_all hP (fun s hs => h s (by simp [hs])) s hs

theorem blockMake_all {P : Stmt → Prop} (hu : P .undef) (hP : ∀ ss, P (.block ss) → ∀ s ∈ ss.toList, P s)
    (hB : ∀ ss : List Stmt, ss ≠ [] → (∀ s ∈ ss, s ≠ .undef ∧ P s) → P (.block (.ofList ss))) {ss : List Stmt} (h : ∀ s ∈ ss, P s) : P (blockMake ss) := by
  have h1 : ∀ s ∈ eraseUndefs (flattenBlocks ss), s ≠ .undef ∧ P s := fun s hs => by
    simp only [eraseUndefs, List.mem_filter] at hs
    exact ⟨by rintro rfl; simp [Stmt.defined] at hs, flattenBlocks_all hP h s hs.1⟩
  unfold blockMake
  split
  · exact hu
  · rename_i s e; exact (h1 s (by simp [e])).2
  · rename_i hn _
    exact hB _ hn h1

theorem blockMake_opt {T M : Nat → Prop} {ss : List Stmt} (h : ∀ s ∈ ss, s.OptOK T M) : (blockMake ss).OptOK T M := by
  refine blockMake_all (P := fun s => s.OptOK T M) trivial (fun ss hb s hs => (Stmts.optOK_iff.1 (block_opt hb) s hs).2) (fun ss hn hs => ?_) h
  cases ss with
  | nil => exact absurd rfl hn
  | cons s ss =>
    exact ⟨(hs s (by simp)).1, (hs s (by simp)).2, Stmts.optOK_iff.2 fun u hu => hs u (by rw [Stmts.toList_ofList] at hu; simp [hu])⟩

theorem isFree_subst {x src : Nat} {c : Expr} (h : isFree c = false) : isFree (substE x (symE src) c) = false := by
  cases c with
  | call fn as =>
    cases fn <;> simp only [substE, fixBufferAt] <;> try rfl
    · cases as with
      | nil => rfl
      | cons e es =>
        cases es with
        | cons _ _ => simp only [substArgs]; unfold isFree; split <;> simp_all
        | nil =>
          cases e with
          | var y f d =>
            simp only [substArgs, substE]
            cases f <;> first | (simp [isFree] at h; done) | skip
            all_goals
              split
              · rfl
              · rfl
          | bin op a b => simp only [substArgs, substE, rebuildBin, mkBin]; split <;> [rfl; (split <;> rfl)]
          | _ => rfl
  | var y f d =>
    simp only [substE]
    split
    · cases f <;> rfl
    · rfl
  | bin op a b => simp only [substE, rebuildBin, mkBin]; split <;> [rfl; (split <;> rfl)]
  | _ => rfl

theorem substSym_scope {T : Nat → Prop} {x src z : Nat} (hne : src ≠ x) (hs : T src) (hz : T z) : withoutSym T x (substSym x (symE src) z) := by
  unfold substSym
  split
  · exact ⟨hne, hs⟩
  · rename_i h; exact ⟨h, hz⟩

mutual
/-- The symbol of a mutator can be substituted by its source, if the source is not used. -/
theorem Stmt.OptOK.subst {x src : Nat} (hne : src ≠ x) : ∀ {s : Stmt} {T M : Nat → Prop}, s.OptOK T M → T x → M x → T src → (∀ p : Dep, ¬ s.Uses (some p) src) →
    s.SubOK x (symE src) ∧ (substS x (symE src) s).OptOK (withoutSym T x) (withoutSym M x)
  | .undef, _, _, _, _, _, _, _ => ⟨trivial, trivial⟩
  | .call f i o xs, T, M, h, hx, hm, hs, hn => by
    simp only [Stmt.OptOK] at h
    have hxs : ∀ e ∈ xs, SubOKE x (symE src) e ∧ (substE x (symE src) e).OptOK (withoutSym T x) := fun e he => by
      obtain ⟨g1, g2, _⟩ := (h.2.2 e he).subst hne hx hs (notFree_of_reads (h.2.2 e he) fun p hp => hn p (Or.inr (Or.inr ⟨e, he, hp⟩)))
      exact ⟨g1, g2⟩
    refine ⟨⟨fun _ => ⟨src, -1, rfl⟩, fun e he => (hxs e he).1⟩, ?_⟩
    simp only [substS, Stmt.OptOK, List.mem_map, forall_exists_index, and_imp, forall_apply_eq_imp_iff₂]
    exact ⟨fun y hy => substSym_scope hne hs (h.1 y hy), fun y hy => substSym_scope hne hs (h.2.1 y hy), fun e he => (hxs e he).2⟩
  | .copy .., _, _, h, _, _, _, _ => by simp [Stmt.OptOK] at h
  | .lets bs body c, T, M, h, hx, hm, hs, hn => by
    simp only [Stmt.OptOK] at h
    have hnb : ¬ FreeInBinds src bs := fun hf => by
      obtain ⟨q, hq⟩ := (freeInBinds_iff_reads h.2.1.bufOK src).mp hf
      exact hn q (Or.inl ⟨q, rfl, hq⟩)
    obtain ⟨g1, g2, g3, g4⟩ := h.2.1.subst hne hx hs hnb
    have hxs : x ∉ bs.syms := fun hh => h.2.1.fresh x hh hx
    have hss : src ∉ bs.syms := fun hh => h.2.1.fresh src hh hs
    obtain ⟨k1, k2⟩ := h.2.2.subst hne (Or.inr hx) hm (Or.inr hs) fun p hp => hn p (Or.inr ⟨hss, hp⟩)
    have hall : bs.toList.all (fun p => enterDecl x (symE src) p.1) = true := by
      rw [binds_all (by simp [Expr.BufOK]) g1]; simpa using hxs
    refine ⟨⟨h.1, g1, fun _ => k1⟩, ?_⟩
    rw [withoutSym_syms hxs] at k2
    simp only [substS, hall, if_true, Stmt.OptOK, g4]
    exact ⟨trivial, g2, k2⟩
  | .block .nil, _, _, h, _, _, _, _ => by simp [Stmt.OptOK] at h
  | .block (.cons s ss), T, M, h, hx, hm, hs, hn => by
    simp only [Stmt.OptOK] at h
    obtain ⟨g1, g2⟩ := h.2.1.subst hne hx hm hs fun p hp => hn p (Or.inl hp)
    obtain ⟨k1, k2⟩ := h.2.2.subst hne hx hm hs fun p hp => hn p (Or.inr hp)
    refine ⟨⟨h.1, g1, k1⟩, ?_⟩
    simp only [substS]
    refine blockMake_opt fun u hu => ?_
    rcases List.mem_cons.1 hu with rfl | hu
    · exact g2
    · exact (Stmts.optOK_iff.1 k2 u hu).2
  | .loop y wk b st body, T, M, h, hx, hm, hs, hn => by
    simp only [Stmt.OptOK] at h
    obtain ⟨h1, h2, h3, h4, h5, h6⟩ := h
    have hyx : y ≠ x := fun e => h1 (e ▸ hx)
    have hys : y ≠ src := fun e => h1 (e ▸ hs)
    obtain ⟨g1, g2, _⟩ := h4.subst hne hx hs (notFreeI h4 fun p hp => hn p (Or.inl hp))
    obtain ⟨k1, k2, _⟩ := h5.subst hne hx hs (notFree_of_reads h5 fun p hp => hn p (Or.inr (Or.inl hp)))
    obtain ⟨j1, j2⟩ := h6.subst hne (Or.inr hx) hm (Or.inr hs) fun p hp => hn p (Or.inr (Or.inr (Or.inr ⟨Ne.symm hys, hp⟩)))
    rw [withoutSym_withSym hyx] at j2
    refine ⟨⟨symE_free hys, fun hf => (h3 x hf).2 hm, g1, k1, fun e => absurd e hyx, fun _ => j1⟩, ?_⟩
    simp only [substS, enterDecl_sym hyx hys, if_true, Stmt.OptOK]
    exact ⟨fun hh => h1 hh.2, h2, fun u hu => ⟨⟨fun e => (h3 x (e ▸ hu)).2 hm, (h3 u hu).1⟩, fun hh => (h3 u hu).2 hh.2⟩, g2, k2, j2⟩
  | .allocate y sto e ds body, T, M, h, hx, hm, hs, hn => by
    simp only [Stmt.OptOK] at h
    obtain ⟨h1, h2, h3, h4⟩ := h
    have hyx : y ≠ x := fun e => h1 (e ▸ hx)
    have hys : y ≠ src := fun e => h1 (e ▸ hs)
    obtain ⟨g1, g2, _⟩ := h2.subst hne hx hs (notFree_of_reads h2 fun p hp => hn p (Or.inl hp))
    have hd : ∀ d ∈ ds, _ := fun d hd => (h3 d hd).subst hne hx hs (notFreeD (h3 d hd) fun p hp => hn p (Or.inr (Or.inl ⟨d, hd, hp⟩)))
    obtain ⟨j1, j2⟩ := h4.subst hne (Or.inr hx) hm (Or.inr hs) fun p hp => hn p (Or.inr (Or.inr ⟨Ne.symm hys, hp⟩))
    rw [withoutSym_withSym hyx] at j2
    refine ⟨⟨symE_free hys, g1, fun d h => (hd d h).1, fun _ => j1⟩, ?_⟩
    simp only [substS, enterDecl_sym hyx hys, if_true, Stmt.OptOK, List.mem_map, forall_exists_index, and_imp, forall_apply_eq_imp_iff₂]
    exact ⟨fun hh => h1 hh.2, g2, fun d h => (hd d h).2, j2⟩
  | .makeBuffer y b e ds body, T, M, h, hx, hm, hs, hn => by
    simp only [Stmt.OptOK] at h
    obtain ⟨h1, h0, h2, h3, h4⟩ := h
    have hyx : y ≠ x := fun e => h1 (e ▸ hx)
    have hys : y ≠ src := fun e => h1 (e ▸ hs)
    obtain ⟨k1, k2, _⟩ := h0.subst hne hx hs (notFree_of_reads h0 fun p hp => hn p (Or.inl hp))
    obtain ⟨g1, g2, _⟩ := h2.subst hne hx hs (notFree_of_reads h2 fun p hp => hn p (Or.inr (Or.inl hp)))
    have hd : ∀ d ∈ ds, _ := fun d hd => (h3 d hd).subst hne hx hs (notFreeD (h3 d hd) fun p hp => hn p (Or.inr (Or.inr (Or.inl ⟨d, hd, hp⟩))))
    obtain ⟨j1, j2⟩ := h4.subst hne (Or.inr hx) hm (Or.inr hs) fun p hp => hn p (Or.inr (Or.inr (Or.inr ⟨Ne.symm hys, hp⟩)))
    rw [withoutSym_withSym hyx] at j2
    refine ⟨⟨symE_free hys, k1, g1, fun d h => (hd d h).1, fun _ => j1⟩, ?_⟩
    simp only [substS, enterDecl_sym hyx hys, if_true, Stmt.OptOK, List.mem_map, forall_exists_index, and_imp, forall_apply_eq_imp_iff₂]
    exact ⟨fun hh => h1 hh.2, k2, g2, fun d h => (hd d h).2, j2⟩
  | .constantBuffer y b body, T, M, h, hx, hm, hs, hn => by
    simp only [Stmt.OptOK] at h
    obtain ⟨h1, h4⟩ := h
    have hyx : y ≠ x := fun e => h1 (e ▸ hx)
    have hys : y ≠ src := fun e => h1 (e ▸ hs)
    obtain ⟨j1, j2⟩ := h4.subst hne (Or.inr hx) hm (Or.inr hs) fun p hp => hn p ⟨Ne.symm hys, hp⟩
    rw [withoutSym_withSym hyx] at j2
    refine ⟨⟨symE_free hys, fun _ => j1⟩, ?_⟩
    simp only [substS, enterDecl_sym hyx hys, if_true, Stmt.OptOK]
    exact ⟨fun hh => h1 hh.2, j2⟩
  | .cloneBuffer y z body, T, M, h, hx, hm, hs, hn => by
    simp only [Stmt.OptOK] at h
    obtain ⟨h1, h2, h4⟩ := h
    have hyx : y ≠ x := fun e => h1 (e ▸ hx)
    have hys : y ≠ src := fun e => h1 (e ▸ hs)
    obtain ⟨j1, j2⟩ := h4.subst hne (Or.inr hx) hm (Or.inr hs) fun p hp => hn p (Or.inr (Or.inl ⟨Ne.symm hys, hp⟩))
    rw [withoutSym_withSym hyx] at j2
    refine ⟨⟨symE_free hys, fun _ => ⟨src, -1, rfl⟩, fun _ => j1⟩, ?_⟩
    simp only [substS, enterDecl_sym hyx hys, if_true, Stmt.OptOK]
    exact ⟨fun hh => h1 hh.2, substSym_scope hne hs h2, j2⟩
  | .cropBuffer y z bs body, T, M, h, hx, hm, hs, hn => by
    simp only [Stmt.OptOK] at h
    obtain ⟨h1, h2, h3, h3', h4⟩ := h
    have hyx : y ≠ x := fun e => h1 (e ▸ hx)
    have hys : y ≠ src := fun e => h1 (e ▸ hs)
    have hzs : z ≠ src := fun e => hn .bounds (Or.inr (Or.inl ⟨e.symm, Or.inl rfl⟩))
    obtain ⟨g1, g2, g3⟩ := h3'.subst hne hx hs hzs fun i hi => ⟨h3 i hi, notFreeI (h3 i hi) fun p hp => hn p (Or.inl ⟨i, hi, hp⟩)⟩
    obtain ⟨j1, j2⟩ := h4.subst hne (Or.inr hx) (Or.inr hm) (Or.inr hs) fun p hp => hn p (Or.inr (Or.inr (Or.inl ⟨Ne.symm hys, hp⟩)))
    rw [withoutSym_withSym hyx, withoutSym_withSym hyx] at j2
    refine ⟨⟨symE_free hys, fun _ => ⟨src, -1, rfl⟩, g1, fun _ => j1⟩, ?_⟩
    simp only [substS, enterDecl_sym hyx hys, if_true, Stmt.OptOK]
    exact ⟨fun hh => h1 hh.2, substSym_scope hne hs h2, g2, g3, j2⟩
  | .cropDim y z d b body, T, M, h, hx, hm, hs, hn => by
    simp only [Stmt.OptOK] at h
    obtain ⟨h1, h2, h3, h4⟩ := h
    have hyx : y ≠ x := fun e => h1 (e ▸ hx)
    have hys : y ≠ src := fun e => h1 (e ▸ hs)
    obtain ⟨g1, g2, _⟩ := h3.subst hne hx hs (notFreeI h3 fun p hp => hn p (Or.inl hp))
    obtain ⟨j1, j2⟩ := h4.subst hne (Or.inr hx) (Or.inr hm) (Or.inr hs) fun p hp => hn p (Or.inr (Or.inr (Or.inl ⟨Ne.symm hys, hp⟩)))
    rw [withoutSym_withSym hyx, withoutSym_withSym hyx] at j2
    refine ⟨⟨symE_free hys, fun _ => ⟨src, -1, rfl⟩, g1, fun _ => j1⟩, ?_⟩
    simp only [substS, enterDecl_sym hyx hys, if_true, Stmt.OptOK]
    exact ⟨fun hh => h1 hh.2, substSym_scope hne hs h2, dropOwn_opt g2, j2⟩
  | .sliceBuffer y z es body, T, M, h, hx, hm, hs, hn => by
    simp only [Stmt.OptOK] at h
    obtain ⟨h1, h2, h3, h4⟩ := h
    have hyx : y ≠ x := fun e => h1 (e ▸ hx)
    have hys : y ≠ src := fun e => h1 (e ▸ hs)
    have hes : ∀ e ∈ es, _ := fun e he => (h3 e he).subst hne hx hs (notFree_of_reads (h3 e he) fun p hp => hn p (Or.inl ⟨e, he, hp⟩))
    obtain ⟨j1, j2⟩ := h4.subst hne (Or.inr hx) (Or.inr hm) (Or.inr hs) fun p hp => hn p (Or.inr (Or.inr (Or.inl ⟨Ne.symm hys, hp⟩)))
    rw [withoutSym_withSym hyx, withoutSym_withSym hyx] at j2
    refine ⟨⟨symE_free hys, fun _ => ⟨src, -1, rfl⟩, fun e he => (hes e he).1, fun _ => j1⟩, ?_⟩
    simp only [substS, enterDecl_sym hyx hys, if_true, Stmt.OptOK, List.mem_map, forall_exists_index, and_imp, forall_apply_eq_imp_iff₂]
    exact ⟨fun hh => h1 hh.2, substSym_scope hne hs h2, fun e he => (hes e he).2.1, j2⟩
  | .sliceDim y z d b body, T, M, h, hx, hm, hs, hn => by
    simp only [Stmt.OptOK] at h
    obtain ⟨h1, h2, h3, h4⟩ := h
    have hyx : y ≠ x := fun e => h1 (e ▸ hx)
    have hys : y ≠ src := fun e => h1 (e ▸ hs)
    obtain ⟨g1, g2, _⟩ := h3.subst hne hx hs (notFree_of_reads h3 fun p hp => hn p (Or.inl hp))
    obtain ⟨j1, j2⟩ := h4.subst hne (Or.inr hx) (Or.inr hm) (Or.inr hs) fun p hp => hn p (Or.inr (Or.inr (Or.inl ⟨Ne.symm hys, hp⟩)))
    rw [withoutSym_withSym hyx, withoutSym_withSym hyx] at j2
    refine ⟨⟨symE_free hys, fun _ => ⟨src, -1, rfl⟩, g1, fun _ => j1⟩, ?_⟩
    simp only [substS, enterDecl_sym hyx hys, if_true, Stmt.OptOK]
    exact ⟨fun hh => h1 hh.2, substSym_scope hne hs h2, g2, j2⟩
  | .transpose y z ds body, T, M, h, hx, hm, hs, hn => by
    simp only [Stmt.OptOK] at h
    obtain ⟨h1, h2, h3, h4⟩ := h
    have hyx : y ≠ x := fun e => h1 (e ▸ hx)
    have hys : y ≠ src := fun e => h1 (e ▸ hs)
    obtain ⟨j1, j2⟩ := h4.subst hne (Or.inr hx) (Or.inr hm) (Or.inr hs) fun p hp => hn p (Or.inr (Or.inl ⟨Ne.symm hys, hp⟩))
    rw [withoutSym_withSym hyx, withoutSym_withSym hyx] at j2
    refine ⟨⟨symE_free hys, fun _ => ⟨src, -1, rfl⟩, fun _ => j1⟩, ?_⟩
    simp only [substS, enterDecl_sym hyx hys, if_true, Stmt.OptOK]
    exact ⟨fun hh => h1 hh.2, substSym_scope hne hs h2, h3, j2⟩
  | .async y task body, T, M, h, hx, hm, hs, hn => by
    simp only [Stmt.OptOK] at h
    exact absurd hm (h.2.1 x)
  | .check c, T, M, h, hx, hm, hs, hn => by
    simp only [Stmt.OptOK] at h
    obtain ⟨g1, g2, _⟩ := h.1.subst hne hx hs (notFree_of_reads h.1 fun p hp => hn p hp)
    exact ⟨⟨g1, isFree_subst h.2⟩, ⟨g2, isFree_subst h.2⟩⟩
termination_by structural s => s
/-- See `Stmt.OptOK.subst`. -/
theorem Stmts.OptOK.subst {x src : Nat} (hne : src ≠ x) : ∀ {s : Stmts} {T M : Nat → Prop}, s.OptOK T M → T x → M x → T src → (∀ p : Dep, ¬ s.Uses (some p) src) →
    s.SubOK x (symE src) ∧ (substSs x (symE src) s).OptOK (withoutSym T x) (withoutSym M x)
  | .nil, _, _, _, _, _, _, _ => ⟨trivial, trivial⟩
  | .cons s ss, T, M, h, hx, hm, hs, hn => by
    simp only [Stmts.OptOK] at h
    obtain ⟨g1, g2⟩ := h.2.1.subst hne hx hm hs fun p hp => hn p (Or.inl hp)
    obtain ⟨k1, k2⟩ := h.2.2.subst hne hx hm hs fun p hp => hn p (Or.inr hp)
    exact ⟨⟨h.1, g1, k1⟩, ⟨(substS_solid s h.1 g1).ne, g2, k2⟩⟩
termination_by structural s => s
end

end Slinky
