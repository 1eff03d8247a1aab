import Verif.Stmt
import Verif.EvalProps

/-!
# A big-step relation for the evaluation of statements

The evaluator of `Stmt.lean` is a function that follows the code. For the proofs, it is described by a relation that has one rule for
each way a statement can be evaluated (`Big`), for statements that are well formed (`Stmt.WF`). `exec_big` shows that the relation
covers everything that the function does.
-/

namespace Slinky

/-! ## Expressions do not change the context -/

mutual
theorem evalM_restores (m : Mem) (ρ : Env) : ∀ e : Expr, e.WF → ∀ v ρ', evalM m ρ e = some (v, ρ') → ρ' = ρ
  | .undef, _, v, ρ', h => by simp [evalM] at h
  | .var x f d, _, v, ρ', h => by cases f <;> simp [evalM] at h <;> exact h.2.symm
  | .const c, _, v, ρ', h => by simp [evalM] at h; exact h.2.symm
  | .lets bs b, hw, v, ρ', h => by
    simp only [Expr.WF] at hw
    simp only [evalM, Option.bind_eq_bind, Option.bind_eq_some_iff, Prod.exists, Option.some.injEq, Prod.mk.injEq] at h
    obtain ⟨olds, ρ1, h1, v1, ρ2, h2, rfl, rfl⟩ := h
    have := evalM_restores m ρ1 b hw.2.2 _ _ h2
    subst this
    exact (evalBindsM_restores m ρ bs hw.2.1 hw.1 _ _ h1).1
  | .bin op a b, hw, v, ρ', h => by
    simp only [Expr.WF] at hw
    simp only [evalM, Option.bind_eq_bind, Option.bind_eq_some_iff, Prod.exists, Option.some.injEq, Prod.mk.injEq] at h
    obtain ⟨x, ρ1, h1, y, ρ2, h2, w, h3, rfl, rfl⟩ := h
    have := evalM_restores m ρ a hw.1 _ _ h1
    subst this
    exact evalM_restores m _ b hw.2 _ _ h2
  | .not a, hw, v, ρ', h => by
    simp only [Expr.WF] at hw
    simp only [evalM, Option.bind_eq_bind, Option.bind_eq_some_iff, Prod.exists, Option.some.injEq, Prod.mk.injEq] at h
    obtain ⟨x, ρ1, h1, rfl, rfl⟩ := h
    exact evalM_restores m ρ a hw _ _ h1
  | .select c t f, hw, v, ρ', h => by
    simp only [Expr.WF] at hw
    simp only [evalM, Option.bind_eq_bind, Option.bind_eq_some_iff, Prod.exists] at h
    obtain ⟨x, ρ1, h1, h2⟩ := h
    have := evalM_restores m ρ c hw.1 _ _ h1
    subst this
    split at h2
    · exact evalM_restores m _ t hw.2.1 _ _ h2
    · exact evalM_restores m _ f hw.2.2 _ _ h2
  | .call fn as, hw, v, ρ', h => by
    simp only [Expr.WF] at hw
    have key : ∀ xs ρ1, evalArgsM m ρ as = some (xs, ρ1) → ρ1 = ρ := fun xs ρ1 => evalArgsM_restores m ρ as hw xs ρ1
    cases fn with
    | andThen => simp only [evalM] at h; exact evalShortM_restores m true ρ as hw _ _ h
    | orElse => simp only [evalM] at h; exact evalShortM_restores m false ρ as hw _ _ h
    | abs =>
      match as, hw, h with
      | .nil, _, h => simp [evalM] at h
      | .cons e (.cons _ _), _, h => simp [evalM] at h
      | .cons e .nil, hw, h =>
        simp only [evalM, Option.bind_eq_bind, Option.bind_eq_some_iff, Prod.exists, Option.some.injEq, Prod.mk.injEq] at h
        obtain ⟨x, ρ1, h1, w, h3, rfl, rfl⟩ := h
        exact evalM_restores m ρ e hw.1 _ _ h1
    | _ =>
      simp only [evalM] at h
      split at h
      · simp only [Option.bind_eq_bind, Option.bind_eq_some_iff, Prod.exists, Option.some.injEq, Prod.mk.injEq] at h
        obtain ⟨x, ρ1, h1, w, h3, rfl, rfl⟩ := h
        exact key _ _ h1
      · cases h
theorem evalShortM_restores (m : Mem) (isAnd : Bool) (ρ : Env) : ∀ es : Exprs, es.WF → ∀ v ρ', evalShortM m isAnd ρ es = some (v, ρ') → ρ' = ρ
  | .nil, _, v, ρ', h => by simp [evalShortM] at h; exact h.2.symm
  | .cons e es, hw, v, ρ', h => by
    simp only [Exprs.WF] at hw
    simp only [evalShortM, Option.bind_eq_bind, Option.bind_eq_some_iff, Prod.exists] at h
    obtain ⟨x, ρ1, h1, h2⟩ := h
    have := evalM_restores m ρ e hw.1 _ _ h1
    subst this
    split at h2
    · simp at h2; exact h2.2.symm
    · split at h2
      · simp at h2; exact h2.2.symm
      · exact evalShortM_restores m isAnd _ es hw.2 _ _ h2
theorem evalArgsM_restores (m : Mem) (ρ : Env) : ∀ es : Exprs, es.WF → ∀ v ρ', evalArgsM m ρ es = some (v, ρ') → ρ' = ρ
  | .nil, _, v, ρ', h => by simp [evalArgsM] at h; exact h.2.symm
  | .cons e es, hw, v, ρ', h => by
    simp only [Exprs.WF] at hw
    simp only [evalArgsM] at h
    split at h
    · simp only [Option.bind_eq_bind, Option.bind_eq_some_iff, Prod.exists, Option.some.injEq, Prod.mk.injEq] at h
      obtain ⟨x, ρ1, h1, xs, ρ2, h2, rfl, rfl⟩ := h
      have := evalM_restores m ρ e hw.1 _ _ h1
      subst this
      exact evalArgsM_restores m _ es hw.2 _ _ h2
    · simp only [Option.bind_eq_bind, Option.bind_eq_some_iff, Prod.exists, Option.some.injEq, Prod.mk.injEq] at h
      obtain ⟨xs, ρ2, h2, rfl, rfl⟩ := h
      exact evalArgsM_restores m _ es hw.2 _ _ h2
theorem evalBindsM_restores (m : Mem) (ρ : Env) : ∀ bs : Binds, bs.WF → bs.syms.Nodup → ∀ olds ρ', evalBindsM m ρ bs = some (olds, ρ') →
    olds.foldl (fun ρ p => ρ.set p.1 p.2) ρ' = ρ ∧ olds.map Prod.fst = bs.syms
  | .nil, _, _, olds, ρ', h => by simp [evalBindsM] at h; obtain ⟨rfl, rfl⟩ := h; simp [Binds.syms]
  | .cons x e bs, hw, hn, olds, ρ', h => by
    simp only [Binds.WF] at hw
    simp only [Binds.syms, List.nodup_cons] at hn
    simp only [evalBindsM, Option.bind_eq_bind, Option.bind_eq_some_iff, Prod.exists, Option.some.injEq, Prod.mk.injEq] at h
    obtain ⟨v, ρ1, h1, o2, ρ2, h2, rfl, rfl⟩ := h
    have := evalM_restores m ρ e hw.1 _ _ h1
    subst this
    obtain ⟨h3, h4⟩ := evalBindsM_restores m _ bs hw.2 hn.2 _ _ h2
    constructor
    · rw [List.foldl_cons, foldl_restore_other _ _ _ _ (by rw [h4]; exact hn.1), h3, Env.set_set, Env.set_self]
    · simp [h4, Binds.syms]
end

/-! ## Well-formed statements -/

/-- See `Expr.WF`. -/
def Interval.EndsWF (i : Interval) : Prop := i.min.WF ∧ i.max.WF
/-- See `Expr.WF`. -/
def DimE.WF (d : DimE) : Prop := d.bounds.EndsWF ∧ d.stride.WF ∧ d.fold.WF

mutual
/-- All expressions are well formed (`Expr.WF`), and no list of lets binds a symbol twice. -/
def Stmt.WF : Stmt → Prop
  | .undef => True
  | .call _ _ _ sc => ∀ e ∈ sc, e.WF
  | .copy .. => True
  | .lets bs body _ => bs.syms.Nodup ∧ bs.WF ∧ body.WF
  | .block ss => ss.WF
  | .loop _ w b s body => w.WF ∧ b.EndsWF ∧ s.WF ∧ body.WF
  | .allocate _ _ e ds body => e.WF ∧ (∀ d ∈ ds, d.WF) ∧ body.WF
  | .makeBuffer _ p e ds body => p.WF ∧ e.WF ∧ (∀ d ∈ ds, d.WF) ∧ body.WF
  | .constantBuffer _ _ body => body.WF
  | .cloneBuffer _ _ body => body.WF
  | .cropBuffer _ _ bs body => (∀ b ∈ bs, b.EndsWF) ∧ body.WF
  | .cropDim _ _ _ b body => b.EndsWF ∧ body.WF
  | .sliceBuffer _ _ es body => (∀ e ∈ es, e.WF) ∧ body.WF
  | .sliceDim _ _ _ e body => e.WF ∧ body.WF
  | .transpose _ _ _ body => body.WF
  | .async _ task body => task.WF ∧ body.WF
  | .check c => c.WF
/-- See `Stmt.WF`. -/
def Stmts.WF : Stmts → Prop
  | .nil => True
  | .cons s ss => s.WF ∧ ss.WF
end

/-! ## Expressions do not change the state -/

theorem Cfg.eval_state {cfg : Cfg} {st st' : St} {e : Expr} {v : Int} (hw : e.WF) (h : cfg.eval st e = some (v, st')) : st' = st := by
  unfold Cfg.eval at h
  split at h
  · rename_i v' ctx h1
    simp only [Option.some.injEq, Prod.mk.injEq] at h
    have := evalM_restores _ _ _ hw _ _ h1
    rw [← h.2, this]
  · cases h

theorem Cfg.evalDef_state {cfg : Cfg} {st st' : St} {e : Expr} {d v : Int} (hw : e.WF) (h : cfg.evalDef st e d = some (v, st')) : st' = st := by
  unfold Cfg.evalDef at h
  split at h
  · exact Cfg.eval_state hw h
  · simp at h; exact h.2.symm

theorem Cfg.evalIv_state {cfg : Cfg} {st st' : St} {i : Interval} {v : Int × Int} (hw : i.EndsWF) (h : cfg.evalIv st i = some (v, st')) : st' = st := by
  simp only [Cfg.evalIv, Option.bind_eq_bind, Option.bind_eq_some_iff, Prod.exists] at h
  obtain ⟨a, st1, h1, h2⟩ := h
  have := Cfg.eval_state hw.1 h1
  subst this
  split at h2
  · simp at h2; exact h2.2.symm
  · simp only [Option.bind_eq_some_iff, Prod.exists] at h2
    obtain ⟨b, st2, h3, h4⟩ := h2
    have := Cfg.eval_state hw.2 h3
    subst this
    simp at h4; exact h4.2.symm

theorem Cfg.evalIvDef_state {cfg : Cfg} {st st' : St} {i : Interval} {v : Int × Int} {a b : Int} (hw : i.EndsWF) (h : cfg.evalIvDef st i a b = some (v, st')) :
    st' = st := by
  unfold Cfg.evalIvDef at h
  split at h
  · simp only [Option.bind_eq_bind, Option.bind_eq_some_iff, Prod.exists] at h
    obtain ⟨a, st1, h1, h2⟩ := h
    have := Cfg.eval_state hw.1 h1
    subst this
    simp at h2; exact h2.2.symm
  · simp only [Option.bind_eq_bind, Option.bind_eq_some_iff, Prod.exists] at h
    obtain ⟨a, st1, h1, b, st2, h3, h2⟩ := h
    have := Cfg.evalDef_state hw.1 h1
    subst this
    have := Cfg.evalDef_state hw.2 h3
    subst this
    simp at h2; exact h2.2.symm

theorem Cfg.evalDims_state {cfg : Cfg} {ds : Option Int} {st : St} : ∀ {l : List DimE} {st' : St} {r : List Dim}, (∀ d ∈ l, d.WF) →
    cfg.evalDims ds st l = some (r, st') → st' = st
  | [], _, _, _, h => by simp [Cfg.evalDims] at h; exact h.2.symm
  | d :: l, st', r, hw, h => by
    have hd := hw d (by simp)
    cases ds with
    | none =>
      simp only [Cfg.evalDims, Option.bind_eq_bind, Option.bind_eq_some_iff, Prod.exists] at h
      obtain ⟨r1, st1, h1, a, b, st2, h2, s, st3, h3, f, st4, h4, h5⟩ := h
      have := Cfg.evalDims_state (fun x hx => hw x (by simp [hx])) h1
      subst this
      have := Cfg.evalIv_state hd.1 h2
      subst this
      have := Cfg.eval_state hd.2.1 h3
      subst this
      have := Cfg.evalDef_state hd.2.2 h4
      subst this
      simp at h5; exact h5.2.symm
    | some x =>
      simp only [Cfg.evalDims, Option.bind_eq_bind, Option.bind_eq_some_iff, Prod.exists] at h
      obtain ⟨r1, st1, h1, a, b, st2, h2, s, st3, h3, f, st4, h4, h5⟩ := h
      have := Cfg.evalDims_state (fun x hx => hw x (by simp [hx])) h1
      subst this
      have := Cfg.evalIv_state hd.1 h2
      subst this
      have := Cfg.evalDef_state hd.2.1 h3
      subst this
      have := Cfg.evalDef_state hd.2.2 h4
      subst this
      simp at h5; exact h5.2.symm

theorem Cfg.cropCopy_state {cfg : Cfg} : ∀ {l : List Interval} {d : Nat} {b b' : Buf} {st st' : St}, (∀ i ∈ l, i.EndsWF) →
    cfg.cropCopy d l b st = some (b', st') → st' = st
  | [], _, _, _, _, _, _, h => by simp [Cfg.cropCopy] at h; exact h.2.symm
  | i :: l, d, b, b', st, st', hw, h => by
    unfold Cfg.cropCopy at h
    split at h
    · simp only [Option.bind_eq_bind, Option.bind_eq_some_iff, Prod.exists] at h
      obtain ⟨x, y, st1, h1, h2⟩ := h
      have := Cfg.evalIvDef_state (hw i (by simp)) h1
      subst this
      exact Cfg.cropCopy_state (fun x hx => hw x (by simp [hx])) h2
    · simp at h; exact h.2.symm

theorem Cfg.sliceAll_state {cfg : Cfg} : ∀ {ds : List Dim} {es : List Expr} {p : Option Int} {q : Option Int × List Dim} {st st' : St}, (∀ e ∈ es, e.WF) →
    cfg.sliceAll es ds p st = some (q, st') → st' = st
  | [], es, p, q, st, st', _, h => by cases es <;> simp [Cfg.sliceAll] at h <;> exact h.2.symm
  | d :: ds, [], p, q, st, st', hw, h => by
    simp only [Cfg.sliceAll, Option.bind_eq_bind, Option.bind_eq_some_iff, Prod.exists] at h
    obtain ⟨a, b, st1, h1, h2⟩ := h
    have := Cfg.sliceAll_state hw h1
    subst this
    simp at h2; exact h2.2.symm
  | d :: ds, e :: es, p, q, st, st', hw, h => by
    have hw2 : ∀ x ∈ es, x.WF := fun x hx => hw x (by simp [hx])
    unfold Cfg.sliceAll at h
    split at h
    · cases p with
      | none => exact Cfg.sliceAll_state hw2 h
      | some p =>
        simp only [Option.bind_eq_bind, Option.bind_eq_some_iff, Prod.exists] at h
        obtain ⟨x, st1, h1, h2⟩ := h
        have := Cfg.eval_state (hw e (by simp)) h1
        subst this
        exact Cfg.sliceAll_state hw2 h2
    · simp only [Option.bind_eq_bind, Option.bind_eq_some_iff, Prod.exists] at h
      obtain ⟨a, b, st1, h1, h2⟩ := h
      have := Cfg.sliceAll_state hw2 h1
      subst this
      simp at h2; exact h2.2.symm

theorem Cfg.evalBinds_state {cfg : Cfg} : ∀ {bs : Binds} {st st' : St} {olds : List (Nat × Int)}, bs.WF → bs.syms.Nodup →
    cfg.evalBinds st bs = some (olds, st') →
    st' = { st with ctx := st'.ctx } ∧ olds.map Prod.fst = bs.syms ∧ (∀ p ∈ olds, p.2 = st.ctx p.1) ∧ (∀ y ∉ bs.syms, st'.ctx y = st.ctx y)
  | .nil, st, st', olds, _, _, h => by
    simp [Cfg.evalBinds] at h
    obtain ⟨rfl, rfl⟩ := h
    simp [Binds.syms]
  | .cons x e bs, st, st', olds, hw, hn, h => by
    simp only [Binds.WF] at hw
    simp only [Binds.syms, List.nodup_cons] at hn
    simp only [Cfg.evalBinds, Option.bind_eq_bind, Option.bind_eq_some_iff, Prod.exists, Option.some.injEq, Prod.mk.injEq] at h
    obtain ⟨v, st1, h1, o2, st2, h2, rfl, rfl⟩ := h
    have := Cfg.eval_state hw.1 h1
    subst this
    obtain ⟨e1, e2, e3, e4⟩ := Cfg.evalBinds_state hw.2 hn.2 h2
    refine ⟨?_, by simp [e2, Binds.syms], ?_, ?_⟩
    · rw [e1]; rfl
    · intro p hp
      rcases List.mem_cons.1 hp with rfl | hp
      · rfl
      · rw [e3 p hp]
        have : p.1 ≠ x := by
          intro hh
          exact hn.1 (e2 ▸ hh ▸ List.mem_map_of_mem hp)
        simp [St.set, Env.set, this]
    · intro y hy
      simp only [Binds.syms, List.mem_cons, not_or] at hy
      rw [e4 y hy.2]
      simp [St.set, Env.set, hy.1]

end Slinky
