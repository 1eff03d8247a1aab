import Verif.SubstStmt

/-!
# Substitution in statements: the theorems
-/

namespace Slinky

/-- **C10, statements.** If the replacement has the value `v`, then the statement after the substitution means what the statement means where the
target has the value `v`. Missing: statements in which a declaration captures a symbol of the replacement, closures, and the counterexamples
below (`Stmt.SubOK`). A `copy_stmt` has no meaning here. -/
theorem substituteS_sem_partial (w : World) {s : Stmt} {t : Nat} {r : Expr} (hb : r.BufOK) (hd : r.defined = true) (hs : s.SubOK t r) {ρ : SEnv} {v : Val}
    (hv : ∀ l, evalS w l ρ r = some v) {l : List Ev} {p : Int × List Ev} (h : sem w false s (ρ.set t v) l = some p) :
    sem w false (substituteS s t r) ρ l = some p := by
  have hi : SubInv w t r (ρ.set t v) ρ := by
    refine ⟨fun y hy => by simp [SEnv.set_get, hy], fun l _ => ?_⟩
    rw [hv l]
    simp [SEnv.set_get]
  unfold substituteS
  split
  · rename_i z d
    split
    · rename_i hz
      subst hz
      have hv' := hv l
      simp only [evalS] at hv'
      have e : ρ.set z v = ρ := by
        funext y
        rw [SEnv.set_get]
        split
        · rename_i hy
          subst hy
          split at hv'
          · cases hv'
          · exact (Option.some.inj hv').symm
        · rfl
      rwa [e] at h
    · exact sem_subst hb hd hs hi h
  · exact sem_subst hb hd hs hi h

/-- **C10, statements.** The evaluator does the same for a statement under a let of an integer, and for the statement in which the symbol of the let is
substituted by its value (see `substituteS_sem_partial`). -/
theorem substituteS_exec_partial (w : World) (g : Env) {s : Stmt} {t : Nat} {r : Expr} (hb : r.BufOK) (hd : r.defined = true) (hs : s.SubOK t r)
    (hw : s.WF) (hr : r.WF) (hw' : (substituteS s t r).WF) {st : St} {ρ : SEnv} (hR : StRel st ρ) {i : Int} (hv : ∀ l, evalS w l ρ r = some (.int i))
    {q : Int} {l' : List Ev} (h : sem w false s (ρ.set t (.int i)) st.alog = some (q, l')) :
    ∃ st1 st2, exec (cfgOf w g) (.lets (.cons t r .nil) s false) st = some (q, st1) ∧ exec (cfgOf w g) (substituteS s t r) st = some (q, st2) ∧
      st1.log.map Ev.anon = st2.log.map Ev.anon ∧ st1.objs = st2.objs ∧ ∀ x, ρ x ≠ .undef → st1.ctx x = st2.ctx x := by
  have h1 : sem w false (.lets (.cons t r .nil) s false) ρ st.alog = some (q, l') := by
    simp only [sem, Bool.and_false, Bool.false_eq_true, if_false, evalBindsS, hv, Option.bind_some, bindable, if_true]
    exact h
  obtain ⟨st1, a1, a2, a3, a4⟩ := exec_sem w g (s := .lets (.cons t r .nil) s false)
    (by simp only [Stmt.WF, Binds.syms, Binds.WF]; exact ⟨by simp, ⟨hr, trivial⟩, hw⟩) hR h1
  obtain ⟨st2, b1, b2, b3, b4⟩ := exec_sem w g hw' hR (substituteS_sem_partial w hb hd hs hv h)
  exact ⟨st1, st2, a1, b1, by rw [a2, b2], by rw [a3, b3], fun x hx => by rw [a4 x hx, b4 x hx]⟩

/-! ## Examples -/

/-- A statement that uses the target (symbol 9) in the bounds of a loop, in a crop, and in the arguments of a call; the target is declared again in
the second statement of the block. -/
def subEx : Stmt :=
  .loop 1 (.const 1) ⟨.v 9, .bin .add (.v 9) (.const 1), false⟩ .undef
    (.cropDim 2 0 0 ⟨.v 9, .var 0 .max 0, false⟩
      (.block (.cons (.call 7 [] [2] [.v 9])
        (.cons (.lets (.cons 9 (.bin .add (.v 9) (.const 1)) .nil) (.call 8 [0] [2] [.v 9]) false) .nil))))

/-- `buffer_min(0, 1) - 4` -/
def subR : Expr := .bin .sub (.var 0 .min 1) (.const 4)

/-- The theorems apply: the value of the replacement is 1. -/
theorem subEx_ok : subR.BufOK ∧ subR.defined = true ∧ subEx.SubOK 9 subR ∧ subEx.WF ∧ subR.WF ∧ (substituteS subEx 9 subR).WF ∧
    (∀ l, evalS dsW l dsEnv subR = some (.int 1)) ∧
    sem dsW false subEx (dsEnv.set 9 (.int 1)) [] = some (1, [.call 8 1, .call 7 0]) := by
  refine ⟨?_, rfl, ?_, ?_, ?_, ?_, ?_, ?_⟩
  · simp [subR, Expr.BufOK]
  · simp [subEx, subR, Stmt.SubOK, Stmts.SubOK, SubOKE, Binds.SubOK, Binds.syms, Interval.SubOK, Interval.maxEnd, Interval.isPoint, FreeIn, Expr.v]
  · simp [subEx, Stmt.WF, Stmts.WF, Expr.WF, Binds.WF, Binds.syms, Interval.EndsWF, Expr.v, InRange]
  · simp [subR, Expr.WF, InRange]
  · have : substituteS subEx 9 subR =
      .loop 1 (.const 1) ⟨subR, .bin .add subR (.const 1), false⟩ .undef
        (.cropDim 2 0 0 ⟨subR, .undef, false⟩
          (.block (.cons (.call 7 [] [2] [subR])
            (.cons (.lets (.cons 9 (.bin .add subR (.const 1)) .nil) (.call 8 [0] [2] [.v 9]) false) .nil)))) := by rfl
    rw [this]
    simp [subR, Stmt.WF, Stmts.WF, Expr.WF, Binds.WF, Binds.syms, Interval.EndsWF, Expr.v, InRange]
  · intro l
    simp only [subR, evalS, dsEnv]
    rfl
  · decide +kernel

/-! ## What is not substituted -/

/-- **A candidate bug**: the number of workers of a loop is not substituted. -/
theorem substituteS_workers_counterexample :
    let s : Stmt := .loop 1 (.v 9) ⟨.const 0, .const 1, false⟩ .undef (.call 7 [] [0] [.const 0])
    sem dsW false s (dsEnv.set 9 (.int 1)) [] = some (0, [.call 7 0, .call 7 0]) ∧ sem dsW false (substituteS s 9 (.const 1)) dsEnv [] = none ∧
      9 ∈ findDependenciesS (substituteS s 9 (.const 1)) := by
  decide +kernel

/-- **A candidate bug**: an `async` without a symbol is not substituted. -/
theorem substituteS_async_counterexample :
    let s : Stmt := .async none (.check (.v 9)) (.call 7 [] [0] [.v 9])
    sem dsW false s (dsEnv.set 9 (.int 1)) [] = some (1, [.call 7 1, .check true]) ∧ sem dsW false (substituteS s 9 (.const 1)) dsEnv [] = none ∧
      9 ∈ findDependenciesS (substituteS s 9 (.const 1)) := by
  decide +kernel

/-- **A candidate bug**: a `copy_stmt` that declares the target for its coordinates is not substituted at all, not even the buffers. Here,
`copy(src = 9, [9], dst = 2, [9])`: the first 9 is the buffer, which should be substituted; the others are the coordinate. -/
theorem substituteS_copy_counterexample :
    let s : Stmt := .copy 7 9 [.v 9] 2 [9] none
    9 ∈ findDependenciesS s ∧ 9 ∈ findDependenciesS (substituteS s 9 (.v 1)) ∧
      substituteS (.copy 7 9 [.v 8] 2 [8] none) 9 (.v 1) = .copy 7 1 [.v 8] 2 [8] none := by
  refine ⟨by decide +kernel, by decide +kernel, rfl⟩

/-- The substitution stops where a symbol of the replacement is declared, and leaves the target there, so that the target must stay in scope. -/
theorem substituteS_capture_counterexample :
    let s : Stmt := .lets (.cons 3 (.const 5) .nil) (.call 7 [] [0] [.v 9]) false
    sem dsW false s ((dsEnv.set 3 (.int 1)).set 9 (.int 1)) [] = some (1, [.call 7 1]) ∧ sem dsW false (substituteS s 9 (.v 3)) (dsEnv.set 3 (.int 1)) [] = none := by
  decide +kernel

end Slinky
