import Verif.StmtBig

/-!
# The rules cover the evaluator
-/

namespace Slinky

theorem withValue_some {st : St} {x : Nat} {v : Int} {k : St → Option (Int × St)} {r : Int} {st' : St} (h : withValue st x v k = some (r, st')) :
    ∃ st1, k (st.set x v) = some (r, st1) ∧ st' = st1.set x (st.ctx x) := by
  unfold withValue at h
  split at h
  · rename_i r1 st1 h1
    simp only [Option.some.injEq, Prod.mk.injEq] at h
    exact ⟨st1, by rw [h1, h.1], h.2.symm⟩
  · cases h

theorem withObj_some {st : St} {x : Nat} {o : Obj} {k : St → Option (Int × St)} {r : Int} {st' : St} (h : withObj st x o k = some (r, st')) :
    ∃ st1, k (st.push x o) = some (r, st1) ∧ st' = st.pop x st1 := by
  unfold withObj at h
  split at h
  · rename_i r1 st1 h1
    simp only [Option.some.injEq, Prod.mk.injEq] at h
    obtain ⟨st2, h2, h3⟩ := withValue_some h1
    refine ⟨st2, ?_, ?_⟩
    · rw [← h.1, ← h2]; rfl
    · rw [← h.2, h3]; rfl
  · cases h

theorem inCtx_some {st : St} {ctx : Env} {k : St → Option (Int × St)} {r : Int} {st' : St} (h : inCtx st ctx k = some (r, st')) :
    ∃ st1, k { st with ctx := ctx } = some (r, st1) ∧ st' = { st1 with ctx := st.ctx } := by
  unfold inCtx at h
  split at h
  · rename_i r1 st1 h1
    simp only [Option.some.injEq, Prod.mk.injEq] at h
    exact ⟨st1, by rw [h1, h.1], h.2.symm⟩
  · cases h

theorem big_obj {cfg : Cfg} {s body : Stmt} {x : Nat} {st : St} {o : Obj} {r : Int} {st' : St} (ih : ∀ st r st', run cfg false body st = some (r, st') → Big cfg (.stmt body) st r st')
    (hs : Stmt.isObj x body s) (ho : o.alloc = none) (h : withObj st x o (run cfg false body) = some (r, st')) : Big cfg (.stmt s) st r st' := by
  obtain ⟨st1, h1, rfl⟩ := withObj_some h
  exact .obj ho hs (ih _ _ _ h1)

theorem big_serial {cfg : Cfg} {x : Nat} {mn mx step : Int} {body : Stmt} (ih : ∀ st r st', run cfg false body st = some (r, st') → Big cfg (.stmt body) st r st') :
    ∀ (fuel : Nat) (i : Int) (st : St) (r : Int) (st' : St), serialLoop (fun i st => run cfg false body (st.set x i)) mn mx step fuel i st = some (r, st') →
    Big cfg (.serial x mn mx step i body) st r st'
  | 0, _, _, _, _, h => by simp [serialLoop] at h
  | fuel + 1, i, st, r, st', h => by
    unfold serialLoop at h
    split at h
    · rename_i hi
      split at h
      · cases h
      · rename_i r1 st1 h1
        split at h
        · rename_i hr
          simp only [Option.some.injEq, Prod.mk.injEq] at h
          rw [← h.1, ← h.2]
          exact .serialFail hi (ih _ _ _ h1) hr
        · rename_i hr
          simp only [not_not] at hr
          subst hr
          split at h
          · cases h
          · rename_i j hj
            simp only [chk] at hj
            split at hj
            · simp only [Option.some.injEq] at hj
              subst hj
              exact .serialNext hi (ih _ _ _ h1) (big_serial ih fuel _ _ _ _ h)
            · cases hj
    · rename_i hi
      simp only [Option.some.injEq, Prod.mk.injEq] at h
      rw [← h.1, ← h.2]
      exact .serialDone hi

theorem big_par {cfg : Cfg} {x : Nat} {mn step : Int} {body : Stmt} (ih : ∀ st r st', run cfg true body st = some (r, st') → Big cfg (.clo body) st r st') :
    ∀ (sch : List (Nat × Nat)) (ctxs : Nat → Env) (res : Int) (st : St) (r : Int) (st' : St),
    parLoop (run cfg true body) x mn step sch ctxs res st = some (r, st') → Big cfg (.par x mn step sch ctxs res body) st r st'
  | [], ctxs, res, st, r, st', h => by
    simp only [parLoop, Option.some.injEq, Prod.mk.injEq] at h
    rw [← h.1, ← h.2]
    exact .parDone
  | (i, w) :: sch, ctxs, res, st, r, st', h => by
    unfold parLoop at h
    split at h
    · cases h
    · rename_i r1 st1 h1
      exact .parNext (ih _ _ _ h1) (big_par ih sch _ _ _ _ _ h)

theorem big_new {cfg : Cfg} {s : Stmt} {st : St} {r : Int} {st' : St}
    (ih : ∀ st r st', run cfg true s st = some (r, st') → Big cfg (.clo s) st r st')
    (h : inNewCtx cfg st s (run cfg true s) = some (r, st')) : Big cfg (.new s) st r st' := by
  unfold inNewCtx at h
  split at h
  · obtain ⟨st1, h1, rfl⟩ := inCtx_some h
    exact .new (ih _ _ _ h1)
  · cases h

theorem Big.ofStmt {cfg : Cfg} {s : Stmt} {st : St} {r : Int} {st' : St} (skip : Bool) (h : Big cfg (.stmt s) st r st') : Big cfg (Job.of skip s) st r st' := by
  cases skip
  · exact h
  · exact .cloSame h

theorem allocMem_cases {cfg : Cfg} {x : Nat} {sto : Storage} {o o' : Obj} {st st' : St} (h : cfg.allocMem x sto o st = some (o', st')) :
    (∃ h, o'.alloc = some h ∧ st' = st.emit (.alloc x h)) ∨ (o'.alloc = some 0 ∧ st' = st ∧ o'.base ≠ none) := by
  unfold Cfg.allocMem at h
  split at h
  · simp only [Option.some.injEq, Prod.mk.injEq] at h
    left
    exact ⟨_, by rw [← h.1], h.2.symm⟩
  · split at h
    · cases h
    · split at h
      · simp only [Option.some.injEq, Prod.mk.injEq] at h
        right
        exact ⟨by rw [← h.1], h.2.symm, by rw [← h.1]; simp⟩
      · simp only [Option.some.injEq, Prod.mk.injEq] at h
        left
        exact ⟨_, by rw [← h.1], h.2.symm⟩

mutual
/-- Every evaluation of a well-formed statement follows the rules. -/
theorem run_big (cfg : Cfg) : ∀ (s : Stmt), s.WF → ∀ (skip : Bool) (st : St) (r : Int) (st' : St), run cfg skip s st = some (r, st') → Big cfg (Job.of skip s) st r st'
  | .undef, _, skip, st, r, st', h => by simp [run] at h
  | .copy .., _, skip, st, r, st', h => by simp [run] at h
  | .call t i o sc, _, skip, st, r, st', h => by
    refine Big.ofStmt skip ?_
    simp only [run, Option.some.injEq, Prod.mk.injEq] at h
    rw [← h.1, ← h.2]
    exact .call _ _ _ _ _
  | .lets bs body c, hw, skip, st, r, st', h => by
    simp only [Stmt.WF] at hw
    have ih := run_big cfg body hw.2.2 false
    simp only [run] at h
    split at h
    · rename_i hc
      simp only [Bool.and_eq_true] at hc
      obtain ⟨rfl, rfl⟩ := hc
      exact .cloBody (ih _ _ _ h)
    · refine Big.ofStmt skip ?_
      simp only [Option.bind_eq_bind, Option.bind_eq_some_iff, Prod.exists, Option.some.injEq, Prod.mk.injEq] at h
      obtain ⟨olds, st1, h1, r1, st2, h2, rfl, rfl⟩ := h
      obtain ⟨e1, e2, e3, e4⟩ := Cfg.evalBinds_state hw.2.1 hw.1 h1
      rw [e1] at h2
      exact .lets (by rw [e2]; exact hw.1) e3 (by rw [e2]; exact e4) (ih _ _ _ h2)
  | .block ss, hw, skip, st, r, st', h => by
    refine Big.ofStmt skip ?_
    simp only [run] at h
    exact .block (runAll_big cfg ss hw _ _ _ h)
  | .loop x w b s body, hw, skip, st, r, st', h => by
    refine Big.ofStmt skip ?_
    simp only [Stmt.WF] at hw
    have ih := run_big cfg body hw.2.2.2 false
    simp only [run, Option.bind_eq_bind, Option.bind_eq_some_iff, Prod.exists] at h
    obtain ⟨v, st1, h1, mn, mx, st2, h2, step, st3, h3, h⟩ := h
    have := Cfg.eval_state hw.1 h1
    subst this
    have := Cfg.evalIv_state hw.2.1 h2
    subst this
    have := Cfg.evalDef_state hw.2.2.1 h3
    subst this
    split at h
    · cases h
    · split at h
      · rename_i hv
        simp only [Option.bind_eq_some_iff] at h
        obtain ⟨n, hn, h⟩ := h
        split at h
        · simp only [Option.some.injEq, Prod.mk.injEq] at h
          rw [← h.1, ← h.2]
          exact .loopZero h1 hv
        · split at h
          · obtain ⟨st4, h4, rfl⟩ := withValue_some h
            exact .loopOne h1 hv (ih _ _ _ h4)
          · split at h
            · split at h
              · cases h
              · exact .loopPar h1 hv (big_par (run_big cfg body hw.2.2.2 true) _ _ _ _ _ _ h)
            · cases h
      · split at h
        · rename_i r1 st4 h4
          simp only [Option.some.injEq, Prod.mk.injEq] at h
          rw [← h.1, ← h.2]
          exact .loopSerial (big_serial ih _ _ _ _ _ h4)
        · cases h
  | .allocate x sto e ds body, hw, skip, st, r, st', h => by
    refine Big.ofStmt skip ?_
    simp only [Stmt.WF] at hw
    have ih := run_big cfg body hw.2.2 false
    simp only [run, Option.bind_eq_bind, Option.bind_eq_some_iff, Prod.exists] at h
    obtain ⟨v, st1, h1, dims, st2, h2, h⟩ := h
    have := Cfg.eval_state hw.1 h1
    subst this
    have := Cfg.evalDims_state hw.2.1 h2
    subst this
    split at h
    · simp only [Option.some.injEq, Prod.mk.injEq] at h
      rw [← h.1, ← h.2]
      exact .allocOverflow
    · rename_i o st3 h3
      rcases allocMem_cases h3 with ⟨a, e1, rfl⟩ | ⟨e1, rfl, e3⟩
      · split at h
        · have : some ((-1 : Int), ((st2.emit (.alloc x a)).emit (.failed x)).release x o) = some (r, st') := by
            rw [← h]
            simp only [St.release, e1]
            split <;> rfl
          simp only [Option.some.injEq, Prod.mk.injEq] at this
          rw [← this.1, ← this.2]
          exact .allocNull e1
        · split at h
          · cases h
          · rename_i r1 st4 h4
            split at h
            · cases h
            · rename_i o' ho'
              simp only [Option.some.injEq, Prod.mk.injEq] at h
              obtain ⟨st5, h5, rfl⟩ := withValue_some h4
              rw [← h.1, ← h.2]
              have : Big cfg (.stmt (.allocate x sto e ds body)) st2 r1 ((st2.pop x st5).release x o') := .allocHeap e1 (ih _ _ _ h5) ho'
              convert this using 1
              simp only [St.release]
              cases o'.alloc with
              | none => rfl
              | some a =>
                simp only
                split <;> rfl
      · split at h
        · rename_i hc
          exact absurd hc.1 e3
        · split at h
          · cases h
          · rename_i r1 st4 h4
            split at h
            · cases h
            · rename_i o' ho'
              simp only [Option.some.injEq, Prod.mk.injEq] at h
              obtain ⟨st5, h5, rfl⟩ := withValue_some h4
              rw [← h.1, ← h.2]
              have : Big cfg (.stmt (.allocate x sto e ds body)) st3 r1 ((st3.pop x st5).release x o') := .allocStack e1 (ih _ _ _ h5) ho'
              convert this using 1
              simp only [St.release]
              cases o'.alloc with
              | none => rfl
              | some a =>
                simp only
                split <;> rfl
  | .makeBuffer x p e ds body, hw, skip, st, r, st', h => by
    refine Big.ofStmt skip ?_
    simp only [Stmt.WF] at hw
    have ih := run_big cfg body hw.2.2.2 false
    simp only [run, Option.bind_eq_bind, Option.bind_eq_some_iff, Prod.exists] at h
    obtain ⟨v, st1, h1, q, st2, h2, dims, st3, h3, h⟩ := h
    have := Cfg.evalDef_state hw.2.1 h1
    subst this
    have := Cfg.evalDef_state hw.1 h2
    subst this
    have := Cfg.evalDims_state hw.2.2.1 h3
    subst this
    generalize (if q = 0 then none else some q : Option Int) = base at h
    split at h
    · exact big_obj ih ⟨rfl, rfl⟩ rfl h
    · simp only [Option.some.injEq, Prod.mk.injEq] at h
      rw [← h.1, ← h.2]
      exact .makeFail
  | .constantBuffer x b body, hw, skip, st, r, st', h => by
    refine Big.ofStmt skip ?_
    simp only [run] at h
    exact big_obj (run_big cfg body hw false) ⟨rfl, rfl⟩ rfl h
  | .cloneBuffer x src body, hw, skip, st, r, st', h => by
    refine Big.ofStmt skip ?_
    simp only [run] at h
    split at h
    · cases h
    · exact big_obj (run_big cfg body hw false) ⟨rfl, rfl⟩ rfl h
  | .cropBuffer x src bs body, hw, skip, st, r, st', h => by
    refine Big.ofStmt skip ?_
    simp only [Stmt.WF] at hw
    have ih := run_big cfg body hw.2 false
    simp only [run] at h
    split at h
    · split at h
      · cases h
      · rename_i o ho
        have ho2 : st.objs (st.ctx x).toNat = some o := by
          unfold St.obj? at ho
          split at ho
          · cases ho
          · exact ho
        simp only [Option.bind_eq_bind, Option.bind_eq_some_iff, Prod.exists] at h
        obtain ⟨st1, h1, r1, st2, h2, h⟩ := h
        obtain ⟨o1, e1, e2, e3, e4, e5⟩ := Cfg.cropAll_state (s0 := o.store) hw.1 ho2 h1 (CB.refl _ _)
        split at h
        · cases h
        · rename_i o' ho'
          simp only [Option.some.injEq, Prod.mk.injEq] at h
          rw [← h.1, ← h.2]
          rw [e1] at h2
          rw [Nat.zero_add] at e5
          exact .inPlace (body := body) (by simp only [Stmt.isInPlace]) ho2 e2 (reverts_cropAll e3 e4 e5) (ih _ _ _ h2) ho'
    · split at h
      · cases h
      · simp only [Option.bind_eq_bind, Option.bind_eq_some_iff, Prod.exists] at h
        obtain ⟨b, st1, h1, h⟩ := h
        have := Cfg.cropCopy_state hw.1 h1
        subst this
        exact big_obj ih ⟨rfl, rfl⟩ rfl h
  | .cropDim x src d b body, hw, skip, st, r, st', h => by
    refine Big.ofStmt skip ?_
    simp only [Stmt.WF] at hw
    have ih := run_big cfg body hw.2 false
    simp only [run] at h
    split at h
    · split at h
      · cases h
      · rename_i o ho
        have ho2 : st.objs (st.ctx x).toNat = some o := by
          unfold St.obj? at ho
          split at ho
          · cases ho
          · exact ho
        split at h
        · exact .same (body := body) (by simp only [Stmt.isInPlace]) (ih _ _ _ h)
        · rename_i hd
          simp only [Option.bind_eq_bind, Option.bind_eq_some_iff, Prod.exists] at h
          obtain ⟨a, c, st1, h1, r1, st2, h2, h⟩ := h
          have := Cfg.evalIvDef_state hw.1 h1
          subst this
          split at h
          · cases h
          · rename_i o' ho'
            simp only [Option.some.injEq, Prod.mk.injEq] at h
            rw [← h.1, ← h.2]
            exact .inPlace (o1 := o.setBuf (o.buf.crop d a c)) (body := body) (by simp only [Stmt.isInPlace]) ho2 rfl (reverts_crop _ _ (by omega)) (ih _ _ _ h2) ho'
    · split at h
      · cases h
      · simp only [Option.bind_eq_bind, Option.bind_eq_some_iff, Prod.exists] at h
        obtain ⟨a, c, st1, h1, h⟩ := h
        have := Cfg.evalIvDef_state hw.1 h1
        subst this
        exact big_obj ih ⟨rfl, rfl⟩ rfl h
  | .sliceBuffer x src es body, hw, skip, st, r, st', h => by
    refine Big.ofStmt skip ?_
    simp only [Stmt.WF] at hw
    simp only [run] at h
    split at h
    · cases h
    · simp only [Option.bind_eq_bind, Option.bind_eq_some_iff, Prod.exists] at h
      obtain ⟨a, c, st1, h1, h⟩ := h
      have := Cfg.sliceAll_state hw.1 h1
      subst this
      exact big_obj (run_big cfg body hw.2 false) ⟨rfl, rfl⟩ rfl h
  | .sliceDim x src d e body, hw, skip, st, r, st', h => by
    refine Big.ofStmt skip ?_
    simp only [Stmt.WF] at hw
    have ih := run_big cfg body hw.2 false
    simp only [run] at h
    split at h
    · cases h
    · split at h
      · exact big_obj ih ⟨rfl, rfl⟩ rfl h
      · split at h
        · exact big_obj ih ⟨rfl, rfl⟩ rfl h
        · simp only [Option.bind_eq_bind, Option.bind_eq_some_iff, Prod.exists] at h
          obtain ⟨i, st1, h1, h⟩ := h
          have := Cfg.eval_state hw.1 h1
          subst this
          exact big_obj ih ⟨rfl, rfl⟩ rfl h
  | .transpose x src dims body, hw, skip, st, r, st', h => by
    refine Big.ofStmt skip ?_
    have ih := run_big cfg body hw false
    simp only [run] at h
    split at h
    · cases h
    · rename_i o ho
      have ho2 : st.objs (st.ctx src).toNat = some o := by
        unfold St.obj? at ho
        split at ho
        · cases ho
        · exact ho
      split at h
      · split at h
        · simp only [Option.bind_eq_bind, Option.bind_eq_some_iff, Prod.exists] at h
          obtain ⟨r1, st2, h2, h⟩ := h
          split at h
          · cases h
          · rename_i o' ho'
            simp only [Option.some.injEq, Prod.mk.injEq] at h
            rw [← h.1, ← h.2]
            refine .inPlace (o1 := { o with rank := dims.length }) (undo := fun o' => { o' with rank := o.rank }) (body := body) (by simp only [Stmt.isInPlace]) ho2 rfl ?_ (ih _ _ _ h2) ho'
            intro o'' hh
            simp only [Obj.noAlloc, Obj.mk.injEq] at hh
            obtain ⟨e1, e2, e3, _, _⟩ := hh
            exact ⟨by simp only [Obj.noAlloc]; rw [e1, e2, e3], rfl⟩
        · cases h
      · exact big_obj ih ⟨rfl, rfl⟩ rfl h
  | .async x task body, hw, skip, st, r, st', h => by
    refine Big.ofStmt skip ?_
    simp only [Stmt.WF] at hw
    have iht := run_big cfg task hw.1 true
    have ihb := run_big cfg body hw.2 true
    simp only [run] at h
    split at h
    · simp only [Option.bind_eq_bind, Option.bind_eq_some_iff, Prod.exists, Option.some.injEq, Prod.mk.injEq] at h
      obtain ⟨t, st1, h1, r1, st3, h2, rfl, rfl⟩ := h
      exact .asyncFirst (big_new iht h1) (big_new ihb h2)
    · simp only [Option.bind_eq_bind, Option.bind_eq_some_iff, Prod.exists, Option.some.injEq, Prod.mk.injEq] at h
      obtain ⟨r1, st1, h1, t, st3, h2, rfl, rfl⟩ := h
      split at h2
      · exact .asyncLate (big_new ihb h1) (big_new iht h2)
      · exact .asyncAfter (big_new ihb h1) (big_new iht h2)
  | .check c, hw, skip, st, r, st', h => by
    refine Big.ofStmt skip ?_
    unfold run at h
    split at h
    · rename_i x d
      unfold evalFree at h
      cases ho : st.obj? (st.ctx x) with
      | none => simp [ho] at h
      | some o =>
        cases ha : o.alloc with
        | none => simp [ho, ha] at h
        | some a =>
          simp only [ho, ha, Option.some.injEq, Prod.mk.injEq] at h
          rw [← h.1, ← h.2]
          exact .checkFree ho ha
    · simp only [Option.bind_eq_bind, Option.bind_eq_some_iff, Prod.exists] at h
      obtain ⟨v, st1, h1, h⟩ := h
      have := Cfg.eval_state hw h1
      subst this
      split at h
      · simp only [Option.some.injEq, Prod.mk.injEq] at h
        rw [← h.1, ← h.2]
        exact .checkFail
      · simp only [Option.some.injEq, Prod.mk.injEq] at h
        rw [← h.1, ← h.2]
        exact .checkOk
/-- Every evaluation of the statements of a block follows the rules. -/
theorem runAll_big (cfg : Cfg) : ∀ (ss : Stmts), ss.WF → ∀ (st : St) (r : Int) (st' : St), runAll cfg ss st = some (r, st') → Big cfg (.all ss) st r st'
  | .nil, _, st, r, st', h => by
    simp only [runAll, Option.some.injEq, Prod.mk.injEq] at h
    rw [← h.1, ← h.2]
    exact .nil
  | .cons s ss, hw, st, r, st', h => by
    simp only [Stmts.WF] at hw
    simp only [runAll, Option.bind_eq_bind, Option.bind_eq_some_iff, Prod.exists] at h
    obtain ⟨r1, st1, h1, h2⟩ := h
    split at h2
    · rename_i hr
      simp only [Option.some.injEq, Prod.mk.injEq] at h2
      rw [← h2.1, ← h2.2]
      exact .consFail (run_big cfg s hw.1 false _ _ _ h1) hr
    · rename_i hr
      simp only [not_not] at hr
      subst hr
      exact .cons (run_big cfg s hw.1 false _ _ _ h1) (runAll_big cfg ss hw.2 _ _ _ h2)
end

theorem exec_big {cfg : Cfg} {s : Stmt} (hw : s.WF) {st : St} {r : Int} {st' : St} (h : exec cfg s st = some (r, st')) : Big cfg (.stmt s) st r st' :=
  run_big cfg s hw false st r st' h

end Slinky
