import Verif.NarrowScope
import Verif.OptSymbolsThm
import Verif.DeshadowEx

/-!
# C57: narrowing the scopes of buffers. Theorems, examples and counterexamples
-/

namespace Slinky.NS

open Slinky

/-! ## Theorems -/

/-- C57: narrowing the scope of a declaration changes nothing that the program does: the same calls with the same arguments in the same order, and the
same result (in every environment and every world). The conditions: the declaration succeeds (it does, around an empty body), the parameters of the
declaration do not ask the world, and if a statement makes a clone of `x` that it does not use, then `x` is a buffer outside of the scope too. -/
theorem narrow_partial (w : World) (h : Head) (hl : h.LogFree) (x : Nat) (body : Stmt) (hb : body.BufOK) (hc : body.ClosOK) (hf : FlatBlock body) (ρ : SEnv)
    (hx : (∃ b, ρ x = .buf b) ∨ ¬ body.Uses none x) (l : List Ev) (hv : sem w false (h.stmt x (.block .nil)) ρ l = some (0, l)) (p : Int × List Ev)
    (hs : sem w false (h.stmt x body) ρ l = some p) : sem w false (narrow h x body) ρ l = some p :=
  narrow_sem h hl hb hc hf hx hv hs

/-- C57: narrowing the scope of an allocation changes nothing but when the memory is allocated and freed. The allocation succeeds whenever it is made, the
address does not depend on when it is made, and nothing else in the world depends on the allocations. -/
theorem narrowAlloc_partial {w : World} (hw : w.Blind Ev.notAlloc) (ha : ∀ b l l', w.allocate b l = w.allocate b l')
    (hst : ∀ l l', w.stackAddr l = w.stackAddr l') (x : Nat) (st : Storage) (e : Expr) (ds : List DimE) (he : e.LogFree) (hds : ∀ d ∈ ds, d.LogFree)
    (body : Stmt) (hb : body.BufOK) (hc : body.ClosOK) (hf : FlatBlock body) (ρ : SEnv) (hx : (∃ b, ρ x = .buf b) ∨ ¬ body.Uses none x) (l m0 : List Ev)
    (hv : sem w false (.allocate x st e ds (.block .nil)) ρ l = some (0, m0)) (r : Int) (m : List Ev)
    (hs : sem w false (.allocate x st e ds body) ρ l = some (r, m)) :
    ∃ m', sem w false (narrowAlloc x st e ds body) ρ l = some (r, m') ∧ m.filter Ev.notAlloc = m'.filter Ev.notAlloc :=
  narrowAlloc_le hw ⟨ha, hst, fun _ _ => rfl, fun _ _ => rfl⟩ he hds hb hc hf hx hv hs

theorem Head.wf_body {h : Head} {x : Nat} {body body' : Stmt} (hw : (h.stmt x body).WF) (hb : body'.WF) : (h.stmt x body').WF := by
  cases h <;> simp only [Head.stmt, Stmt.WF] at hw ⊢ <;> tauto

theorem Head.wf_of {h : Head} {x : Nat} {body : Stmt} (hw : (h.stmt x body).WF) : body.WF := by
  cases h <;> simp only [Head.stmt, Stmt.WF] at hw <;> tauto

theorem liftLoop_wf {h : Head} {x : Nat} {body : Stmt} (hw : (h.stmt x body).WF) : ∀ (ss : List Stmt), (∀ s ∈ ss, s.WF) →
    ∀ t ∈ liftLoop (mkHead h x) x ss, t.WF
  | [], _, t, ht => by rw [liftLoop] at ht; cases ht
  | s :: ss, hs, t, ht => by
    rw [liftLoop] at ht
    split at ht
    · have hlen := (List.dropWhile_sublist (l := ss) (dep x)).length_le
      rcases List.mem_cons.1 ht with rfl | ht
      · have : (blockMake (s :: ss.takeWhile (dep x))).WF := blockMake_wf' fun t ht => by
          rcases List.mem_cons.1 ht with rfl | ht
          · exact hs _ (by simp)
          · exact hs _ (by simp [takeWhile_mem ht])
        unfold mkHead
        split
        · exact Head.wf_body hw this
        · exact this
      · exact liftLoop_wf hw (ss.dropWhile (dep x)) (fun t ht => hs t (by simp [dropWhile_mem ht])) t ht
    · rcases List.mem_cons.1 ht with rfl | ht
      · exact hs _ (by simp)
      · exact liftLoop_wf hw ss (fun t ht => hs t (by simp [ht])) t ht
termination_by ss => ss.length
decreasing_by
  all_goals first | exact Nat.lt_succ_of_le hlen | simp

theorem narrow_wf {h : Head} {x : Nat} {body : Stmt} (hw : (h.stmt x body).WF) : (narrow h x body).WF := by
  have hb := Head.wf_of hw
  have hmk : ∀ b : Stmt, b.WF → (mkHead h x b).WF := fun b hb => by
    unfold mkHead
    split
    · exact Head.wf_body hw hb
    · exact hb
  unfold narrow
  rcases block_cases body with ⟨ss, rfl⟩ | hnb
  · simp only [liftDecl]
    split
    · exact hmk _ hb
    · simp only [Stmt.WF] at hb
      exact blockMake_wf' (liftLoop_wf hw _ (Stmts.wf_iff.1 hb))
  · rw [liftDecl_other hnb]
    exact hmk _ hb

/-- C57: the evaluator does the same. -/
theorem narrow_exec_partial (w : World) (g : Env) (h : Head) (hl : h.LogFree) (x : Nat) (body : Stmt) (hb : body.BufOK) (hc : body.ClosOK) (hf : FlatBlock body)
    (hw : (h.stmt x body).WF) {st : St} {ρ : SEnv} (hR : StRel st ρ) (hx : (∃ b, ρ x = .buf b) ∨ ¬ body.Uses none x)
    (hv : sem w false (h.stmt x (.block .nil)) ρ st.alog = some (0, st.alog)) {r : Int} {l' : List Ev} (hs : sem w false (h.stmt x body) ρ st.alog = some (r, l')) :
    ∃ st1 st2, exec (cfgOf w g) (h.stmt x body) st = some (r, st1) ∧ exec (cfgOf w g) (narrow h x body) st = some (r, st2) ∧
      st1.log.map Ev.anon = l' ∧ st2.log.map Ev.anon = l' ∧ st1.objs = st.objs ∧ st2.objs = st.objs := by
  obtain ⟨st1, h1, h2, h3, _⟩ := exec_sem w g hw hR hs
  obtain ⟨st2, h4, h5, h6, _⟩ := exec_sem w g (narrow_wf hw) hR (narrow_sem h hl hb hc hf hx hv hs)
  exact ⟨st1, st2, h1, h4, h2, h5, h3, h6⟩

/-- C57: after narrowing, only statements that depend on the buffer are in its scope. (If all statements of the body do, nothing is changed.) -/
theorem liftLoop_tight (h : Head) (x : Nat) : ∀ (ss : List Stmt), SolidList ss → (∀ s ∈ ss, s.BufOK) → ∀ t ∈ liftLoop (mkHead h x) x ss,
    (t ∈ ss ∧ dependsOnS t x = []) ∨ ∃ run, run ≠ [] ∧ (∀ s ∈ run, s ∈ ss ∧ dependsOnS s x ≠ []) ∧ t = h.stmt x (blockMake run)
  | [], _, _, t, ht => by rw [liftLoop] at ht; cases ht
  | s :: ss, hs, hb, t, ht => by
    have hdep : ∀ s : Stmt, dep x s = true → dependsOnS s x ≠ [] := fun s hd e => by simp [dep, e] at hd
    rw [liftLoop] at ht
    split at ht
    · rename_i hd
      have hlen := (List.dropWhile_sublist (l := ss) (dep x)).length_le
      rcases List.mem_cons.1 ht with rfl | ht
      · have hsub : ∀ t ∈ s :: ss.takeWhile (dep x), t ∈ s :: ss ∧ dep x t = true := fun t ht => by
          rcases List.mem_cons.1 ht with rfl | ht
          · simp [hd]
          · exact ⟨by simp [takeWhile_mem ht], mem_takeWhile ht⟩
        refine Or.inr ⟨s :: ss.takeWhile (dep x), by simp, fun t ht => ⟨(hsub t ht).1, hdep t (hsub t ht).2⟩, ?_⟩
        exact mkHead_dep ((dep_blockMake (SolidList.mono hs fun t ht => (hsub t ht).1) fun t ht => hb t (hsub t ht).1).mpr ⟨s, by simp, hd⟩)
      · rcases liftLoop_tight h x (ss.dropWhile (dep x)) (SolidList.mono hs fun t ht => by simp [dropWhile_mem ht])
          (fun t ht => hb t (by simp [dropWhile_mem ht])) t ht with ⟨h1, h2⟩ | ⟨run, h1, h2, h3⟩
        · exact Or.inl ⟨by simp [dropWhile_mem h1], h2⟩
        · exact Or.inr ⟨run, h1, fun s hs => ⟨by simp [dropWhile_mem (h2 s hs).1], (h2 s hs).2⟩, h3⟩
    · rename_i hd
      rcases List.mem_cons.1 ht with rfl | ht
      · exact Or.inl ⟨by simp, by simpa [dep] using hd⟩
      · rcases liftLoop_tight h x ss (SolidList.mono hs fun t ht => by simp [ht]) (fun t ht => hb t (by simp [ht])) t ht with ⟨h1, h2⟩ | ⟨run, h1, h2, h3⟩
        · exact Or.inl ⟨by simp [h1], h2⟩
        · exact Or.inr ⟨run, h1, fun s hs => ⟨by simp [(h2 s hs).1], (h2 s hs).2⟩, h3⟩
termination_by ss => ss.length
decreasing_by
  all_goals first | exact Nat.lt_succ_of_le hlen | simp

/-- C57: no statement outside of the declarations depends on the buffer, and the statements in them depend on it, for a block of which some statement does
not depend on it. -/
theorem narrow_tight (h : Head) (x : Nat) (ss : Stmts) (hf : FlatBlock (.block ss)) (hb : ss.BufOK) (ho : ∃ s ∈ ss.toList, dependsOnS s x = []) :
    ∃ ts, narrow h x (.block ss) = blockMake ts ∧ ∀ t ∈ ts, (t ∈ ss.toList ∧ dependsOnS t x = []) ∨
      ∃ run, run ≠ [] ∧ (∀ s ∈ run, s ∈ ss.toList ∧ dependsOnS s x ≠ []) ∧ t = h.stmt x (blockMake run) := by
  refine ⟨liftLoop (mkHead h x) x ss.toList, ?_, liftLoop_tight h x ss.toList hf.2 (bufOK_iff.1 hb)⟩
  unfold narrow
  simp only [liftDecl]
  rw [if_neg]
  obtain ⟨s, h1, h2⟩ := ho
  intro ha
  simp only [Bool.and_eq_true, List.all_eq_true] at ha
  have := ha.1 s h1
  simp [dep, h2] at this

theorem dropWhile_head {α : Type} {p : α → Bool} : ∀ (ss : List α), ∀ s ∈ (ss.dropWhile p).head?, p s = false
  | [], s, h => by simp at h
  | t :: ts, s, h => by
    rw [List.dropWhile_cons] at h
    split at h
    · exact dropWhile_head ts s h
    · rename_i ht
      simp only [List.head?_cons, Option.mem_def, Option.some.injEq] at h
      rw [← h]; simpa using ht

/-- C57: the body of a narrowed allocation begins and ends with a statement that depends on it; the statements before and after do not. -/
theorem narrowAlloc_tight (x : Nat) (st : Storage) (e : Expr) (ds : List DimE) (ss : Stmts) (hf : FlatBlock (.block ss)) (hb : ss.BufOK)
    (hd : dependsOnS (.block ss) x ≠ []) :
    ∃ a b c, ss.toList = a ++ b ++ c ∧ narrowAlloc x st e ds (.block ss) = blockMake [blockMake a, .allocate x st e ds (blockMake b), blockMake c] ∧
      (∀ s ∈ a ++ c, dependsOnS s x = []) ∧ (∀ s ∈ b.head?, dependsOnS s x ≠ []) ∧ (∀ s ∈ b.getLast?, dependsOnS s x ≠ []) ∧ b ≠ [] := by
  have hdd : dep x (.block ss) = true := by
    unfold dep
    cases e : dependsOnS (.block ss) x with
    | nil => exact absurd e hd
    | cons => rfl
  refine ⟨(split3 x ss.toList).1, (split3 x ss.toList).2.1, (split3 x ss.toList).2.2, by rw [List.append_assoc, split3_append], ?_, ?_, ?_, ?_, ?_⟩
  · unfold narrowAlloc
    rw [if_pos hdd]
  · intro s hs
    have : dep x s = false := by
      rcases List.mem_append.1 hs with h | h
      · exact split3_before h
      · exact split3_after h
    simpa [dep] using this
  · intro s hs
    have h1 : ∀ (rest : List Stmt), ∀ s ∈ ((rest.reverse.dropWhile fun s => !dep x s).reverse).head?, s ∈ rest.head? ∨ dep x s = true := by
      intro rest s hs
      left
      have e := List.takeWhile_append_dropWhile (p := fun s => !dep x s) (l := rest.reverse)
      have e2 := congrArg List.reverse e
      rw [List.reverse_reverse, List.reverse_append] at e2
      rw [← e2]
      cases hq : (rest.reverse.dropWhile fun s => !dep x s).reverse with
      | nil => rw [hq] at hs; cases hs
      | cons a r => rw [hq] at hs; simpa using hs
    rcases h1 _ s hs with h | h
    · have := dropWhile_head _ s h
      intro he
      simp [dep, he] at this
    · intro he; simp [dep, he] at h
  · intro s hs
    simp only [split3, List.getLast?_reverse] at hs
    have := dropWhile_head _ s hs
    intro he
    simp [dep, he] at this
  · intro he
    obtain ⟨s, h1, h2⟩ := (dep_block (bufOK_iff.1 hb)).1 hdd
    rw [← split3_append (x := x) ss.toList, he, List.nil_append] at h1
    rcases List.mem_append.1 h1 with h | h
    · rw [split3_before h] at h2; cases h2
    · rw [split3_after h] at h2; cases h2

end Slinky.NS

namespace Slinky.NS

open Slinky

/-! ## Examples -/

/-- Four calls; the second and the third use symbol 1. -/
def exStmts : Stmts :=
  .ofList [.call 7 [] [] [.const 0], .call 8 [0] [1] [.var 1 .min 0], .call 9 [1] [1] [.const 1], .call 10 [] [0] [.const 0]]

/-- A crop of dimension 0 of symbol 0. -/
def exHead : Head := .cropDim 0 0 ⟨.const 1, .const 2, false⟩

theorem exStmts_ok : (Stmt.block exStmts).BufOK ∧ (Stmt.block exStmts).ClosOK ∧ FlatBlock (.block exStmts) ∧ ¬ (Stmt.block exStmts).Uses none 1 := by
  refine ⟨?_, ?_, ⟨by simp [exStmts, Stmts.toList_ofList], ?_⟩, ?_⟩
  · simp [exStmts, Stmts.ofList, Stmt.BufOK, Stmts.BufOK, Expr.BufOK]
  · simp [exStmts, Stmts.ofList, Stmt.ClosOK, Stmts.ClosOK]
  · rw [exStmts, Stmts.toList_ofList]
    simp [SolidList, Stmt.isBlock, Stmt.defined]
  · simp [exStmts, Stmts.ofList, Stmt.Uses, Stmts.Uses, ReadsO, Dep.inp, Dep.out]

/-- The first and the last call are moved out of the scope of the declaration. -/
theorem exStmts_narrow (h : Head) : narrow h 1 (.block exStmts) = .block (.ofList [.call 7 [] [] [.const 0],
    h.stmt 1 (.block (.ofList [.call 8 [0] [1] [.var 1 .min 0], .call 9 [1] [1] [.const 1]])), .call 10 [] [0] [.const 0]]) := by
  have h1 : dep 1 (.call 7 [] [] [.const 0]) = false := by decide
  have h2 : dep 1 (.call 8 [0] [1] [.var 1 .min 0]) = true := by decide
  have h3 : dep 1 (.call 9 [1] [1] [.const 1]) = true := by decide
  have h4 : dep 1 (.call 10 [] [0] [.const 0]) = false := by decide
  have h5 : dep 1 (blockMake [.call 8 [0] [1] [.var 1 .min 0], .call 9 [1] [1] [.const 1]]) = true := by decide
  simp only [narrow, liftDecl, exStmts, Stmts.toList_ofList, liftLoop, List.takeWhile, List.dropWhile, List.all, h1, h2, h3, h4, mkHead, h5, if_true,
    Bool.false_and, Bool.false_eq_true, if_false]
  cases h <;> rfl

/-- The conditions of `narrow_partial` hold. -/
example : sem dsW false (narrow exHead 1 (.block exStmts)) dsEnv [] = some (0, [.call 10 0, .call 9 0, .call 8 0, .call 7 0]) :=
  narrow_partial dsW exHead (by simp [exHead, Head.LogFree, Interval.LogFree, Expr.LogFree]) 1 _ exStmts_ok.1 exStmts_ok.2.1 exStmts_ok.2.2.1 dsEnv
    (Or.inr exStmts_ok.2.2.2) [] (by decide +kernel) _ (by decide +kernel)

/-- `dsW` does not look at the log. -/
theorem dsW_blind (vis : Ev → Bool) : dsW.Blind vis := by constructor <;> intros <;> rfl

/-- The conditions of `narrowAlloc_partial` hold. -/
example : ∃ m', sem dsW false (narrowAlloc 1 .heap (.const 4) [⟨⟨.const 1, .const 2, false⟩, .const 4, .undef⟩] (.block exStmts)) dsEnv [] = some (0, m') ∧
    m'.filter Ev.notAlloc = [.call 10 0, .call 9 0, .call 8 0, .call 7 0] := by
  obtain ⟨m', h1, h2⟩ := narrowAlloc_partial (dsW_blind _) (fun _ _ _ => rfl) (fun _ _ => rfl) 1 .heap (.const 4)
    [⟨⟨.const 1, .const 2, false⟩, .const 4, .undef⟩] (by simp [Expr.LogFree]) (by simp [DimE.LogFree, Interval.LogFree, Expr.LogFree]) _ exStmts_ok.1
    exStmts_ok.2.1 exStmts_ok.2.2.1 dsEnv (Or.inr exStmts_ok.2.2.2) [] [.free 0 77, .alloc 0 77] (by decide +kernel) 0
    [.free 0 77, .call 10 0, .call 9 0, .call 8 0, .call 7 0, .alloc 0 77] (by decide +kernel)
  exact ⟨m', h1, h2.symm⟩

/-- Here the memory is allocated after the first call, and freed before the last one. -/
example : sem dsW false (narrowAlloc 1 .heap (.const 4) [⟨⟨.const 1, .const 2, false⟩, .const 4, .undef⟩] (.block exStmts)) dsEnv [] =
    some (0, [.call 10 0, .free 0 77, .call 9 0, .call 8 0, .alloc 0 77, .call 7 0]) := by decide +kernel

/-! ## Counterexamples -/

/-- A make_buffer that fails: the last elements of the buffer are before address 0. -/
def badHead : Head := .makeBuffer (.const 4) (.const 4) [⟨⟨.const 0, .const 3, false⟩, .const (-4), .undef⟩]

/-- C57: if the declaration fails, the program that is given runs no call, and the program after narrowing runs the calls before the first use of the buffer. -/
theorem narrow_fail_counterexample : sem dsW false (badHead.stmt 1 (.block exStmts)) dsEnv [] = some (-1, [.failed 0]) ∧
    sem dsW false (narrow badHead 1 (.block exStmts)) dsEnv [] = some (-1, [.failed 0, .call 7 0]) := by
  rw [exStmts_narrow]
  constructor <;> decide +kernel

/-- C57: if the declaration fails, and the buffer is not used, the error is lost. -/
theorem narrow_unused_counterexample : sem dsW false (badHead.stmt 1 (.call 7 [] [] [.const 0])) dsEnv [] = some (-1, [.failed 0]) ∧
    sem dsW false (narrow badHead 1 (.call 7 [] [] [.const 0])) dsEnv [] = some (0, [.call 7 0]) := by
  constructor <;> decide +kernel

/-- A world in which there is no memory. -/
def oomW : World := { dsW with allocate := fun b _ => ({ b with base := none }, 0), allocate_rank := fun _ _ => rfl }

/-- C57: the same for an allocation: a call runs before the allocation fails, or the failure is lost. -/
theorem narrowAlloc_fail_counterexample :
    (sem oomW false (.allocate 1 .heap (.const 4) [⟨⟨.const 1, .const 2, false⟩, .const 4, .undef⟩] (.block exStmts)) dsEnv []).map Prod.fst = some (-1) ∧
    (Ev.call 7 0 ∉ ((sem oomW false (.allocate 1 .heap (.const 4) [⟨⟨.const 1, .const 2, false⟩, .const 4, .undef⟩] (.block exStmts)) dsEnv []).getD (0, [])).2) ∧
    (sem oomW false (narrowAlloc 1 .heap (.const 4) [⟨⟨.const 1, .const 2, false⟩, .const 4, .undef⟩] (.block exStmts)) dsEnv []).map Prod.fst = some (-1) ∧
    (Ev.call 7 0 ∈ ((sem oomW false (narrowAlloc 1 .heap (.const 4) [⟨⟨.const 1, .const 2, false⟩, .const 4, .undef⟩] (.block exStmts)) dsEnv []).getD (0, [])).2) ∧
    sem oomW false (narrowAlloc 1 .heap (.const 4) [⟨⟨.const 1, .const 2, false⟩, .const 4, .undef⟩] (.call 7 [] [] [.const 0])) dsEnv [] = some (0, [.call 7 0]) := by
  refine ⟨?_, ?_, ?_, ?_, ?_⟩ <;> decide +kernel

end Slinky.NS
