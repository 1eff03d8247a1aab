import Verif.StmtAlloc
import Verif.StmtLoops
import Verif.StmtBlocks

/-!
# Examples and counterexamples for the evaluation of statements
-/

namespace Slinky

/-- A world for the examples: the call 9 fails with the error 5; the allocator gives out memory; parallel loops run backwards on two workers. -/
def exCfg : Cfg where
  call t _ _ _ _ := if t = 9 then 5 else 0
  host _ _ _ := 0
  allocate _ o _ := ({ o with base := some 4096 }, 77)
  stackAddr _ := 8192
  strideAlign := 1
  autoStack := 0
  pool := true
  sched _ n := (List.range n).reverse.map fun i => (i, i % 2)
  taskFirst _ := true
  taskLate _ := true
  taskHandle _ := 99
  garbage _ := 0

/-- Nothing but symbol 3, which is 7. -/
def exSt : St := ⟨fun x => if x = 3 then 7 else 0, fun _ => none, 0, []⟩

theorem exSt_fresh : exSt.Fresh := fun _ _ => rfl
theorem exCfg_runsAll : exCfg.RunsAll := by
  intro st n
  simp only [exCfg, List.map_map]
  have : (List.range n).reverse.map (Prod.fst ∘ fun i => (i, i % 2)) = (List.range n).reverse := by
    conv_rhs => rw [← List.map_id (List.range n).reverse]
    rfl
  rw [this]
  exact List.reverse_perm _

/-- The result, the log, and the values of some symbols. -/
def obs (p : Option (Int × St)) (xs : List Nat) : Option (Int × List Ev × List Int) := p.map fun p => (p.1, p.2.log, xs.map p.2.ctx)

/-- Allocate, loop, and a call that fails in the second iteration. -/
def exStmt : Stmt :=
  .allocate 1 .heap (.const 4) [⟨⟨.const 0, .const 9, false⟩, .undef, .undef⟩]
    (.loop 2 (.const 1) ⟨.const 0, .const 3, false⟩ .undef
      (.block (.cons (.call 8 [] [1] []) (.cons (.check (.bin .lt (.v 2) (.const 1))) (.cons (.call 8 [] [1] []) .nil)))))

theorem exStmt_wf : exStmt.WF := by
  simp [exStmt, Stmt.WF, Stmts.WF, Expr.WF, Interval.EndsWF, DimE.WF, Expr.v, InRange]
theorem exStmt_serial : exStmt.Serial := by simp [exStmt, Stmt.Serial, Stmts.Serial]

/-- It stops at the check that fails, gives back the memory, and restores the symbols (C31, C33, C34 at work). -/
theorem exStmt_obs : obs (exec exCfg exStmt exSt) [1, 2, 3] =
    some (1, [.free 1 77, .check false, .call 8 0, .call 8 0, .check true, .call 8 0, .alloc 1 77], [0, 0, 7]) := by decide +kernel

/-- The hypotheses of the theorems are met. -/
theorem exStmt_restores : ∃ r st', exec exCfg exStmt exSt = some (r, st') ∧ (∀ x, st'.ctx x = exSt.ctx x ∨ (x ∈ exStmt.asyncSyms ∧ st'.ctx x = 0)) ∧
    frees 77 st'.log = allocs 77 st'.log ∧
    ∃ post e pre, st'.log = post ++ e :: pre ++ exSt.log ∧ e.error = some r ∧ (∀ f ∈ pre, f.error = none) ∧ ∀ f ∈ post, ∃ x h, f = .free x h := by
  have h := exStmt_obs
  cases e : exec exCfg exStmt exSt with
  | none => rw [e] at h; cases h
  | some p =>
    obtain ⟨r, st'⟩ := p
    rw [e] at h
    simp only [obs, Option.map_some, Option.some.injEq, Prod.mk.injEq] at h
    refine ⟨r, st', rfl, (exec_restores exStmt_wf exSt_fresh e).1, (exec_allocations exStmt_wf exSt_fresh rfl (fun _ _ h => by cases h) e 77 (by decide)).1,
      exec_stops exStmt_wf exStmt_serial e (by rw [h.1]; decide)⟩

/-- A loop over 0, 2, 4. -/
def exLoop (w : Int) (body : Stmt) : Stmt := .loop 2 (.const w) ⟨.const 0, .const 5, false⟩ (.const 2) body

/-- The body uses the symbol of the loop. -/
def exBody : Stmt := .block (.cons (.check (.bin .ne (.v 2) (.const 2))) (.cons (.call 8 [] [] []) .nil))

/-- The serial loop stops at the error; the parallel loop runs all iterations. -/
theorem exLoop_obs : obs (exec exCfg (exLoop 1 exBody) exSt) [2, 3] = some (1, [.check false, .call 8 0, .check true], [0, 7]) ∧
    obs (exec exCfg (exLoop 4 exBody) exSt) [2, 3] = some (1, [.call 8 0, .check true, .check false, .call 8 0, .check true], [0, 7]) ∧
    loopValues 0 5 2 = [0, 2, 4] := by decide +kernel

/-- The hypotheses of the theorem about parallel loops are met. -/
theorem exLoop_parallel : ∃ r st' tr, exec exCfg (exLoop 4 exBody) exSt = some (r, st') ∧ Iters (exec exCfg exBody) 2 exSt.ctx tr exSt st' ∧
    (tr.map Prod.fst).Perm (loopValues 0 5 2) ∧ r = firstError tr := by
  have h := exLoop_obs.2.1
  cases e : exec exCfg (exLoop 4 exBody) exSt with
  | none => rw [e] at h; cases h
  | some p =>
    obtain ⟨r, st'⟩ := p
    obtain ⟨tr, t⟩ := loop_parallel_runs exCfg_runsAll (x := 2) (workers := .const 4) (bounds := ⟨.const 0, .const 5, false⟩) (step := .const 2) (body := exBody)
      (by simp [exBody, Stmt.WF, Stmts.WF, Expr.WF, Interval.EndsWF, Expr.v, InRange]) (by simp [exBody, Stmt.asyncSyms, Stmts.asyncSyms]) rfl
      (st := exSt) (w := 4) (mn := 0) (mx := 5) (s := 2) rfl rfl rfl (by decide) (by decide) (by decide) e
    exact ⟨r, st', tr, rfl, t⟩

/-- A parallel loop with a closure that renames symbol 3 to symbol 4. -/
theorem exLoop_closure : obs (exec exCfg (exLoop 4 (.lets (.cons 2 (.v 2) (.cons 4 (.v 3) .nil)) (.check (.bin .eq (.v 4) (.const 7))) true)) exSt) [2, 3, 4] =
    some (0, [.check true, .check true, .check true], [0, 7, 0]) := by decide +kernel

/-! ## Counterexamples -/

/-- **Counterexample to C31**: two lets of a statement with the same symbol. The old values are restored in the order of the lets, so the symbol has the
value of the first let after the statement. -/
theorem lets_duplicate_not_restored :
    obs (exec exCfg (.lets (.cons 3 (.const 1) (.cons 3 (.const 2) .nil)) (.call 8 [] [] []) false) exSt) [3] = some (0, [.call 8 0], [1]) := by decide +kernel

/-- **Counterexample to C31**: after an `async`, its symbol is 0, whatever it was before. -/
theorem async_symbol_not_restored : obs (exec exCfg (.async (some 3) (.call 8 [] [] []) (.call 8 [] [] [])) exSt) [3] = some (0, [.call 8 0, .call 8 0], [0]) := by
  decide +kernel

/-- **Counterexample to C32**: if the bounds of a loop are empty by more than 1, the serial loop does nothing, but the parallel loop asks for about 2^64
iterations. -/
theorem parallel_empty_loop_runs_away : parCount 0 (-5) 1 = some (2 ^ 64 - 4) ∧ loopValues 0 (-5) 1 = [] ∧
    obs (exec exCfg (.loop 2 (.const 1) ⟨.const 0, .const (-5), false⟩ .undef (.call 8 [] [] [])) exSt) [] = some (0, [], []) := by decide +kernel

/-- **Counterexample to C32**: with a negative step, the serial loop runs one iteration, and the parallel loop asks for about 2^64. -/
theorem negative_step_differs : parCount 0 2 (-1) = some (2 ^ 64 - 1) ∧
    obs (exec exCfg (.loop 2 (.const 1) ⟨.const 0, .const 2, false⟩ (.const (-1)) (.call 8 [] [] [])) exSt) [] = some (0, [.call 8 0], []) := by decide +kernel

/-- An allocator that always fails. -/
def failCfg : Cfg := { exCfg with allocate := fun _ o _ => (o, 0) }

/-- A buffer of `n × n` elements. -/
def exAlloc (n : Int) : Stmt := .allocate 1 .heap (.const 4)
  [⟨⟨.const 1, .const n, false⟩, .undef, .undef⟩, ⟨⟨.const 1, .const n, false⟩, .undef, .undef⟩] (.call 8 [] [1] [])

/-- **Counterexample to C33**: a failed allocation is an error, but not if the number of elements is a multiple of 2^64: then the body is run with a null
pointer as the base of the buffer. -/
theorem failed_huge_allocation_not_noticed : obs (exec failCfg (exAlloc 8) exSt) [] = some (-1, [.failed 1, .alloc 1 0], []) ∧
    obs (exec failCfg (exAlloc (2 ^ 32)) exSt) [] = some (0, [.call 8 0, .alloc 1 0], []) := by decide +kernel

/-- A two dimensional buffer. -/
def exBuf : Buf := ⟨some 4096, 1, [⟨0, 9, 1, Dim.unfolded⟩, ⟨0, 9, 10, Dim.unfolded⟩]⟩

/-- Crop dimension 0 to [0, 4], and dimension 1 to [0, the max of dimension 0]; then check that the max of dimension 1 is 9. -/
def exCrop (sym : Nat) : Stmt :=
  .constantBuffer 1 exBuf (.cropBuffer sym 1 [⟨.const 0, .const 4, false⟩, ⟨.const 0, .var 1 .max 0, false⟩] (.check (.bin .eq (.var sym .max 1) (.const 9))))

/-- **Counterexample**: the same `crop_buffer` with another name for the result gives another result, since in place the bounds of a dimension are
evaluated after the dimensions before it are cropped. -/
theorem crop_buffer_shadowed_differs : obs (exec exCfg (exCrop 5) exSt) [] = some (0, [.check true], []) ∧
    obs (exec exCfg (exCrop 1) exSt) [] = some (1, [.check false], []) := by decide +kernel

/-- **Counterexample**: in place, a `transpose` that keeps the order of the dimensions but names one that the buffer does not have is undefined behaviour (the
dimension is read beyond the array); with another name for the result, it is a broadcast dimension that is dropped. -/
theorem transpose_shadowed_undefined : obs (exec exCfg (.constantBuffer 1 exBuf (.transpose 5 1 [0, 1, 2] (.call 8 [] [] []))) exSt) [] = some (0, [.call 8 0], []) ∧
    obs (exec exCfg (.constantBuffer 1 exBuf (.transpose 1 1 [0, 1, 2] (.call 8 [] [] []))) exSt) [] = none := by decide +kernel

/-- `block::make` of nested blocks. -/
theorem exBlockMake : obs (exec exCfg (blockMake [.undef, .block (.cons (.call 8 [] [] []) (.cons (.call 7 [] [] []) .nil)), .call 9 [] [] [], .call 6 [] [] []]) exSt) [] =
    some (5, [.call 9 5, .call 7 0, .call 8 0], []) := by decide +kernel

end Slinky
