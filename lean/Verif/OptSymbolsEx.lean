import Verif.OptSymbolsProps
import Verif.DeshadowEx

/-!
# C42: `optimize_symbols`
-/

namespace Slinky

/-- **C42.** A statement means the same after `optimize_symbols`: where the statement has a meaning, the result and the requests to the world are the
same, whatever the schedules of the parallel loops and tasks are. Missing: statements that are not `Stmt.OptOK` (see the counterexamples). -/
theorem optimizeSymbols_sem_partial (w : World) (serial : Expr → Bool) {s : Stmt} {T : Nat → Prop} (ho : s.OptOK T fun _ => False) {ρ : SEnv}
    (hρ : ∀ y, T y → ρ y ≠ .undef) {l : List Ev} {p : Int × List Ev} (h : sem w false s ρ l = some p) :
    sem w false (optimizeSymbols serial s) ρ l = some p := (rsS_ok _ (fun _ h => h.elim) ho).sem w hρ h

/-- **C42.** The evaluator does the same for a statement and for what `optimize_symbols` makes of it: the same result, the same requests to the world in
the same order (up to the symbols in the events), and the buffer objects and the values of the symbols in scope after; so that the buffers of the
caller are not changed by the crops, slices and transposes that are made in place. -/
theorem optimizeSymbols_exec_partial (w : World) (g : Env) (serial : Expr → Bool) {s : Stmt} {T : Nat → Prop} (ho : s.OptOK T fun _ => False) (hw : s.WF)
    {st : St} {ρ : SEnv} (hR : StRel st ρ) (hρ : ∀ y, T y → ρ y ≠ .undef) {r : Int} {l' : List Ev} (h : sem w false s ρ st.alog = some (r, l')) :
    ∃ st1 st2, exec (cfgOf w g) s st = some (r, st1) ∧ exec (cfgOf w g) (optimizeSymbols serial s) st = some (r, st2) ∧
      st1.log.map Ev.anon = st2.log.map Ev.anon ∧ st1.objs = st2.objs ∧ ∀ x, ρ x ≠ .undef → st1.ctx x = st2.ctx x := by
  obtain ⟨st1, a1, a2, a3, a4⟩ := exec_sem w g hw hR h
  obtain ⟨st2, b1, b2, b3, b4⟩ := exec_sem w g ((rsS_ok (serial := serial) s.height (cm := fun _ => false) (fun _ h => h.elim) ho).wf hw) hR
    (optimizeSymbols_sem_partial w serial ho hρ h)
  exact ⟨st1, st2, a1, b1, by rw [a2, b2], by rw [a3, b3], fun x hx => by rw [a4 x hx, b4 x hx]⟩

/-- **C42.** No buffer is mutated in place that the task that mutates it has not declared itself: not the buffers of the caller, not a constant, and
not a buffer that is declared outside of the body of a loop that may run in parallel, or of an `async`. -/
theorem optimizeSymbols_in_place_partial {serial : Expr → Bool} (hser : ∀ wk, serial wk = true → wk.AlwaysSerial) {s : Stmt} {T : Nat → Prop}
    (ho : s.OptOK T fun _ => False) : (optimizeSymbols serial s).InPlaceOwned fun _ => False :=
  (rsS_ip hser s.height (fun _ h => h.elim) ho (Nat.le_refl _) (fun y h _ => by cases h)).own

/-- **C42.** Everything that may run in parallel is a closure of exactly its free symbols. -/
theorem optimizeSymbols_closures_partial {serial : Expr → Bool} (hser : ∀ wk, serial wk = true → wk.AlwaysSerial) {s : Stmt} {T : Nat → Prop}
    (ho : s.OptOK T fun _ => False) : (optimizeSymbols serial s).ParClosed :=
  rsS_parClosed hser s.height (fun _ h => h.elim) ho (Nat.le_refl _)

/-! ## Example -/

/-- `max_workers` is the constant 1: that is what `prove_true` proves for the loops that are made by `loop::serial`. -/
def serialConst (wk : Expr) : Bool := wk = .const 1

theorem serialConst_sound (wk : Expr) (h : serialConst wk = true) : wk.AlwaysSerial := by
  simp only [serialConst, decide_eq_true_eq] at h
  subst h
  intro w l ρ n hn
  simp [evalI, evalS, Val.int?] at hn
  omega

/-- The prover of the simplifier agrees. -/
theorem serialConst_proves : provesSerial (safeCfg fun _ _ => 0) 4 (.const 1) = true ∧ provesSerial (safeCfg fun _ _ => 0) 4 (.const 8) = false := by
  decide +kernel

/-- An allocation that is cropped and sliced in a serial loop and in a parallel loop. -/
def optEx : Stmt :=
  .allocate 1 .heap (.const 4) [⟨⟨.var 0 .min 0, .var 0 .max 0, false⟩, .undef, .undef⟩, ⟨⟨.const 0, .const 3, false⟩, .undef, .undef⟩]
    (.block (.cons (.cropDim 2 1 1 ⟨.const 1, .const 2, false⟩ (.sliceDim 3 2 0 (.const 1) (.call 7 [2] [3] [.const 1])))
      (.cons (.cropDim 4 1 1 ⟨.const 2, .undef, false⟩ (.sliceDim 5 4 0 (.const 1) (.call 8 [] [5] [.var 5 .min 0])))
        (.cons (.loop 6 (.const 8) ⟨.const 0, .const 1, false⟩ .undef
          (.cropBuffer 9 1 [⟨.v 6, .var 1 .max 0, false⟩] (.sliceDim 10 9 1 (.v 6) (.call 9 [0] [10] [.v 6])))) .nil))))

/-- In the first statement, symbol 2 cannot be reused for the slice; in the second, both are made in place. In the parallel loop, symbol 1 is not
cropped in place, but the crop (symbol 9) is sliced in place; the body is a closure of the symbols 0, 1 and 6. -/
theorem optEx_out : optimizeSymbols serialConst optEx =
  .allocate 1 .heap (.const 4) [⟨⟨.var 0 .min 0, .var 0 .max 0, false⟩, .undef, .undef⟩, ⟨⟨.const 0, .const 3, false⟩, .undef, .undef⟩]
    (.block (.cons (.cropDim 1 1 1 ⟨.const 1, .const 2, false⟩ (.sliceDim 3 1 0 (.const 1) (.call 7 [1] [3] [.const 1])))
      (.cons (.cropDim 1 1 1 ⟨.const 2, .undef, false⟩ (.sliceDim 1 1 0 (.const 1) (.call 8 [] [1] [.var 1 .min 0])))
        (.cons (.loop 6 (.const 8) ⟨.const 0, .const 1, false⟩ .undef
          (.lets (selfBinds [0, 1, 6])
            (.cropBuffer 9 1 [⟨.v 6, .var 1 .max 0, false⟩] (.sliceDim 9 9 1 (.v 6) (.call 9 [0] [9] [.v 6]))) true)) .nil)))) := by
  rfl

/-- The hypotheses are met. -/
theorem optEx_ok : optEx.OptOK (fun y => y = 0) (fun _ => False) ∧ optEx.WF ∧ (∀ y, y = 0 → dsEnv y ≠ .undef) ∧
    sem dsW false optEx dsEnv [] = some (0, [.free 0 77, .call 9 0, .call 9 0, .call 8 0, .call 7 0, .alloc 0 77]) := by
  refine ⟨?_, ?_, ?_, ?_⟩
  · simp [optEx, Stmt.OptOK, Stmts.OptOK, Expr.OptOK, Interval.OptOK, DimE.OptOK, Interval.maxEnd, Interval.isPoint, withSym, CropIndep, EndIndep,
      FreeIn, Expr.BufOK, Expr.v]
  · simp [optEx, Stmt.WF, Stmts.WF, Expr.WF, Interval.EndsWF, DimE.WF, Expr.v, InRange]
  · rintro y rfl; simp [dsEnv]
  · decide +kernel

/-- The theorems apply to the example. -/
theorem optEx_applies : (optimizeSymbols serialConst optEx).InPlaceOwned (fun _ => False) ∧ (optimizeSymbols serialConst optEx).ParClosed ∧
    sem dsW false (optimizeSymbols serialConst optEx) dsEnv [] = some (0, [.free 0 77, .call 9 0, .call 9 0, .call 8 0, .call 7 0, .alloc 0 77]) :=
  ⟨optimizeSymbols_in_place_partial serialConst_sound optEx_ok.1, optimizeSymbols_closures_partial serialConst_sound optEx_ok.1,
    optimizeSymbols_sem_partial dsW serialConst optEx_ok.1 optEx_ok.2.2.1 optEx_ok.2.2.2⟩

/-! ## What is not kept -/

/-- A crop whose second interval depends on the first dimension of the source. -/
def optCrop : Stmt :=
  .allocate 1 .heap (.const 4) [⟨⟨.const 0, .const 3, false⟩, .undef, .undef⟩, ⟨⟨.const 0, .const 3, false⟩, .undef, .undef⟩]
    (.cropBuffer 2 1 [⟨.const 2, .undef, false⟩, ⟨.bin .add (.var 1 .min 0) (.const 1), .undef, false⟩] (.sliceDim 3 2 0 (.const 2) (.call 7 [2] [3] [.const 0])))

/-- **A candidate bug**: the bounds of a `crop_buffer` that is made in place are evaluated when the dimensions before are already cropped. Here, the
bounds of dimension 1 are `[buffer_min(1, 0) + 1, ...]`: the min of the buffer that the call gets is 1 before, and 3 after `optimize_symbols`. -/
theorem optimizeSymbols_crop_counterexample :
    sem dsW false optCrop dsEnv [] = some (-1, [.free 0 77, .call 7 (-1), .alloc 0 77]) ∧
    sem dsW false (optimizeSymbols serialConst optCrop) dsEnv [] = none ∧
    (exec (cfgOf dsW fun _ => 0) optCrop dsSt).map Prod.fst = some (-1) ∧
    (exec (cfgOf dsW fun _ => 0) (optimizeSymbols serialConst optCrop) dsSt).map Prod.fst = some (-3) := by
  decide +kernel

/-- An `async` without a symbol in the body of a crop. -/
def optAsync : Stmt :=
  .allocate 1 .heap (.const 4) [⟨⟨.const 0, .const 3, false⟩, .undef, .undef⟩]
    (.cropDim 2 1 0 ⟨.const 1, .const 2, false⟩ (.async none (.check (.const 1)) (.call 7 [] [2] [.const 1])))

/-- **A candidate bug**: the body of an `async` without a symbol is not substituted (`substituteS_async_counterexample`), so that it uses the symbol of
the crop, which is no longer declared. -/
theorem optimizeSymbols_async_counterexample :
    sem dsW false optAsync dsEnv [] = some (0, [.free 0 77, .call 7 0, .check true, .alloc 0 77]) ∧
    sem dsW false (optimizeSymbols serialConst optAsync) dsEnv [] = none ∧ 2 ∉ findDependenciesS optAsync ∧ 2 ∈ findDependenciesS (optimizeSymbols serialConst optAsync) := by
  decide +kernel

/-- The number of workers of a loop in the body of a crop depends on the crop. -/
def optWorkers : Stmt :=
  .allocate 1 .heap (.const 4) [⟨⟨.const 0, .const 3, false⟩, .undef, .undef⟩]
    (.cropDim 2 1 0 ⟨.const 1, .const 2, false⟩ (.loop 3 (.var 2 .max 0) ⟨.const 0, .const 1, false⟩ .undef (.call 7 [] [2] [.const 1])))

/-- **A candidate bug**: the number of workers is not substituted (`substituteS_workers_counterexample`). -/
theorem optimizeSymbols_workers_counterexample :
    sem dsW false optWorkers dsEnv [] = some (0, [.free 0 77, .call 7 0, .call 7 0, .alloc 0 77]) ∧
    sem dsW false (optimizeSymbols serialConst optWorkers) dsEnv [] = none ∧
    2 ∉ findDependenciesS optWorkers ∧ 2 ∈ findDependenciesS (optimizeSymbols serialConst optWorkers) := by
  decide +kernel

/-- A parallel loop in which a declaration shadows a buffer of the caller. -/
def optShadow : Stmt :=
  .loop 1 (.const 8) ⟨.const 0, .const 1, false⟩ .undef
    (.block (.cons (.allocate 0 .heap (.const 4) [] (.call 7 [] [0] [.const 0]))
      (.cons (.cropDim 2 0 0 ⟨.v 1, .undef, false⟩ (.call 8 [] [2] [.v 1])) .nil)))

/-- `can_mutate` is not restored after a declaration. If a declaration shadows a buffer (`deshadow` must run before), the buffer is mutated in place
after the declaration: here, a buffer of the caller is cropped by several tasks at a time. -/
theorem optimizeSymbols_shadow_counterexample :
    optimizeSymbols serialConst optShadow = .loop 1 (.const 8) ⟨.const 0, .const 1, false⟩ .undef
      (.lets (selfBinds [0, 1]) (.block (.cons (.allocate 0 .heap (.const 4) [] (.call 7 [] [0] [.const 0]))
        (.cons (.cropDim 0 0 0 ⟨.v 1, .undef, false⟩ (.call 8 [] [0] [.v 1])) .nil))) true) ∧
    ¬ (optimizeSymbols serialConst optShadow).InPlaceOwned fun _ => False := by
  have e : optimizeSymbols serialConst optShadow = .loop 1 (.const 8) ⟨.const 0, .const 1, false⟩ .undef
      (.lets (selfBinds [0, 1]) (.block (.cons (.allocate 0 .heap (.const 4) [] (.call 7 [] [0] [.const 0]))
        (.cons (.cropDim 0 0 0 ⟨.v 1, .undef, false⟩ (.call 8 [] [0] [.v 1])) .nil))) true) := rfl
  refine ⟨e, ?_⟩
  rw [e]
  have hs : ¬ (Expr.const 8).AlwaysSerial := fun h => by
    have := h dsW [] dsEnv 8 rfl
    omega
  simp [Stmt.InPlaceOwned, Stmts.InPlaceOwned, hs]

end Slinky
