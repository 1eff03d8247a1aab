import Verif.DeshadowProps

/-!
# Examples and counterexamples for `deshadow`
-/

namespace Slinky

/-- A world for the examples: the result of a call is how far the first scalar is from the min of dimension 0 of the first output. -/
def dsW : World where
  call _ _ os xs _ := (xs.head?.getD 0) - ((os.head?.map fun b => (b.dim 0).min).getD 0)
  host _ _ _ := 0
  allocate b _ := ({ b with base := some 4096 }, 77)
  allocate_rank _ _ := rfl
  stackAddr _ := 8192
  strideAlign := 1
  autoStack := 0
  pool := true
  sched _ n := (List.range n).reverse.map fun i => (i, i % 2)
  taskFirst _ := true
  taskLate _ := true
  taskHandle _ := 99

/-- A buffer of 4 x 3 elements. -/
def dsBuf : Buf := ⟨some 1024, 4, [⟨0, 3, 4, -1⟩, ⟨5, 7, 16, -1⟩]⟩

/-- Symbol 0 is the buffer. -/
def dsEnv : SEnv := fun x => if x = 0 then .buf dsBuf else .undef

/-- The state of the evaluator: the buffer is object 1. -/
def dsSt : St := ⟨fun x => if x = 0 then 1 else 0, fun a => if a = 1 then some (Obj.ofBuf dsBuf) else none, 2, []⟩

theorem dsSt_rel : StRel dsSt dsEnv := by
  refine ⟨?_, ?_, ?_⟩
  · intro a ha
    have : a ≠ 1 := by have : dsSt.next = 2 := rfl; omega
    simp [dsSt, this]
  · intro x
    unfold dsEnv dsSt
    by_cases h : x = 0
    · subst h
      refine ⟨1, Obj.ofBuf dsBuf, ?_⟩
      decide
    · simp [h, VRel]
  · intro x y b c hx hy _
    unfold dsEnv at hx hy
    by_cases h : x = 0
    · by_cases h' : y = 0
      · rw [h, h']
      · simp [h'] at hy
    · simp [h] at hx

/-- Everything shadows: a loop, a crop in place, a let of the symbol of the loop, another loop over the same symbol. -/
def dsStmt : Stmt :=
  .loop 1 (.const 1) ⟨.var 0 .min 0, .var 0 .max 0, false⟩ .undef
    (.cropDim 0 0 0 ⟨.v 1, .undef, false⟩
      (.block (.cons (.call 7 [] [0] [.v 1])
        (.cons (.lets (.cons 1 (.bin .add (.v 1) (.const 0)) .nil) (.lets (.cons 1 (.bin .add (.v 1) (.const 0)) .nil) (.call 8 [0] [0] [.v 1]) false) false)
          (.cons (.makeBuffer 0 (.call .bufferAt (.cons (.v 0) .nil)) (.const 4) [⟨⟨.v 1, .var 0 .max 0, false⟩, .const 4, .undef⟩]
            (.loop 1 (.const 3) ⟨.var 0 .min 0, .var 0 .min 0, false⟩ .undef (.call 9 [] [0] [.v 1]))) .nil)))))

/-- The hypotheses are met, and the meaning is what the world does with the values at each call. -/
theorem dsStmt_ok : dsStmt.DsOk 2 := by
  simp [dsStmt, Stmt.DsOk, Stmts.DsOk, Expr.DsOk, Exprs.DsOk, Binds.DsOk, Interval.DsOk, DimE.DsOk, Expr.v, plainIndices]
theorem dsStmt_wf : dsStmt.WF := by
  simp [dsStmt, Stmt.WF, Stmts.WF, Expr.WF, Exprs.WF, Binds.WF, Binds.syms, Interval.EndsWF, DimE.WF, Expr.v, InRange]
theorem dsStmt_sem : sem dsW false dsStmt dsEnv [] =
    some (0, [.call 9 0, .call 8 0, .call 7 0, .call 9 0, .call 8 0, .call 7 0, .call 9 0, .call 8 0, .call 7 0, .call 9 0, .call 8 0, .call 7 0]) := by
  decide +kernel

/-- The names that `deshadow` makes: 2 for the crop, 3 and 4 for the lets, 5 for the buffer that is made, 6 for the inner loop. -/
theorem dsStmt_deshadow : deshadow dsStmt [0] 2 =
    .loop 1 (.const 1) ⟨.var 0 .min 0, .var 0 .max 0, false⟩ .undef
      (.cropDim 2 0 0 ⟨.v 1, .undef, false⟩
        (.block (.cons (.call 7 [] [2] [.v 1])
          (.cons (.lets (.cons 3 (.bin .add (.v 1) (.const 0)) .nil) (.lets (.cons 4 (.bin .add (.v 3) (.const 0)) .nil) (.call 8 [2] [2] [.v 4]) false) false)
            (.cons (.makeBuffer 5 (.call .bufferAt (.cons (.v 2) .nil)) (.const 4) [⟨⟨.v 1, .var 2 .max 0, false⟩, .const 4, .undef⟩]
              (.loop 6 (.const 3) ⟨.var 5 .min 0, .var 5 .min 0, false⟩ .undef (.call 9 [] [5] [.v 6]))) .nil))))) := by
  rfl

/-- The theorems apply to the example. -/
theorem dsStmt_deshadow_ok : (deshadow dsStmt [0] 2).NoShadow (fun x => x ∈ [0]) ∧ sem dsW false (deshadow dsStmt [0] 2) dsEnv [] =
    sem dsW false dsStmt dsEnv [] ∧
    ∃ st1 st2, exec (cfgOf dsW fun _ => 0) dsStmt dsSt = some (0, st1) ∧ exec (cfgOf dsW fun _ => 0) (deshadow dsStmt [0] 2) dsSt = some (0, st2) ∧
      st1.log.map Ev.anon = st2.log.map Ev.anon := by
  have hρ : ∀ y, 2 ≤ y → dsEnv y = .undef := by
    intro y hy
    have : y ≠ 0 := by omega
    simp [dsEnv, this]
  refine ⟨deshadow_noShadow dsStmt_ok (by decide), ?_, ?_⟩
  · rw [dsStmt_sem]; exact deshadow_sem dsW [0] dsStmt_ok hρ dsStmt_sem
  · obtain ⟨st1, st2, h1, h2, h3, _⟩ := deshadow_exec dsW (fun _ => 0) (ext := [0]) dsStmt_ok (by decide) dsStmt_wf dsSt_rel hρ (st := dsSt) dsStmt_sem
    exact ⟨st1, st2, h1, h2, h3⟩

/-! ## What `deshadow` does not keep -/

/-- A crop in place, whose second interval depends on the bounds of the dimension that is cropped before. -/
def dsCrop : Stmt := .cropBuffer 0 0 [⟨.const 2, .undef, false⟩, ⟨.var 0 .min 0, .undef, false⟩] (.sliceDim 0 0 0 (.const 2) (.call 7 [] [0] [.const 0]))

/-- **A candidate bug**: the evaluator evaluates the bounds of a `crop_buffer` in place (`x = src`) when the dimensions before are already
cropped. `deshadow` makes it a crop that is not in place, whose bounds are all evaluated before. The two are not the same: here, the result of
the program changes. The statement meets the conditions of `deshadow_exec`, but it has no meaning in the specification. -/
theorem deshadow_crop_in_place_counterexample : dsCrop.DsOk 2 ∧ dsCrop.WF ∧ sem dsW false dsCrop (dsEnv.set 0 (.buf ⟨some 1024, 4, [⟨0, 3, 4, -1⟩, ⟨1, 7, 16, -1⟩]⟩)) [] = none ∧
    (let st : St := ⟨fun x => if x = 0 then 1 else 0, fun a => if a = 1 then some (Obj.ofBuf ⟨some 1024, 4, [⟨0, 3, 4, -1⟩, ⟨1, 7, 16, -1⟩]⟩) else none, 2, []⟩
     (exec (cfgOf dsW fun _ => 0) dsCrop st).map Prod.fst = some (-2) ∧ (exec (cfgOf dsW fun _ => 0) (deshadow dsCrop [0] 2) st).map Prod.fst = some (-1)) := by
  refine ⟨?_, ?_, ?_⟩
  · simp [dsCrop, Stmt.DsOk, Expr.DsOk, Interval.DsOk]
  · simp [dsCrop, Stmt.WF, Expr.WF, Interval.EndsWF, InRange]
  · decide +kernel

/-- `buffer_at(b, buffer_min(b, 0))`, with a let so that `deshadow` does not leave it as it is. -/
def dsAt : Stmt := .check (.lets (.cons 0 (.const 0) .nil) (.call .bufferAt (.cons (.v 1) (.cons (.var 1 .min 0) .nil))))

/-- The index of a `buffer_at` that is the min of the same buffer is dropped. This changes the address if the buffer is folded, or if it is empty
in the dimension: here, `buffer_at` is not null after, but null before, because the dimension is empty. -/
theorem deshadow_buffer_at_counterexample : dsAt.WF ∧ ¬ dsAt.DsOk 2 ∧
    (let st : St := ⟨fun x => if x = 1 then 1 else 0, fun a => if a = 1 then some (Obj.ofBuf ⟨some 1024, 4, [⟨0, -1, 4, -1⟩]⟩) else none, 2, []⟩
     (exec (cfgOf dsW fun _ => 0) dsAt st).map Prod.fst = some 1 ∧ (exec (cfgOf dsW fun _ => 0) (deshadow dsAt [0] 2) st).map Prod.fst = some 0) := by
  refine ⟨?_, ?_, ?_⟩
  · simp [dsAt, Stmt.WF, Expr.WF, Exprs.WF, Binds.WF, Binds.syms, InRange, Expr.v]
  · simp [dsAt, Stmt.DsOk, Expr.DsOk, Exprs.DsOk, Binds.DsOk, Expr.v, plainIndices]
  · decide +kernel

end Slinky
