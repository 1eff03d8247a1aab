import Verif.SimpDimsThm
import Verif.ViewsEx

/-!
# C65: the metadata of buffers. Examples and counterexamples
-/

namespace Slinky.SD

open Slinky VW

deriving instance DecidableEq for DimE

/-- What is true in the example is proved. -/
def exProve (e : Expr) : Bool := decide (evalI dsW [] exEnv e = some 1)
/-- Broadcasts that are constants. -/
def exBc (D : DimE) : Bool := decide (D.bounds.min = .const 0 ∧ D.bounds.max = .const 0 ∧ D.stride = .const 0 ∧ D.bounds.same = false)

theorem ex_sound : Sound dsW [] exEnv exProve := sound_eval

theorem ex_bcast : SoundBcast dsW [] exEnv exBc := by
  intro D d h hd
  simp only [exBc, decide_eq_true_eq] at h
  obtain ⟨h1, h2, h3, h4⟩ := h
  have hb := hd.bounds
  have hs := hd.stride
  obtain ⟨⟨mn, mx, sm⟩, st, fo⟩ := D
  simp only at h1 h2 h3 h4
  subst h1 h2 h3 h4
  simp [evalIvS, Interval.isPoint, evalI, evalS, Val.int?] at hb hs
  simp [Dim.isBroadcast, ← hb.1, ← hb.2, ← hs]

/-- A dimension `(4, 6)` with a fold factor of 4, a dimension that is not folded, and a broadcast. -/
def exDs : List DimE := [⟨.bounds (.const 4) (.const 6), .const 4, .const 4⟩, ⟨.bounds (.const 3) (.const 9), .const 16, .const (-1)⟩, ⟨.bounds (.const 0) (.const 0), .const 0, .undef⟩]
/-- What they are. -/
def exK : List Dim := [⟨4, 6, 4, 4⟩, ⟨3, 9, 16, -1⟩, ⟨0, 0, 0, -1⟩]

theorem ex_drops : mutateDims exProve exBc exDs = [⟨.bounds (.const 4) (.const 6), .const 4, .undef⟩, ⟨.bounds (.const 3) (.const 9), .const 16, .undef⟩] := by
  decide +kernel

theorem ex_wf : ∀ D ∈ exDs, D.bounds.WF ∧ D.stride ≠ .const Dim.autoStride := by
  intro D hD
  simp only [exDs, List.mem_cons, List.not_mem_nil, or_false] at hD
  rcases hD with rfl | rfl | rfl <;> exact ⟨fun h => (by cases h), by decide⟩

theorem ex_good : ∀ d ∈ exK, GoodDim d := by
  intro d hd
  simp only [exK, List.mem_cons, List.not_mem_nil, or_false] at hd
  rcases hd with rfl | rfl | rfl <;> exact ⟨by decide, by decide, by decide, by decide, by decide⟩

/-- The hypotheses of `mutateDims_buffer_partial` hold for dimensions that change, and elements keep their addresses. -/
example : ∃ K', evalDimsS dsW [] exEnv none (mutateDims exProve exBc exDs) = some K' ∧ Buf.offset (K'.take (trimRank K')) [6, 5] = Buf.offset exK [6, 5, 0] := by
  obtain ⟨K', h1, _, _, h2⟩ := mutateDims_buffer_partial ex_sound ex_bcast (K := exK) ex_wf ex_good (by decide +kernel)
  exact ⟨K', h1, (h2 (by decide) [6, 5] (.cons (by decide) (.cons (by decide) .nil))).trans (by decide)⟩

/-! ## The source -/

/-- What is known of `x0` (`exB`): its dimensions; of dimension 1 the fold factor is known. -/
def exSrc : List DimE := [⟨.bounds (.const 10) (.const 20), .const 4, .undef⟩, ⟨.bounds (.const 0) (.undef), .const 44, .const (-1)⟩]

theorem ex_known : KnownDims dsW [] exEnv exSrc exB where
  dim := by
    intro k S hS
    match k with
    | 0 => simp only [exSrc, List.getElem?_cons_zero, Option.some.injEq] at hS; subst hS; exact ⟨fun _ => (by decide +kernel), fun _ => (by decide +kernel), fun _ => (by decide +kernel), fun h => (by cases h)⟩
    | 1 => simp only [exSrc, List.getElem?_cons_succ, List.getElem?_cons_zero, Option.some.injEq] at hS; subst hS; exact ⟨fun _ => (by decide +kernel), fun h => (by cases h), fun _ => (by decide +kernel), fun _ => (by decide +kernel)⟩
    | k + 2 => simp [exSrc] at hS
  fold := by
    intro k S hS h
    match k with
    | 0 => decide +kernel
    | 1 => simp only [exSrc, List.getElem?_cons_succ, List.getElem?_cons_zero, Option.some.injEq] at hS; subst hS; cases h
    | k + 2 => simp [exSrc] at hS

/-- The dimensions of `x0`, as numbers, swapped, and a dimension that `x0` does not have. -/
def exNs : List DimE := [⟨.bounds (.const 0) (.const 9), .const 44, .undef⟩, ⟨.bounds (.const 10) (.const 20), .const 4, .undef⟩, ⟨.bounds (.const 0) (.const 3), .const 444, .undef⟩]

theorem ex_canon : canonDims exProve 0 exSrc 0 exNs = [bufferDim 0 1, bufferDim 0 0, ⟨.bounds (.const 0) (.const 3), .const 444, .undef⟩] := by decide +kernel
example : canonElem exProve 0 (.const 4) (.const 4) = .var 0 .elemSize (-1) := by decide +kernel

/-- The hypotheses of `canonicalize_sem_partial` hold. -/
example (base : Expr) (body : Stmt) : sem dsW false (.makeBuffer 3 base (.var 0 .elemSize (-1)) [bufferDim 0 1, bufferDim 0 0, ⟨.bounds (.const 0) (.const 3), .const 444, .undef⟩] body) exEnv [] =
    sem dsW false (.makeBuffer 3 base (.const 4) exNs body) exEnv [] := by
  rw [← ex_canon, show (Expr.var 0 .elemSize (-1)) = canonElem exProve 0 (.const 4) (.const 4) by decide +kernel]
  refine canonicalize_sem_partial ex_sound (b := exB) (e := 4) (K := [⟨0, 9, 44, -1⟩, ⟨10, 20, 4, -1⟩, ⟨0, 3, 444, -1⟩]) (by decide +kernel) ex_known (fun _ => (by decide +kernel)) ?_ (by decide +kernel) (by decide +kernel) false
  intro D hD
  simp only [exNs, List.mem_cons, List.not_mem_nil, or_false] at hD
  rcases hD with rfl | rfl | rfl <;> (intro h; cases h)

/-! ## Counterexamples -/

/-- The fold factor of a dimension `(5, 6)`, `make_buffer(x3, 1000, 4, [(5, 6), stride 4, fold 4])`. -/
def cxD : DimE := ⟨.bounds (.const 5) (.const 6), .const 4, .const 4⟩

/-- C65 cannot be proved of the code: the fold factor is dropped from a `make_buffer` whose first element is not a multiple of it, and element 5, which was at
offset 4, is at offset 0. -/
theorem fold_counterexample : mutateDims exProve exBc [cxD] = [⟨.bounds (.const 5) (.const 6), .const 4, .undef⟩] ∧
    evalDimsS dsW [] exEnv none [cxD] = some [⟨5, 6, 4, 4⟩] ∧ Buf.offset [⟨5, 6, 4, 4⟩] [5] = 4 ∧
    evalDimsS dsW [] exEnv none (mutateDims exProve exBc [cxD]) = some [⟨5, 6, 4, -1⟩] ∧ Buf.offset [⟨5, 6, 4, -1⟩] [5] = 0 := by decide +kernel

/-- C65 cannot be proved of the code: the stride of a `make_buffer` that is the constant `auto_stride` is left out, and the evaluator needs it. -/
theorem stride_counterexample : mutateDims exProve exBc [⟨.bounds (.const 5) (.const 5), .const Dim.autoStride, .undef⟩] = [⟨.bounds (.const 5) (.const 5), .undef, .undef⟩] ∧
    (sem dsW false (.makeBuffer 3 (.const 1000) (.const 4) [⟨.bounds (.const 5) (.const 5), .const Dim.autoStride, .undef⟩] (.check (.const 1))) exEnv []).isSome = true ∧
    sem dsW false (.makeBuffer 3 (.const 1000) (.const 4) [⟨.bounds (.const 5) (.const 5), .undef, .undef⟩] (.check (.const 1))) exEnv [] = none := by decide +kernel

/-- A folded source, of which a `check` told the bounds and the stride. -/
def cxB : Buf := ⟨some 1000, 4, [⟨0, 9, 4, 3⟩]⟩
def cxEnv : SEnv := SEnv.set exEnv 0 (.buf cxB)
def cxSrc : List DimE := [⟨.bounds (.var 0 .min 0) (.var 0 .max 0), .const 4, .undef⟩]
def cxN : DimE := ⟨.bounds (.var 0 .min 0) (.var 0 .max 0), .const 4, .undef⟩

/-- C65 cannot be proved of the code: a fold factor that is not known is taken to be that of a dimension that has none. What is known of the source is true, but the
buffer that was not folded is, and element 5, which was at offset 20, is at offset 8. -/
theorem unknown_counterexample : KnownDim dsW [] cxEnv (cxSrc.headD cxN) (cxB.dim 0) ∧
    canonDims (fun e => decide (evalI dsW [] cxEnv e = some 1)) 0 cxSrc 0 [cxN] = [bufferDim 0 0] ∧
    evalDimsS dsW [] cxEnv none [cxN] = some [⟨0, 9, 4, -1⟩] ∧ Buf.offset [⟨0, 9, 4, -1⟩] [5] = 20 ∧
    evalDimsS dsW [] cxEnv none [bufferDim 0 0] = some [⟨0, 9, 4, 3⟩] ∧ Buf.offset [⟨0, 9, 4, 3⟩] [5] = 8 :=
  ⟨⟨fun _ => (by decide +kernel), fun _ => (by decide +kernel), fun _ => (by decide +kernel), fun h => (by cases h)⟩, by decide +kernel, by decide +kernel, by decide, by decide +kernel, by decide⟩

end Slinky.SD
