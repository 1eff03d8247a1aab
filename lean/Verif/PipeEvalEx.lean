import Verif.PipeEvalThm
import Verif.DeshadowEx

/-!
# C63: a pipeline sees what is passed to it, and nothing else. Examples
-/

namespace Slinky.PE

open Slinky

/-- Two buffers (at 3 and at 4), of 10 and 8 elements. The context has garbage everywhere. -/
def exSt : St := ⟨fun _ => 4, fun a => if a = 3 then some (.ofBuf ⟨some 1000, 4, [⟨0, 9, 4, -1⟩]⟩) else if a = 4 then some (.ofBuf ⟨some 5000, 4, [⟨0, 7, 4, -1⟩]⟩) else none, 5, []⟩

theorem exSt_fresh : exSt.Fresh := by
  intro a ha
  have ha : 5 ≤ a := ha
  simp only [exSt]
  rw [if_neg (by omega), if_neg (by omega)]

/-- `crop_dim(out, 0, [n, n + 1]) { check(buffer_min(out, 0) == n); call(in, out) }`, with the argument `n` = `x0`, the input `x1` and the output `x2`. -/
def exP : Pipe := ⟨[0], [1], [2], .cropDim 2 2 0 ⟨.v 0, .bin .add (.v 0) (.const 1), false⟩
  (.block (.cons (.check (.bin .eq (.var 2 .min 0) (.v 0))) (.cons (.call 8 [1] [2] [.v 0]) .nil)))⟩
/-- The first run, with `n = 5`. -/
def exQ : Req := ⟨[5], [3], [4]⟩
/-- The second run: `n = 2`, and the buffers are exchanged. -/
def exQ' : Req := ⟨[2], [4], [3]⟩

theorem exP_wf : exP.body.WF := by simp [exP, Stmt.WF, Stmts.WF, Expr.WF, Interval.EndsWF, Expr.v, InRange]
theorem exQ_ok : exQ.Ok exSt.objs ∧ exQ'.Ok exSt.objs := by
  have h : ∀ a, a = 3 ∨ a = 4 → ∃ o, exSt.objs a = some o ∧ o.rank = o.buf.dims.length := by
    rintro a (rfl | rfl)
    · exact ⟨_, rfl, rfl⟩
    · exact ⟨_, rfl, rfl⟩
  refine ⟨⟨fun a ha => h a (by simpa [exQ] using ha), by decide⟩, ⟨fun a ha => h a ?_, by decide⟩⟩
  rw [or_comm]
  simpa [exQ'] using ha

theorem ex_sem : sessionSem dsW exSt.objs [(exP, exQ), (exP, exQ'), (exP, exQ)] exSt.alog =
    some ([0, 0, 0], [.call 8 0, .check true, .call 8 0, .check true, .call 8 0, .check true]) := by rfl

/-- The hypotheses of `session_sem_partial` hold. -/
example (g : Env) : ∃ st', session (cfgOf dsW g) [(exP, exQ), (exP, exQ'), (exP, exQ)] exSt = some ([0, 0, 0], st') ∧
    st'.alog = [.call 8 0, .check true, .call 8 0, .check true, .call 8 0, .check true] ∧ st'.objs = exSt.objs :=
  session_sem_partial _ exSt _ _ exSt_fresh (by
    intro p hp
    simp only [List.mem_cons, List.not_mem_nil, or_false] at hp
    rcases hp with rfl | rfl | rfl
    · exact ⟨exP_wf, exQ_ok.1⟩
    · exact ⟨exP_wf, exQ_ok.2⟩
    · exact ⟨exP_wf, exQ_ok.1⟩) ex_sem

/-- The hypotheses of `again_sem_partial` hold after a setup. -/
example (g : Env) : ∃ st', again (cfgOf dsW g) exP 2 (exP.setup exQ exSt) = some ([0, 0], st') ∧
    st'.alog = [.call 8 0, .check true, .call 8 0, .check true] ∧ st'.objs = exSt.objs :=
  again_sem_partial exP_wf (q := exQ) 2 _ _ _ (setup_env exSt_fresh exQ_ok.1) (by rfl)

/-! ## One object as an input and an output -/

/-- `crop_dim(out, 0, [n, n + 1]) { check(buffer_min(in, 0) == 0) }` -/
def alP : Pipe := ⟨[0], [1], [2], .cropDim 2 2 0 ⟨.v 0, .bin .add (.v 0) (.const 1), false⟩ (.check (.bin .eq (.var 1 .min 0) (.const 0)))⟩

/-- If one buffer object is passed as the input and as the output, a crop of the output crops the input: the check fails. With a copy of the object, that
describes the same memory, the check passes. -/
theorem same_object_counterexample :
    let st := exSt.setObj 4 (exSt.objs 3)
    (alP.evaluate (cfgOf dsW fun _ => 0) ⟨[5], [3], [3]⟩ st).map (fun r => (r.1, r.2.log)) = some (1, [.check false]) ∧
    (alP.evaluate (cfgOf dsW fun _ => 0) ⟨[5], [3], [4]⟩ st).map (fun r => (r.1, r.2.log)) = some (0, [.check true]) ∧
    sem dsW false alP.body (alP.env ⟨[5], [3], [3]⟩ st.objs) [] = some (0, [.check true]) := by
  refine ⟨by decide +kernel, by decide +kernel, by rfl⟩

end Slinky.PE
