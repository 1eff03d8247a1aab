import Verif.LayoutSpec

/-! # C49: an example, and what happens if the user asks for the wrong loop -/

namespace Slinky

namespace APipe

/-- Func 0 (loops over 11 and, inside it, 10) uses the buffers 1 and 2; 1 is a copy of 3; 2 is computed in a loop over 20 from 3, 4 and the constant 50; 3 is computed in a loop over
30 from an input, and stored in the loop over 11; 4 is computed in the loop over 11. 2 is stored at the root, or (if `bad`) in the loop that computes it. -/
def layEx (bad : Bool) : APipe where
  inputs := fun f => match f with | 0 => [1, 2] | 1 => [3] | 2 => [3, 4, 50] | 3 => [60] | _ => []
  outputs := fun f => [f]
  prodOf := fun b => if b < 5 then some b else none
  isOut := fun b => b = 0
  const := fun b => b = 50
  storeAt := fun b => match b with | 2 => if bad then some (.at (some (2, 20))) else none | 3 => some (.at (some (0, 11))) | _ => some .innermost
  isCopy := fun f => f = 1
  isPadded := fun _ => false
  loops := fun f => match f with | 0 => [10, 11] | 2 => [20] | 3 => [30] | _ => []
  computeAt := fun f => if f = 4 then some (some (0, 11)) else none
  outs := [0]

/-- The declarations, with the calls in their scopes. -/
theorem layEx_decls : (buildPipeline (layEx false) 20).map (fun ms => (declsL [] ms).map fun x => (x.q, x.k, x.b, x.cs)) =
    some [([], true, 50, [4, 3, 1, 2, 0]), ([], false, 2, [4, 3, 1, 2, 0]), ([(0, 11)], false, 3, [4, 3, 1, 2, 0]), ([(0, 11)], false, 4, [4, 3, 1, 2, 0]),
      ([(0, 11), (0, 10)], false, 1, [1, 2, 0])] := by
  decide +kernel

theorem layEx_order : (SPipe.schedule (layEx false).toS 20).map (fun r => (r.1, SPipe.callsL [] r.2.2)) =
    some ([0, 2, 4, 1, 3], [([(0, 11)], 4), ([(0, 11), (0, 10), (3, 30)], 3), ([(0, 11), (0, 10)], 1), ([(0, 11), (0, 10), (2, 20)], 2), ([(0, 11), (0, 10)], 0)]) := by
  decide +kernel

theorem layEx_wf : WF (layEx false) [0, 2, 4, 1, 3] := by
  refine ⟨by decide, ?_, ?_, ?_⟩
  · intro f hf b hb
    simp only [layEx, List.mem_singleton] at hb ⊢
    subst hb
    simp only [List.mem_cons, List.not_mem_nil, or_false] at hf
    rw [if_pos (by omega)]
  · intro b hb
    simp only [layEx, decide_eq_true_eq] at hb
    subst hb
    rfl
  · intro f _
    simp [layEx]

/-- The hypotheses of `buildPipeline_spec` hold for it. -/
theorem layEx_spec : ∃ order L b ms, buildPipeline (layEx false) 20 = some ms ∧ stripL ms = b ∧ SPipe.NestOK (layEx false).toS order L b ∧ LayoutOK (layEx false) order L ms := by
  have h := layEx_order
  cases hs : SPipe.schedule (layEx false).toS 20 with
  | none => rw [hs] at h; cases h
  | some r =>
    obtain ⟨order, s, b⟩ := r
    rw [hs] at h
    simp only [Option.map_some, Option.some.injEq, Prod.mk.injEq] at h
    obtain ⟨rfl, hcalls⟩ := h
    obtain ⟨L, h1, h2, h3⟩ := buildPipeline_spec hs (by
      intro f _
      unfold layEx
      dsimp only
      split <;> simp) layEx_wf (by simp)
    -- where func 3 is computed
    have hL : L 3 = [(0, 11), (0, 10)] := by
      have := h2.loops ([(0, 11), (0, 10), (3, 30)], 3) (by rw [hcalls]; simp)
      simp only [SPipe.around, toS, layEx, List.reverse_singleton, List.map_cons, List.map_nil] at this
      exact (List.append_left_inj [(3, 30)]).1 (show L 3 ++ [(3, 30)] = [(0, 11), (0, 10)] ++ [(3, 30)] from this.symm)
    obtain ⟨ms, m1, m2, m3⟩ := h3 (by
      intro f hf b' hb' _ l hl
      simp only [layEx, List.mem_singleton] at hb' hl
      subst hb'
      split at hl
      · cases hl
      · simp only [Option.some.injEq, Store.at.injEq] at hl
        subst hl
        exact ⟨[(0, 11)], by rw [hL]; exact ⟨[(0, 10)], rfl⟩, rfl⟩
      · cases hl)
    exact ⟨_, L, b, ms, m1, m2, h2, m3⟩

/-- If the user asks for a loop that is not around the consumers, this is not an error: the buffer is allocated in this loop, and the consumer is not in the scope. -/
theorem layEx_bad : (buildPipeline (layEx true) 20).map (fun ms => ((declsL [] ms).filter fun x => x.b = 2).map fun x => (x.q, x.k, x.b, x.cs)) =
    some [([(0, 11), (0, 10), (2, 20)], false, 2, [2])] ∧ 2 ∈ (layEx true).inputs 0 := by
  decide +kernel

end APipe

end Slinky
