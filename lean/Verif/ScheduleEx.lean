import Verif.ScheduleNest

/-! # C48: an example -/

namespace Slinky

namespace SPipe

/-- Func 0 (loops over 11 and, inside it, 10) uses 1 and 2; 1 has no loops and uses 3; 2 has a loop over 20 and uses 3 and 4; 3 has a loop over 30 and 4 is computed in the
loop over 11, as the user said. -/
def schedEx (explicit : Bool) : SPipe where
  prods := fun f => match f with | 0 => [1, 2] | 1 => [3] | 2 => [3, 4] | _ => []
  loops := fun f => match f with | 0 => [10, 11] | 2 => [20] | 3 => [30] | _ => []
  computeAt := fun f => if explicit ∧ f = 4 then some (some (0, 11)) else none
  outs := [0]

/-- The schedule: 4 in the loop over 11, 3 in the loops that are around 1 and 2. -/
theorem schedEx_schedule : (schedule (schedEx true) 20).map (fun r => (r.1, callsL [] r.2.2)) =
    some ([0, 2, 4, 1, 3], [([(0, 11)], 4), ([(0, 11), (0, 10), (3, 30)], 3), ([(0, 11), (0, 10)], 1), ([(0, 11), (0, 10), (2, 20)], 2), ([(0, 11), (0, 10)], 0)]) := by
  decide +kernel

/-- When it runs, with one iteration of the outer loop and two of every other loop. -/
theorem schedEx_exec : (schedule (schedEx true) 20).map (fun r => execL (fun l _ => if l.2 = 11 then 1 else 2) [] r.2.2) =
    some [(4, [0]), (3, [0, 0, 0]), (3, [0, 0, 1]), (1, [0, 0]), (2, [0, 0, 0]), (2, [0, 0, 1]), (0, [0, 0]),
      (3, [0, 1, 0]), (3, [0, 1, 1]), (1, [0, 1]), (2, [0, 1, 0]), (2, [0, 1, 1]), (0, [0, 1])] := by
  decide +kernel

theorem schedEx_loops (b : Bool) : ∀ f, Needed (schedEx b) f → ((schedEx b).loops f).Nodup := by
  intro f _
  unfold schedEx
  dsimp only
  split <;> simp

/-- The hypotheses of `schedule_spec` hold for it. -/
theorem schedEx_spec : ∃ order s b, schedule (schedEx true) 20 = some (order, s, b) ∧ OrderOK (schedEx true) order ∧ ∃ L, ScheduleOK (schedEx true) order L ∧
    NestOK (schedEx true) order L b := by
  have h := schedEx_schedule
  cases hs : schedule (schedEx true) 20 with
  | none => rw [hs] at h; cases h
  | some r =>
    obtain ⟨order, s, b⟩ := r
    obtain ⟨ho, L, hL, -, -, hN⟩ := schedule_spec hs (schedEx_loops true)
    exact ⟨order, s, b, rfl, ho, L, hL, hN⟩

/-- And those of `schedule_total`, without the explicit location. -/
theorem schedEx_total : ∃ N, ∀ n, N ≤ n → ∃ r, schedule (schedEx false) n = some r := by
  refine schedule_total ⟨fun f => match f with | 0 => 3 | 1 => 2 | 2 => 2 | _ => 0, ?_⟩ (schedEx_loops false) fun f _ => by simp [schedEx]
  intro f _ p hp
  match f with
  | 0 => simp [schedEx] at hp; rcases hp with rfl | rfl <;> simp
  | 1 => simp [schedEx] at hp; subst hp; simp
  | 2 => simp [schedEx] at hp; rcases hp with rfl | rfl <;> simp
  | f + 3 => simp [schedEx] at hp

/-- A cycle is found. -/
theorem schedEx_cycle : topoSort ⟨fun f => if f = 0 then [1] else [0], fun _ => [], fun _ => none, [0]⟩ 50 = none := rfl

/-- An explicit location that is not around the consumers is refused. -/
theorem schedEx_bad : (schedule ⟨fun f => match f with | 0 => [1, 2] | 1 => [2] | _ => [], fun f => if f = 1 then [7] else [], fun f => if f = 2 then some (some (1, 7)) else none, [0]⟩ 20).isNone = true := by
  decide +kernel

end SPipe

end Slinky
