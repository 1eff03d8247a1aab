import Verif.AliasLoop
import Verif.SlideFoldEx

/-!
# Examples of C74
-/

namespace Slinky.ALp

/-- An alias of 4 elements from `x + 10 y` on, in a loop over `x` in a loop over `y` -/
def exB : Interval := ⟨.bin .add (.v 0) (.bin .mul (.v 1) (.const 10)), .bin .add (.bin .add (.v 0) (.bin .mul (.v 1) (.const 10))) (.const 3), false⟩

/-- `x` is between 0 and 9, `y` is between 2 and the variable 5. -/
def exLoops : List (Nat × Interval) := [(0, ⟨.const 0, .const 9, false⟩), (1, ⟨.const 2, .v 5, false⟩)]

/-- After the loop over `x`; after both loops -/
theorem ex_bounds : leaveLoops (safeCfg noHost) 12 exLoops exB = ⟨.const 20, .bin .add (.bin .mul (.v 5) (.const 10)) (.const 12), false⟩ := by
  decide +kernel

theorem ex_outer : leaveLoop (safeCfg noHost) 12 7 ⟨.const 0, .const 9, false⟩ exB = exB := by decide +kernel

theorem ex_finite : AllFinite (safeCfg noHost) 12 exLoops exB := by
  refine ⟨⟨by decide, by decide, fun h => by cases h⟩, ⟨by decide, by decide, fun h => by cases h⟩,
    ⟨by decide +kernel, by decide +kernel, fun h => ?_⟩, ⟨by decide, by decide, fun h => by cases h⟩, ?_⟩
  · revert h
    decide +kernel
  · show Finite (leaveLoops (safeCfg noHost) 12 exLoops exB)
    rw [ex_bounds]
    exact ⟨by decide, by decide, fun h => by cases h⟩

/-- With 6 for the variable 5, all elements of all iterations are between 20 and 72. -/
theorem ex_covered (x y v : Int) (hx : 0 ≤ x ∧ x ≤ 9) (hy : 2 ≤ y ∧ y ≤ 6) (hv : x + y * 10 ≤ v ∧ v ≤ x + y * 10 + 3) : 20 ≤ v ∧ v ≤ 72 := by
  have h := grown_in_loops_partial (cfg := safeCfg noHost) memNoHost_ok (fun ρ => safeCfg_ok memNoHost ρ memNoHost_ok.toBufferAtMin) 12 exLoops exB
    ex_finite (by
      rw [ex_bounds]
      intro l hl
      simp only [exLoops, List.mem_cons, List.not_mem_nil, or_false] at hl
      rcases hl with rfl | rfl <;> simp [FreeIn, Expr.v]) (fun z => if z = 5 then 6 else 0) (fun z => if z = 0 then x else if z = 1 then y else if z = 5 then 6 else 0)
    ⟨by
      intro l hl
      simp only [exLoops, List.mem_cons, List.not_mem_nil, or_false] at hl
      rcases hl with rfl | rfl
      · simpa [eval] using hx
      · simpa [eval, Expr.v] using hy,
     by
      intro z hz
      have h0 := hz (0, ⟨.const 0, .const 9, false⟩) (by simp [exLoops])
      have h1 := hz (1, ⟨.const 2, .v 5, false⟩) (by simp [exLoops])
      simp only [ne_eq] at h0 h1
      simp [Ne.symm h0, Ne.symm h1]⟩ v (by simpa [exB, eval, Expr.v, BinOp.denote] using hv)
  rw [ex_bounds] at h
  simpa [eval, Expr.v, BinOp.denote] using h

end Slinky.ALp
