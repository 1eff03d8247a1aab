import Verif.InferBoundsThm
import Verif.DependsOn
import Verif.DependsSem

/-!
# The bounds of a buffer that is made bigger for an alias in a loop (`slinky/builder/optimizations.cc`, `copy_aliaser`) (C74)
-/

namespace Slinky.ALp

/-- optimizations.cc:642-658 `visit(const loop*)`: the bounds of a buffer after a loop over `x`. `n`: the fuel of the simplifier -/
def leaveLoop (cfg : SimpCfg) (n : Nat) (x : Nat) (bounds : Interval) (b : Interval) : Interval :=
  if anyDep (dependsOn b.min x) || anyDep (dependsOn b.max x) then boundsOfI cfg n b (fun y => if y = x then some bounds else none) else b

/-- Loops in loops, the innermost first -/
def leaveLoops (cfg : SimpCfg) (n : Nat) : List (Nat × Interval) → Interval → Interval
  | [], b => b
  | (x, i) :: r, b => leaveLoops cfg n r (leaveLoop cfg n x i b)

/-! ## Specification -/

/-- `π` is an iteration of the loops: all loop variables are within their bounds, and everything else is as in `ρ`. -/
structure Iteration (m : Mem) (loops : List (Nat × Interval)) (ρ π : Env) : Prop where
  within : ∀ l ∈ loops, eval m π l.2.min ≤ π l.1 ∧ π l.1 ≤ eval m π l.2.max
  others : ∀ y, (∀ l ∈ loops, l.1 ≠ y) → π y = ρ y

/-- The ends of the interval are values. -/
def Finite (i : Interval) : Prop := i.min.ok = true ∧ i.max.ok = true ∧ i.WF

/-- The bounds are finite after every loop. -/
def AllFinite (cfg : SimpCfg) (n : Nat) : List (Nat × Interval) → Interval → Prop
  | [], b => Finite b
  | (x, i) :: r, b => Finite b ∧ Finite i ∧ AllFinite cfg n r (leaveLoop cfg n x i b)

variable {m : Mem} {cfg : SimpCfg}

theorem leaveLoop_cov (hm : BufMem m) (hc : ∀ ρ, SimpCfgOK cfg m ρ) (n : Nat) {x : Nat} {i b : Interval} (hb : Finite b) (hi : Finite i) {π : Env}
    (h1 : eval m π i.min ≤ π x) (h2 : π x ≤ eval m π i.max) {v : Int} (hv : eval m π b.min ≤ v ∧ v ≤ eval m π b.max) :
    (leaveLoop cfg n x i b).Cov m π v := by
  unfold leaveLoop
  split
  · refine boundsOfI_cov hm hc n hb ⟨?_, fun _ _ h => by cases h⟩ hv.1 hv.2
    intro y j hj
    by_cases hy : y = x
    · simp only [hy, if_true, Option.some.injEq] at hj
      subst hj
      subst hy
      exact ⟨fun h => hi.2.2 h ▸ rfl, ⟨ok_ne_posInf hi.1, fun _ => h1⟩, ⟨ok_ne_negInf hi.2.1, fun _ => h2⟩⟩
    · simp [hy] at hj
  · exact ⟨fun _ => hv.1, fun _ => hv.2⟩

theorem leaveLoops_cov (hm : BufMem m) (hc : ∀ ρ, SimpCfgOK cfg m ρ) (n : Nat) {π : Env} {v : Int} : ∀ (loops : List (Nat × Interval)) (b : Interval),
    AllFinite cfg n loops b → (∀ l ∈ loops, eval m π l.2.min ≤ π l.1 ∧ π l.1 ≤ eval m π l.2.max) →
    eval m π b.min ≤ v ∧ v ≤ eval m π b.max →
    eval m π (leaveLoops cfg n loops b).min ≤ v ∧ v ≤ eval m π (leaveLoops cfg n loops b).max
  | [], _, _, _, hv => hv
  | (x, i) :: r, b, hf, hw, hv => by
    obtain ⟨hb, hi, hr⟩ := hf
    have h := hw (x, i) (List.mem_cons_self ..)
    have hcov := leaveLoop_cov hm hc n hb hi h.1 h.2 hv
    have hfin : Finite (leaveLoop cfg n x i b) := by
      cases r with
      | nil => exact hr
      | cons l r => exact hr.1
    exact leaveLoops_cov hm hc n r _ hr (fun l hl => hw l (List.mem_cons_of_mem _ hl)) ⟨hcov.1 hfin.1, hcov.2 hfin.2.1⟩

/-- Every element that a buffer needs in some iteration of the loops is within the bounds that it has after the loops, where it is allocated. -/
theorem grown_in_loops_partial (hm : BufMem m) (hc : ∀ ρ, SimpCfgOK cfg m ρ) (n : Nat) (loops : List (Nat × Interval)) (b : Interval)
    (hf : AllFinite cfg n loops b)
    (hfree : ∀ l ∈ loops, ¬ FreeIn l.1 (leaveLoops cfg n loops b).min ∧ ¬ FreeIn l.1 (leaveLoops cfg n loops b).max)
    (ρ π : Env) (hi : Iteration m loops ρ π) (v : Int) (hv : eval m π b.min ≤ v ∧ v ≤ eval m π b.max) :
    eval m ρ (leaveLoops cfg n loops b).min ≤ v ∧ v ≤ eval m ρ (leaveLoops cfg n loops b).max := by
  have h := leaveLoops_cov hm hc n loops b hf hi.within hv
  rw [← eval_congr_free m _ π ρ (fun y hy => hi.others y fun l hl e => (hfree l hl).1 (e ▸ hy)),
    ← eval_congr_free m _ π ρ (fun y hy => hi.others y fun l hl e => (hfree l hl).2 (e ▸ hy))]
  exact h

end Slinky.ALp
