import Verif.MakeViewCrop
import Verif.ViewsEx

/-!
# C60: `make_buffer` that is a view. Examples and counterexamples
-/

namespace Slinky.MV

open Slinky VW

/-- A dimension that is dimension `k` of `x0`. -/
def dimOf (k : Int) : DimE := ⟨.bounds (.var 0 .min k) (.var 0 .max k), .var 0 .stride k, .var 0 .foldFactor k⟩
/-- A check of the rank of `x3`. -/
def rankIs (r : Int) : Stmt := .check (.bin .eq (.var 3 .rank (-1)) (.const r))
/-- No dimension is known to be a broadcast. -/
def noB : DimE → Bool := fun _ => false

/-! ## A slice: `make_buffer(x3, buffer_at(x0, 12), [dimension 1 of x0])` -/

/-- The argument. -/
def exAs : List Expr := [.const 12]
/-- The dimensions. -/
def exDs : List DimE := [dimOf 1]
/-- The slice. -/
def exSl : Buf := ⟨some 1008, 4, [⟨0, 9, 44, -1⟩]⟩

theorem ex_at : At dsW [] exEnv 0 exAs exB (some 1008) := ⟨rfl, [some 12], .cons (by unfold IsIndex; decide +kernel) .nil, by decide +kernel⟩

theorem dimOf_wf (k : Int) : (dimOf k).bounds.WF := fun h => by cases h

theorem ex_makes : Makes dsW [] exEnv (some 2) 3 0 exAs exDs exB exSl where
  wf := by intro D hD; simp only [exDs, List.mem_singleton] at hD; subst hD; exact dimOf_wf 1
  base := ⟨_, ex_at, by decide⟩
  val := by decide +kernel
  full := rfl
  known := by intro r h; injection h with h; subst h; rfl

/-- The hypotheses of `toView_sem_partial` hold for a slice. -/
example (body : Stmt) : toView 100 noB (some 2) 3 0 exAs (.var 0 .elemSize (-1)) exDs body =
    some (.sliceBuffer 3 0 exAs (.transpose 3 3 [0] body)) := rfl
example (body : Stmt) : sem dsW false (.sliceBuffer 3 0 exAs (.transpose 3 3 [0] body)) exEnv [] =
    sem dsW false ((makeHead 0 exAs (.var 0 .elemSize (-1)) exDs).stmt 3 body) exEnv [] :=
  toView_sem_partial (newDim := 100) (bcast := noB) (rank := some 2) rfl (.inl rfl) ex_makes (fun _ => by decide) (fun h => by cases h)

/-! ## A crop: `make_buffer(x3, buffer_at(x0, 12), [(12, 18), dimension 1])` -/

/-- The dimensions. -/
def exCs : List DimE := [⟨.bounds (.const 12) (.const 18), .var 0 .stride 0, .var 0 .foldFactor 0⟩, dimOf 1]

theorem ex_makesC : Makes dsW [] exEnv none 3 0 exAs exCs exB exB1 where
  wf := by
    intro D hD
    simp only [exCs, List.mem_cons, List.not_mem_nil, or_false] at hD
    rcases hD with rfl | rfl
    · intro h; cases h
    · exact dimOf_wf 1
  base := ⟨_, ex_at, by decide⟩
  val := by decide +kernel
  full := rfl
  known := by intro r h; cases h

theorem ex_within : Within 3 0 exAs exB exB1 where
  other := by decide
  rank := by decide
  inside := by decide
  unfolded := by
    intro k a h _
    match k, h with
    | 0, _ => rfl
    | k + 1, h => simp [exAs] at h

/-- The hypotheses of `toView_sem_partial` hold for a crop. -/
example (body : Stmt) : sem dsW false (.cropBuffer 3 0 (exCs.map (·.bounds)) (.transpose 3 3 [0, 1] body)) exEnv [] =
    sem dsW false ((makeHead 0 exAs (.var 0 .elemSize (-1)) exCs).stmt 3 body) exEnv [] :=
  toView_sem_partial (newDim := 100) (bcast := noB) (rank := none) (by rfl) (.inr (by decide +kernel)) ex_makesC (fun h => absurd h (by decide +kernel)) (fun _ => ex_within)

/-! ## A transpose: `make_buffer(x3, buffer_at(x0), [dimension 1, (0, 0) with stride 0, dimension 0])` -/

/-- The broadcast. -/
def exBc : DimE := ⟨.point (.const 0), .const 0, .undef⟩
/-- The dimensions. -/
def exTs : List DimE := [dimOf 1, exBc, dimOf 0]
/-- What is known to be a broadcast. -/
def exKnown : DimE → Bool := fun D => decide (D.bounds.min = .const 0 ∧ D.bounds.max = .const 0 ∧ D.stride = .const 0)
/-- The transpose. -/
def exTb : Buf := ⟨some 1000, 4, [⟨0, 9, 44, -1⟩, ⟨0, 0, 0, Dim.unfolded⟩, ⟨10, 20, 4, -1⟩]⟩

/-- The hypotheses of `toView_transpose_partial` hold. -/
example (body : Stmt) : ∃ H : Head, Stmt.transpose 3 0 [1, 100, 0] body = H.stmt 3 body ∧ ∃ b3, H.val dsW [] exEnv 3 = some (some b3) ∧ SameView b3 exTb :=
  toView_transpose_partial (newDim := 100) (bcast := exKnown) (rank := none) (as := []) (elem := .var 0 .elemSize (-1)) (dims := exTs) (src := 0) (b := exB) (by rfl)
    ⟨by decide +kernel, by decide +kernel⟩
    (by
      intro D hD
      simp only [exTs, List.mem_cons, List.not_mem_nil, or_false] at hD
      rcases hD with rfl | rfl | rfl
      · exact dimOf_wf 1
      · intro _; rfl
      · exact dimOf_wf 0)
    (by decide) rfl (by decide) (by decide)
    (by
      intro D v t hD h1 h2
      simp only [exKnown, decide_eq_true_eq] at hD
      obtain ⟨e1, e2, e3⟩ := hD
      rw [e3] at h2
      refine ⟨?_, ?_⟩
      · unfold evalIvS at h1
        rw [e1, e2] at h1
        rw [show evalI dsW [] exEnv (.const 0) = some 0 from rfl] at h1
        split at h1
        · exact (Option.some.inj h1).symm
        · exact (Option.some.inj h1).symm
      · exact (Option.some.inj h2).symm)
    (by decide +kernel)

/-! ## Counterexamples -/

/-- If something is known of a buffer but its rank is not (-1), the view keeps the dimensions that the `make_buffer` does not have. -/
theorem counterexample_unknown_rank : ∃ s,
    toView 100 noB (some (-1)) 3 0 [] (.var 0 .elemSize (-1)) [dimOf 0] (rankIs 1) = some s ∧
    sem dsW false ((makeHead 0 [] (.var 0 .elemSize (-1)) [dimOf 0]).stmt 3 (rankIs 1)) exEnv [] ≠ sem dsW false s exEnv [] ∧
    sem dsW false s exEnv [] = sem dsW false (.check (.const 0)) exEnv [] := ⟨_, rfl, by decide +kernel, by decide +kernel⟩

/-- A `make_buffer` with bounds that are not within the bounds of the source: the crop has smaller bounds. -/
theorem counterexample_crop_outside : ∃ s,
    toView 100 noB (some 2) 3 0 exAs (.var 0 .elemSize (-1)) [⟨.bounds (.const 12) (.const 30), .var 0 .stride 0, .var 0 .foldFactor 0⟩, dimOf 1]
      (.check (.bin .eq (.var 3 .max 0) (.const 30))) = some s ∧
    (sem dsW false ((makeHead 0 exAs (.var 0 .elemSize (-1)) [⟨.bounds (.const 12) (.const 30), .var 0 .stride 0, .var 0 .foldFactor 0⟩, dimOf 1]).stmt 3
      (.check (.bin .eq (.var 3 .max 0) (.const 30)))) exEnv []).map Prod.fst = some 0 ∧
    (sem dsW false s exEnv []).map Prod.fst = some 1 := ⟨_, rfl, by decide +kernel, by decide +kernel⟩

/-- A buffer with a folded dimension. -/
def exF : Buf := ⟨some 1000, 4, [⟨10, 20, 4, 5⟩]⟩
/-- The buffers. -/
def exFEnv : SEnv := fun x => if x = 0 then .buf exF else .undef

/-- The index of a folded dimension moves the base of the `make_buffer`, but not the base of the crop. -/
theorem counterexample_crop_folded :
    toView 100 noB (some 1) 3 0 exAs (.var 0 .elemSize (-1)) [⟨.bounds (.const 12) (.const 18), .var 0 .stride 0, .var 0 .foldFactor 0⟩] .undef =
      some (.cropBuffer 3 0 [.bounds (.const 12) (.const 18)] .undef) ∧
    (makeHead 0 exAs (.var 0 .elemSize (-1)) [⟨.bounds (.const 12) (.const 18), .var 0 .stride 0, .var 0 .foldFactor 0⟩]).val dsW [] exFEnv 3 =
      some (some ⟨some 1008, 4, [⟨12, 18, 4, 5⟩]⟩) ∧
    (Head.cropBuffer 0 [.bounds (.const 12) (.const 18)]).val dsW [] exFEnv 3 = some (some ⟨some 1000, 4, [⟨12, 18, 4, 5⟩]⟩) :=
  ⟨rfl, by decide +kernel, by decide +kernel⟩

end Slinky.MV
