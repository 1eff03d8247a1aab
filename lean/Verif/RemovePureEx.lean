import Verif.RemovePureThm

/-!
# Examples and counterexamples for `remove_pure_dims`

The unit tests of the library (builder/test/optimizations.cc:118-215), a world that meets the conditions of `removePureDims_spec_partial`, and for each
condition on the statement a statement that is changed without it.
-/

namespace Slinky

/-! ## The unit tests -/

/-- Each call has `min_rank = 0`. -/
def rpZero : Nat → Option Nat := fun _ => some 0

/-- A point written as `{0, 0}`. -/
def rpPt : Interval := .bounds (.const 0) (.const 0)

theorem rpTest_cropDim : removePureDims rpZero (.cropDim 1 2 1 rpPt (.call 7 [1] [1] [])) =
    .cropDim 1 2 1 rpPt (.sliceBuffer 1 1 [.undef, .var 1 .min 1] (.call 7 [1] [1] [])) := rfl
theorem rpTest_cropBuffer : removePureDims rpZero (.cropBuffer 1 2 [.unbounded, rpPt] (.call 7 [1] [1] [])) =
    .cropBuffer 1 2 [.unbounded, rpPt] (.sliceBuffer 1 1 [.undef, .var 1 .min 1] (.call 7 [1] [1] [])) := rfl
/-- The dimensions of the allocations of the tests. -/
def rpDims : List DimE := [⟨.bounds (.const 0) (.const 5), .undef, .undef⟩, ⟨rpPt, .undef, .undef⟩]
theorem rpTest_allocate : removePureDims rpZero (.allocate 1 .heap (.const 1) rpDims (.call 7 [1] [1] [])) =
    .allocate 1 .heap (.const 1) rpDims (.sliceBuffer 1 1 [.undef, .var 1 .min 1] (.call 7 [1] [1] [])) := rfl
theorem rpTest_inputs : removePureDims rpZero (.cropDim 1 2 1 rpPt (.call 7 [0] [1] [])) =
    .cropDim 1 2 1 rpPt (.sliceBuffer 0 0 [.undef, .var 1 .min 1] (.sliceBuffer 1 1 [.undef, .var 1 .min 1] (.call 7 [0] [1] []))) := rfl
theorem rpTest_clone : removePureDims rpZero (.allocate 2 .heap (.const 1) rpDims (.cloneBuffer 1 2 (.call 7 [1] [1] []))) =
    .allocate 2 .heap (.const 1) rpDims (.cloneBuffer 1 2 (.sliceBuffer 1 1 [.undef, .var 1 .min 1] (.call 7 [1] [1] []))) := rfl
theorem rpTest_transpose : removePureDims rpZero (.allocate 2 .heap (.const 1) rpDims (.transpose 1 2 [1, 0] (.call 7 [1] [1] []))) =
    .allocate 2 .heap (.const 1) rpDims (.transpose 1 2 [1, 0] (.sliceBuffer 1 1 [.var 1 .min 0] (.call 7 [1] [1] []))) := rfl
theorem rpTest_two : removePureDims rpZero (.cropDim 2 3 1 rpPt (.cropDim 1 2 2 rpPt (.call 7 [1] [1] []))) =
    .cropDim 2 3 1 rpPt (.cropDim 1 2 2 rpPt (.sliceBuffer 1 1 [.undef, .var 1 .min 1, .var 1 .min 2] (.call 7 [1] [1] []))) := rfl
theorem rpTest_shadow : removePureDims rpZero (.cropDim 1 2 1 rpPt (.cropDim 1 2 2 rpPt (.call 7 [1] [1] []))) =
    .cropDim 1 2 1 rpPt (.cropDim 1 2 2 rpPt (.sliceBuffer 1 1 [.undef, .undef, .var 1 .min 2] (.call 7 [1] [1] []))) := rfl
theorem rpTest_shadow_two : removePureDims rpZero (.cropDim 0 0 1 rpPt (.cropDim 0 0 2 rpPt (.call 7 [0] [0] []))) =
    .cropDim 0 0 1 rpPt (.cropDim 0 0 2 rpPt (.sliceBuffer 0 0 [.undef, .var 0 .min 1, .var 0 .min 2] (.call 7 [0] [0] []))) := rfl

/-! ## A world that keeps the promise -/

/-- The address at index `x` of one dimension. -/
def rpStep (a : Dim) (x : Int) (p : Option Int) : Option Int := p.bind fun q => if a.contains x then some (q + a.flatOffset x) else none

/-- The address of the element of a buffer with dimensions `is` at the min of a buffer with dimensions `os`. -/
def rpAddr : List Dim → List Dim → Option Int → Option Int
  | [], _, p => p
  | a :: is, os, p => rpAddr is os.tail (rpStep a ((os.head?).getD Dim.broadcast).min p)

/-- How much larger than one element the dimensions are. -/
def rpSize : List Dim → Int
  | [] => 0
  | a :: is => (a.max - a.min) + rpSize is

/-- The result of a call: 13 if an output has no memory but is not empty. Otherwise it depends on the addresses of the elements of the buffers at the
min of the first output, the size of the outputs, and the scalars. -/
def rpCall (is os : List Buf) (xs : List Int) : Int :=
  match os with
  | [] => 5
  | o :: _ =>
    if os.any fun b => decide (b.base = none) && b.dims.all fun d => decide (d.min ≤ d.max) then 13
    else ((is ++ os).map fun b => (rpAddr b.dims o.dims b.base).getD 1).sum + (os.map fun b => 1000 * rpSize b.dims).sum + xs.sum

/-- A world whose calls keep the promise of any `min_rank`. -/
def rpW : World where
  call _ is os xs _ := rpCall is os xs
  host _ _ _ := 0
  allocate b _ := ({ b with base := some 4096 }, 77)
  allocate_rank _ _ := rfl
  stackAddr _ := 8192
  strideAlign := 1
  autoStack := 0
  pool := true
  sched _ n := (List.range n).reverse.map fun i => (i, i % 2)
  taskFirst _ := true
  taskLate _ := true
  taskHandle _ := 99

theorem rpStep_comm (a b : Dim) (x y : Int) (p : Option Int) : rpStep a x (rpStep b y p) = rpStep b y (rpStep a x p) := by
  cases p with
  | none => rfl
  | some q =>
    simp only [rpStep, Option.bind_some]
    by_cases h1 : a.contains x = true <;> by_cases h2 : b.contains y = true <;> simp [h1, h2]
    omega

theorem dropDimsL_step (D : DimSet) (y : Nat → Int) (a : Dim) (x : Int) : ∀ (ds : List Dim) (k : Nat) (p : Option Int),
    dropDimsL D y k ds (rpStep a x p) = (rpStep a x (dropDimsL D y k ds p).1, (dropDimsL D y k ds p).2)
  | [], k, p => rfl
  | d :: ds, k, p => by
    simp only [dropDimsL]
    split
    · rw [show (rpStep a x p).bind _ = rpStep d (y k) (rpStep a x p) from rfl, rpStep_comm, dropDimsL_step D y a x ds (k + 1)]
      rfl
    · rw [dropDimsL_step D y a x ds (k + 1)]

/-- The same element at the index that is dropped. -/
theorem rpAddr_drop (D : DimSet) (y : Nat → Int) : ∀ (is os : List Dim) (k : Nat) (p q : Option Int), (∀ j, D (k + j) = true → (RP.dimL os j).min = y (k + j)) →
    rpAddr (dropDimsL D y k is p).2 (dropDimsL D y k os q).2 (dropDimsL D y k is p).1 = rpAddr is os p
  | [], os, k, p, q, h => by simp [dropDimsL, rpAddr]
  | a :: is, os, k, p, q, h => by
    have ht : ∀ q, ∃ q', (D k = true → (dropDimsL D y k os q).2 = (dropDimsL D y (k + 1) os.tail q').2) ∧
        (D k = false → (dropDimsL D y k os q).2.tail = (dropDimsL D y (k + 1) os.tail q').2 ∧ ((dropDimsL D y k os q).2.head?).getD Dim.broadcast = (os.head?).getD Dim.broadcast) := by
      intro q
      cases os with
      | nil => exact ⟨q, fun _ => rfl, fun _ => ⟨rfl, rfl⟩⟩
      | cons o os =>
        cases hk : D k with
        | true =>
          exact ⟨q.bind fun q => if o.contains (y k) then some (q + o.flatOffset (y k)) else none, fun _ => by simp [dropDimsL, hk], fun h => (by cases h)⟩
        | false => exact ⟨q, ⟨fun h => (by cases h), fun _ => by simp [dropDimsL, hk]⟩⟩
    obtain ⟨q', ht⟩ := ht q
    have ih := fun p => rpAddr_drop D y is os.tail (k + 1) p q' fun j hj => by
      have := h (j + 1) (by rw [show k + (j + 1) = k + 1 + j by omega]; exact hj)
      rw [show k + (j + 1) = k + 1 + j by omega] at this
      rw [← this]
      cases os <;> simp [RP.dimL]
    cases hk : D k with
    | true =>
      have hy : ((os.head?).getD Dim.broadcast).min = y k := by
        have := h 0 (by simpa using hk)
        cases os <;> simpa [RP.dimL] using this
      rw [ht.1 hk]
      simp only [dropDimsL, hk, if_true, rpAddr]
      rw [ih, hy]
      rfl
    | false =>
      have e := ht.2 hk
      simp only [dropDimsL, hk, Bool.false_eq_true, if_false, rpAddr]
      rw [e.1, e.2, ← ih, dropDimsL_step]

theorem drop_none (D : DimSet) (y : Nat → Int) : ∀ (ds : List Dim) (k : Nat) (p : Option Int), (∀ j, D (k + j) = true → (RP.dimL ds j).min = y (k + j) ∧ (RP.dimL ds j).max = y (k + j)) →
    ((dropDimsL D y k ds p).1 = none ↔ p = none) ∧ ((dropDimsL D y k ds p).2.all (fun d => decide (d.min ≤ d.max)) = ds.all fun d => decide (d.min ≤ d.max)) ∧
      rpSize (dropDimsL D y k ds p).2 = rpSize ds
  | [], k, p, h => ⟨Iff.rfl, rfl, rfl⟩
  | d :: ds, k, p, h => by
    have ih := fun p => drop_none D y ds (k + 1) p fun j hj => by
      have := h (j + 1) (by rw [show k + (j + 1) = k + 1 + j by omega]; exact hj)
      rw [show k + (j + 1) = k + 1 + j by omega] at this
      exact this
    simp only [dropDimsL]
    cases hk : D k with
    | true =>
      obtain ⟨h1, h2⟩ := h 0 (by simpa using hk)
      simp only [RP.dimL, List.getElem?_cons_zero, Option.getD_some, Nat.add_zero] at h1 h2
      simp only [if_true]
      refine ⟨?_, ?_, ?_⟩
      · rw [(ih _).1]
        have : d.contains (y k) = true := by simp [Dim.contains, Dim.containsI, h1, h2]
        cases p <;> simp [this]
      · rw [(ih _).2.1, List.all_cons, h1, h2]
        simp
      · rw [(ih _).2.2, rpSize, h1, h2]
        omega
    | false =>
      simp only [Bool.false_eq_true, if_false]
      exact ⟨(ih p).1, by rw [List.all_cons, List.all_cons, (ih p).2.1], by rw [rpSize, rpSize, (ih p).2.2]⟩

/-- The calls of the world keep the promise. -/
theorem rpW_minRank (mr : Nat → Option Nat) : rpW.MinRank mr := by
  intro t m D y is os xs l _ hne _ hpt
  cases os with
  | nil => exact absurd rfl hne
  | cons o os =>
    have hp : ∀ b ∈ o :: os, ∀ j, D (0 + j) = true → (RP.dimL b.dims j).min = y (0 + j) ∧ (RP.dimL b.dims j).max = y (0 + j) := fun b hb j hj => by
      rw [Nat.zero_add] at hj ⊢
      exact hpt b hb j hj
    have h1 : ∀ b : Buf, rpAddr (b.dropDims D y).dims (o.dropDims D y).dims (b.dropDims D y).base = rpAddr b.dims o.dims b.base := fun b =>
      rpAddr_drop D y b.dims o.dims 0 b.base o.base fun j hj => (hp o List.mem_cons_self j hj).1
    have h2 : ((o :: os).map (Buf.dropDims D y)).any (fun b => decide (b.base = none) && b.dims.all fun d => decide (d.min ≤ d.max)) =
        (o :: os).any fun b => decide (b.base = none) && b.dims.all fun d => decide (d.min ≤ d.max) := by
      have : ∀ L : List Buf, (∀ b ∈ L, b ∈ o :: os) → (L.map (Buf.dropDims D y)).any (fun b => decide (b.base = none) && b.dims.all fun d => decide (d.min ≤ d.max)) =
          L.any fun b => decide (b.base = none) && b.dims.all fun d => decide (d.min ≤ d.max) := by
        intro L
        induction L with
        | nil => intro _; rfl
        | cons b L ih =>
          intro hL
          rw [List.map_cons, List.any_cons, List.any_cons, ih fun c hc => hL c (List.mem_cons_of_mem _ hc)]
          obtain ⟨g1, g2, _⟩ := drop_none D y b.dims 0 b.base (hp b (hL b List.mem_cons_self))
          congr 1
          have e1 : decide ((b.dropDims D y).base = none) = decide (b.base = none) := decide_eq_decide.mpr g1
          rw [e1]
          congr 1
      exact this _ fun b hb => hb
    have h3 : ∀ L : List Buf, (∀ b ∈ L, b ∈ o :: os) → ((L.map (Buf.dropDims D y)).map fun b => 1000 * rpSize b.dims) = L.map fun b => 1000 * rpSize b.dims := by
      intro L hL
      rw [List.map_map]
      refine List.map_congr_left fun b hb => ?_
      obtain ⟨_, _, g3⟩ := drop_none D y b.dims 0 b.base (hp b (hL b hb))
      simp only [Function.comp, Buf.dropDims, g3]
    have h4 : ∀ L : List Buf, ((L.map (Buf.dropDims D y)).map fun b => (rpAddr b.dims (o.dropDims D y).dims b.base).getD 1) = L.map fun b => (rpAddr b.dims o.dims b.base).getD 1 := by
      intro L
      rw [List.map_map]
      refine List.map_congr_left fun b hb => ?_
      simp only [Function.comp, h1]
    have h5 := h3 (o :: os) fun b hb => hb
    have h6 := h4 (is ++ (o :: os))
    rw [List.map_append] at h6
    have h7 : rpCall (is.map (Buf.dropDims D y)) ((o :: os).map (Buf.dropDims D y)) xs = rpCall is (o :: os) xs := by
      rw [List.map_cons] at h2 h5 h6 ⊢
      unfold rpCall
      simp only [h2, h5, h6]
    exact h7

theorem rpW_allocBounds : rpW.AllocBounds := fun _ _ _ => ⟨rfl, rfl⟩

/-! ## A statement that meets the conditions -/

/-- Calls 7 do not care about dimension 1. -/
def rpMr : Nat → Option Nat := fun t => if t = 7 then some 1 else none

/-- The input is 6 x 4 elements, and the output 4 x 3. -/
def rpEnv : SEnv := fun x => if x = 0 then .buf ⟨some 1024, 4, [⟨0, 5, 4, -1⟩, ⟨4, 7, 24, -1⟩]⟩ else if x = 1 then .buf ⟨some 2048, 4, [⟨0, 3, 4, -1⟩, ⟨5, 7, 16, -1⟩]⟩ else .undef

/-- A loop over the rows of the output. -/
def rpStmt : Stmt :=
  .loop 2 (.const 1) (.bounds (.var 1 .min 1) (.var 1 .max 1)) .undef (.cropDim 3 1 1 (.point (.v 2)) (.call 7 [0] [3] [.bin .sub (.const (-5896)) (.bin .mul (.const 40) (.v 2))]))

theorem rpStmt_removed : removePureDims rpMr rpStmt =
    .loop 2 (.const 1) (.bounds (.var 1 .min 1) (.var 1 .max 1)) .undef (.cropDim 3 1 1 (.point (.v 2))
      (.sliceBuffer 0 0 [.undef, .var 3 .min 1] (.sliceBuffer 3 3 [.undef, .var 3 .min 1] (.call 7 [0] [3] [.bin .sub (.const (-5896)) (.bin .mul (.const 40) (.v 2))])))) := rfl

/-- Each call sees the address of the row in the input and the output: the result would not be 0 for other addresses. -/
theorem rpStmt_sem : sem rpW false rpStmt rpEnv [] = some (0, [.call 7 0, .call 7 0, .call 7 0]) := by decide +kernel

theorem rpStmt_ok : rpStmt.PureOK rpW rpMr [] rpEnv := by
  intro i hi
  have hi' : 5 ≤ i ∧ i ≤ 7 := by
    obtain ⟨l, v, s, h1, h2, h3⟩ := hi
    have e1 : evalIvS rpW l rpEnv (.bounds (.var 1 .min 1) (.var 1 .max 1)) = some (5, 7) := rfl
    have e2 : evalDefS rpW l rpEnv .undef 1 = some 1 := rfl
    rw [e1] at h1
    rw [e2] at h2
    cases h1
    cases h2
    rcases h3 with h3 | h3 | ⟨k, h3, q, hq, rfl⟩
    · exact h3
    · subst h3; decide
    · have e3 : parCount 5 7 1 = some 3 := by decide +kernel
      rw [e3] at h3
      cases h3
      simp only [rpW, List.mem_map, List.mem_reverse, List.mem_range] at hq
      obtain ⟨a, ha, rfl⟩ := hq
      simp only
      omega
  refine ⟨.inr (.inl (by simp)), fun l c v hc hv => ?_⟩
  have e : (rpEnv.set 2 (.int i)) 1 = .buf ⟨some 2048, 4, [⟨0, 3, 4, -1⟩, ⟨5, 7, 16, -1⟩]⟩ := rfl
  rw [e] at hc
  cases hc
  have e2 : ∀ a b, evalIvDefS rpW l (rpEnv.set 2 (.int i)) (.point (.v 2)) a b = some (i, i) := fun a b => rfl
  rw [e2] at hv
  cases hv
  refine ⟨fun d => ?_, ?_⟩
  · rw [RP.crop_dim_min]
    match d with
    | 0 => simp [Buf.dim]
    | 1 =>
      simp only [Buf.rank, Buf.dim]
      simp
      omega
    | d + 2 =>
      rw [if_neg (by omega), RP.dim_out (by simp [Buf.rank])]
      decide
  · intro m _
    refine ⟨by simp, ?_, ?_⟩
    · intro e he x hx
      simp only [List.mem_singleton] at he
      subst he
      have : x = 0 ∨ x = 3 := by simpa using hx
      rcases this with rfl | rfl <;> decide
    · intro x hx y hy b c hb hc d _ _ _
      simp only [List.mem_singleton] at hx hy
      subst hx hy
      rw [hb] at hc
      cases hc
      rfl

/-- The theorem applies. -/
theorem removePureDims_example (l : List Ev) : sem rpW false (removePureDims rpMr rpStmt) rpEnv l = sem rpW false rpStmt rpEnv l :=
  removePureDims_spec_partial (rpW_minRank rpMr) rpW_allocBounds rpStmt_ok false l

/-! ## The conditions are necessary -/

/-- (1) A crop that is empty: without the pass the output has no memory and is empty, with it the output has no memory but is not empty. -/
theorem removePureDims_empty_counterexample :
    sem rpW false (.cropDim 3 1 1 (.point (.const 9)) (.call 7 [0] [3] [])) rpEnv [] ≠
      sem rpW false (removePureDims rpMr (.cropDim 3 1 1 (.point (.const 9)) (.call 7 [0] [3] []))) rpEnv [] ∧
    (Stmt.cropDim 3 1 1 (.point (.const 9)) (.sliceBuffer 0 0 [.undef, .var 3 .min 1] (.sliceBuffer 3 3 [.undef, .var 3 .min 1] (.call 7 [0] [3] [])))) =
      removePureDims rpMr (.cropDim 3 1 1 (.point (.const 9)) (.call 7 [0] [3] [])) ∧
    (sem rpW false (removePureDims rpMr (.cropDim 3 1 1 (.point (.const 9)) (.call 7 [0] [3] []))) rpEnv []).map (·.1) = some 13 :=
  ⟨by decide +kernel, rfl, by decide +kernel⟩

/-- Two outputs at different rows. -/
def rpTwo : Stmt := .cropDim 3 1 1 (.point (.const 5)) (.cropDim 4 1 1 (.point (.const 6)) (.call 7 [] [3, 4] []))

/-- (2) Two outputs with one row each, at different indices: the second one is sliced at the index of the first one, and has no memory. -/
theorem removePureDims_outputs_counterexample :
    sem rpW false rpTwo rpEnv [] ≠ sem rpW false (removePureDims rpMr rpTwo) rpEnv [] ∧ (sem rpW false (removePureDims rpMr rpTwo) rpEnv []).map (·.1) = some 13 :=
  ⟨by decide +kernel, by decide +kernel⟩

/-- A scalar that is the row. -/
def rpScalar : Stmt := .cropDim 3 1 1 (.point (.const 5)) (.call 7 [] [3] [.var 3 .min 1])

/-- (3) A scalar argument that is the row of the output is evaluated after slicing, and is 0. -/
theorem removePureDims_scalar_counterexample :
    (sem rpW false rpScalar rpEnv []).map (·.1) = some (2048 + 3000 + 5) ∧ (sem rpW false (removePureDims rpMr rpScalar) rpEnv []).map (·.1) = some (2048 + 3000) :=
  ⟨by decide +kernel, by decide +kernel⟩

/-- A `crop_dim` to one row, shadowed by a `crop_dim` to two rows. -/
def rpShadow : Stmt := .cropDim 3 1 1 (.point (.const 5)) (.cropDim 3 1 1 (.bounds (.const 5) (.const 6)) (.call 7 [] [3] []))

/-- (4) A `crop_dim` that is not to a point does not change what is known about its symbol. The call gets only the first of two rows. -/
theorem removePureDims_shadow_counterexample :
    (sem rpW false rpShadow rpEnv []).map (·.1) = some (2048 + 4000) ∧ (sem rpW false (removePureDims rpMr rpShadow) rpEnv []).map (·.1) = some (2048 + 3000) :=
  ⟨by decide +kernel, by decide +kernel⟩

/-- (3) A call without outputs: every dimension from `min_rank` is sliced, at the min of the first output, which does not exist (the code reads
`outputs.front()`; in the model it is symbol 0). -/
theorem removePureDims_no_output_counterexample :
    (removePureDims rpMr (.call 7 [1] [] [])) = .sliceBuffer 1 1 (.undef :: (List.range 63).map fun d => .var 0 .min (d + 1 : Nat)) (.call 7 [1] [] []) := rfl

end Slinky
