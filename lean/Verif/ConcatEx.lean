import Verif.ConcatMain
import Verif.ImplementCopyEx

/-! # C54: examples and counterexamples -/

namespace Slinky.CC

/-- An environment: symbol 0 is the destination, 1 and 2 are sources, 5 is an integer. -/
def ccEnv (D A B : Buf) : SEnv := fun x => if x = 0 then .buf D else if x = 1 then .buf A else if x = 2 then .buf B else if x = 5 then .int 2 else .undef
/-- The destination, with two indices. -/
def ccOut : Output := ⟨0, [3, 4]⟩

theorem ccEnv_range {D A B : Buf} (hD : D.InRange64) (hA : A.InRange64) (hB : B.InRange64) : (ccEnv D A B).InRange64 := by
  intro x
  unfold ccEnv
  by_cases h0 : x = 0
  · simpa [h0] using hD
  · by_cases h1 : x = 1
    · simpa [h1] using hA
    · by_cases h2 : x = 2
      · simpa [h2] using hB
      · by_cases h5 : x = 5
        · simp [h5, InRange]
        · simp [h0, h1, h2, h5]

theorem ccCond {D A B : Buf} (hD : D.InRange64) (hA : A.InRange64) (hB : B.InRange64) (hr : D.rank = 2) (good : List (List Buf)) :
    Cond (icW good) (fun _ _ => 0) id icLb (ccEnv D A B) 6 ccOut D 1 where
  h_host := fun _ _ _ => rfl
  h_range := ccEnv_range hD hA hB
  h_dst := rfl
  fresh := fun k hk => ⟨by unfold ccEnv; rw [if_neg (by omega), if_neg (by omega), if_neg (by omega), if_neg (by omega)], by simp [ccOut]; omega⟩
  idx := by simp [ccOut, ccEnv]
  nodup := by decide
  rank := hr
  dim_lt := by omega
  h_simp := icSound

/-- A buffer in positive addresses has no element at the null pointer: one dimension. -/
theorem nonnull1 (s m M : Int) (hs : 0 < s) (is : List Int) : (⟨some s, 1, [⟨m, M, 1, -1⟩]⟩ : Buf).view is ≠ some 0 := by
  intro h
  unfold Buf.view at h
  split at h
  · next hc =>
    match is, hc, h with
    | [], hc, h => simp [Buf.address, Buf.offset] at h; omega
    | x :: is, hc, h =>
      simp [Buf.address, Buf.offset, Buf.contains, Buf.containsL, Dim.contains, Dim.containsI, Dim.flatOffset, Dim.unfolded] at h hc
      omega
  · cases h

/-- The same, for two dimensions. -/
theorem nonnull2 (s m M m' M' : Int) (hs : 0 < s) (is : List Int) : (⟨some s, 1, [⟨m, M, 1, -1⟩, ⟨m', M', 2, -1⟩]⟩ : Buf).view is ≠ some 0 := by
  intro h
  unfold Buf.view at h
  split at h
  · next hc =>
    match is, hc, h with
    | [], hc, h => simp [Buf.address, Buf.offset] at h; omega
    | [x], hc, h =>
      simp [Buf.address, Buf.offset, Buf.contains, Buf.containsL, Dim.contains, Dim.containsI, Dim.flatOffset, Dim.unfolded] at h hc
      omega
    | x :: y :: is, hc, h =>
      simp [Buf.address, Buf.offset, Buf.contains, Buf.containsL, Dim.contains, Dim.containsI, Dim.flatOffset, Dim.unfolded] at h hc
      omega
  · cases h

/-! ### A concatenation

`dst(x, y) = a(x, y)` for `0 ≤ y < n` and `b(x, y - n)` for `n ≤ y < 5`, with `n = 2`. -/

/-- The destination: 2 x 5. -/
def ccDst : Buf := ⟨some 1000, 1, [⟨0, 1, 1, -1⟩, ⟨0, 4, 2, -1⟩]⟩
/-- The first source: 2 x 2. -/
def ccA : Buf := ⟨some 2000, 1, [⟨0, 1, 1, -1⟩, ⟨0, 1, 2, -1⟩]⟩
/-- The second source: 2 x 3. -/
def ccB : Buf := ⟨some 3000, 1, [⟨0, 1, 1, -1⟩, ⟨0, 2, 2, -1⟩]⟩
/-- The ends of the ranges: 0, the variable 5, and 5. -/
def ccBounds : List Expr := [.const 0, .var 5 .none 0, .const 5]

/-- One row. -/
def row (a : Int) : Buf := ⟨some a, 1, [⟨0, 1, 1, -1⟩]⟩
/-- The calls: row by row. -/
def ccCalls : List (Buf × Buf) := [(row 2000, row 1000), (row 2002, row 1002), (row 3000, row 1004), (row 3002, row 1006), (row 3004, row 1008)]

theorem ccRun : sem (icW (ccCalls.map fun c => [c.1, c.2])) false (implS id icLb (makeConcat 7 [1, 2] ccOut 1 ccBounds) 6).1 (ccEnv ccDst ccA ccB) [] =
    some (0, List.replicate 5 (.call 7 0)) := by decide +kernel

theorem ccUnfolded {b : Buf} (h : ∀ d ∈ b.dims, d.fold = Dim.unfolded) (k : Nat) : (b.dim k).fold = Dim.unfolded ∨ (b.dim k).stride = 0 := by
  unfold Buf.dim
  by_cases hk : k < b.dims.length
  · left
    rw [List.getElem?_eq_getElem hk]
    exact h _ (List.getElem_mem hk)
  · right
    rw [List.getElem?_eq_none (by omega)]
    rfl

theorem ccBound0 {w : World} {D A B : Buf} (v : Int) (hv : InRange 64 v) : BoundOk w [] (ccEnv D A B) 6 ccOut [1, 2] (.const v) v where
  ok := rfl
  wf := by simpa [Expr.WF] using hv
  plain := by simp [Expr.Plain]
  free := by simp [FreeIn]
  val := by simp [evalI, evalS, Val.int?]

theorem ccBound5 {w : World} {D A B : Buf} : BoundOk w [] (ccEnv D A B) 6 ccOut [1, 2] (.var 5 .none 0) 2 where
  ok := rfl
  wf := by simp [Expr.WF]
  plain := by simp [Expr.Plain]
  free := by simp [FreeIn, ccOut]
  val := by simp [evalI, evalS, Val.int?, ccEnv]

theorem ccRangesOk {w : World} : RangesOk w [] (ccEnv ccDst ccA ccB) 6 ccOut ccDst 1 [1, 2] [1, 2] [ccA, ccB] ccBounds [0, 2, 5] := by
  have u : ∀ b ∈ [ccA, ccB], ∀ d ∈ b.dims, d.fold = Dim.unfolded := by decide
  refine ⟨⟨by simp, ⟨rfl, by decide, rfl, ccUnfolded (u _ (by simp))⟩, ccBound0 0 (by decide), ccBound5, ?_, by decide⟩,
    ⟨by simp, ⟨rfl, by decide, rfl, ccUnfolded (u _ (by simp))⟩, ccBound5, ccBound0 5 (by decide), ?_, by decide⟩, trivial⟩
  · exact ⟨rfl, by decide, by decide, inRange64_of (by decide +kernel) (by decide +kernel), inRange64_of (by decide +kernel) (by decide +kernel),
      fun is => by
        rw [show ccA.crop 1 0 (2 - 0 - 1) = (⟨some 2000, 1, [⟨0, 1, 1, -1⟩, ⟨0, 1, 2, -1⟩]⟩ : Buf) by decide +kernel]
        exact nonnull2 _ _ _ _ _ (by decide) is⟩
  · exact ⟨rfl, by decide, by decide, inRange64_of (by decide +kernel) (by decide +kernel), inRange64_of (by decide +kernel) (by decide +kernel),
      fun is => by
        rw [show ccB.crop 1 0 (5 - 2 - 1) = (⟨some 3000, 1, [⟨0, 1, 1, -1⟩, ⟨0, 2, 2, -1⟩]⟩ : Buf) by decide +kernel]
        exact nonnull2 _ _ _ _ _ (by decide) is⟩

/-- `concat_partial` applies. -/
example : ∃ calls, runSeq (copyCall (icW (ccCalls.map fun c => [c.1, c.2])) 7 []) calls [] = some (0, List.replicate 5 (.call 7 0)) ∧ (∀ c ∈ calls, c.1.elem = c.2.elem) ∧
    ∀ m m', Copy.Separate ccDst (fun x => concatAt 1 x [ccA, ccB] [0, 2, 5]) → CallsCopy none calls m m' →
      Copy.CopiedFrom ccDst (fun x => concatAt 1 x [ccA, ccB] [0, 2, 5]) m m' :=
  concat_partial (ccCond (inRange64_of (by decide +kernel) (by decide +kernel)) (inRange64_of (by decide +kernel) (by decide +kernel))
    (inRange64_of (by decide +kernel) (by decide +kernel)) rfl _) (by decide) ccRangesOk ccRun

/-- The specification on three elements. -/
example : concatAt 1 [1, 1] [ccA, ccB] [0, 2, 5] = some 2003 ∧ concatAt 1 [0, 2] [ccA, ccB] [0, 2, 5] = some 3000 ∧ concatAt 1 [1, 4] [ccA, ccB] [0, 2, 5] = some 3005 := by
  decide +kernel

/-! A source that is broadcast in the dimension of the concatenation, and whose bounds do not have the index 0 (they do not matter for a broadcast: each index is in bounds).
The crop of the input to `[0, n)` makes it empty. -/

/-- The first source: each row is the same. -/
def bcA : Buf := ⟨some 2000, 1, [⟨0, 1, 1, -1⟩, ⟨5, 5, 0, -1⟩]⟩
/-- A source with no elements. -/
def bcNull : Buf := ⟨none, 1, [⟨0, 1, 1, -1⟩]⟩
/-- The calls: for the first two rows the source is null. -/
def bcCalls : List (Buf × Buf) := [(bcNull, row 1000), (bcNull, row 1002), (row 3000, row 1004), (row 3002, row 1006), (row 3004, row 1008)]

/-- Why `RangeOk.bcast`: the concatenation succeeds, each element of the destination is in the range of a source that has it, and the first two rows are not copied. -/
theorem concat_broadcast_counterexample : sem (icW (bcCalls.map fun c => [c.1, c.2])) false (implS id icLb (makeConcat 7 [1, 2] ccOut 1 ccBounds) 6).1 (ccEnv ccDst bcA ccB) [] =
      some (0, List.replicate 5 (.call 7 0)) ∧
    concatAt 1 [1, 1] [bcA, ccB] [0, 2, 5] = some 2001 ∧
    ¬ ∃ calls, runSeq (copyCall (icW (bcCalls.map fun c => [c.1, c.2])) 7 []) calls [] = some (0, List.replicate 5 (.call 7 0)) ∧
      Part calls ccDst (fun _ => True) (fun x => concatAt 1 x [bcA, ccB] [0, 2, 5]) := by
  refine ⟨by decide +kernel, by decide +kernel, ?_⟩
  rintro ⟨calls, h1, h2⟩
  obtain ⟨c, hc, is, k1, k2, k3⟩ := h2.cover [1, 1] (by simp [Buf.InBounds, ccDst, InB]) trivial
  obtain ⟨l, h⟩ := runSeq_calls h1 c hc
  have hm : [c.1, c.2] ∈ bcCalls.map fun c => [c.1, c.2] := by
    by_contra hn
    simp [icW, hn] at h
  obtain ⟨c', hc', he⟩ := List.mem_map.1 hm
  simp only [List.cons.injEq, and_true] at he
  obtain rfl : c' = c := Prod.ext he.1 he.2
  rw [show concatAt 1 [1, 1] [bcA, ccB] [0, 2, 5] = some 2001 by decide +kernel] at k3
  rw [show ccDst.address [1, 1] = some 1003 by decide +kernel] at k2
  simp only [bcCalls, List.mem_cons, List.not_mem_nil, or_false] at hc'
  rcases hc' with rfl | rfl | rfl | rfl | rfl <;> (
    have k1 : InB [⟨0, 1, 1, -1⟩] is := k1
    match is, k1 with
    | [i], k1 =>
      simp [InB, row, bcNull, Buf.address, Buf.view, Buf.contains, Buf.containsL, Buf.offset, Dim.flatOffset, Dim.contains, Dim.containsI, Dim.unfolded] at k1 k2 k3
      try omega)

/-! ### A stack

`dst(x, 0) = a(x)` and `dst(x, 1) = b(x)`. -/

/-- The destination: 2 x 2. -/
def stDst : Buf := ⟨some 1000, 1, [⟨0, 1, 1, -1⟩, ⟨0, 1, 2, -1⟩]⟩
/-- The calls: one for each source. -/
def stCalls : List (Buf × Buf) := [(row 2000, row 1000), (row 3000, row 1002)]

theorem stRun : sem (icW (stCalls.map fun c => [c.1, c.2])) false (implS id icLb (makeStack 7 [(1, 1), (2, 1)] ccOut 9) 6).1 (ccEnv stDst (row 2000) (row 3000)) [] =
    some (0, List.replicate 2 (.call 7 0)) := by decide +kernel

theorem stOk : StacksOk (ccEnv stDst (row 2000) (row 3000)) ccOut stDst 1 [(1, 1), (2, 1)] [row 2000, row 3000] 0 := by
  have u : ∀ b ∈ [row 2000, row 3000], ∀ d ∈ b.dims, d.fold = Dim.unfolded := by decide
  refine ⟨⟨⟨rfl, by decide, rfl, ccUnfolded (u _ (by simp))⟩, ⟨rfl, by decide, inRange64_of (by decide +kernel) (by decide +kernel), nonnull1 _ _ _ (by decide)⟩⟩,
    ⟨⟨rfl, by decide, rfl, ccUnfolded (u _ (by simp))⟩, ⟨rfl, by decide, inRange64_of (by decide +kernel) (by decide +kernel), nonnull1 _ _ _ (by decide)⟩⟩, trivial⟩

/-- `stack_partial` applies. -/
example : ∃ calls, runSeq (copyCall (icW (stCalls.map fun c => [c.1, c.2])) 7 []) calls [] = some (0, List.replicate 2 (.call 7 0)) ∧ (∀ c ∈ calls, c.1.elem = c.2.elem) ∧
    ∀ m m', Copy.Separate stDst (fun x => stackAt 1 x [row 2000, row 3000]) → CallsCopy none calls m m' →
      Copy.CopiedFrom stDst (fun x => stackAt 1 x [row 2000, row 3000]) m m' :=
  stack_partial (d := 9) rfl (ccCond (inRange64_of (by decide +kernel) (by decide +kernel)) (inRange64_of (by decide +kernel) (by decide +kernel))
    (inRange64_of (by decide +kernel) (by decide +kernel)) rfl _) stOk stRun

/-- The specification on two elements. -/
example : stackAt 1 [1, 0] [row 2000, row 3000] = some 2001 ∧ stackAt 1 [0, 1] [row 2000, row 3000] = some 3000 := by decide +kernel

/-! The destination of the stack is a part of the stack: only the index 1. The slice at 0 is out of bounds, and makes a buffer that is null, and that has elements. -/

/-- The destination: only the second source is required. -/
def sbDst : Buf := ⟨some 1002, 1, [⟨0, 1, 1, -1⟩, ⟨1, 1, 2, -1⟩]⟩
/-- The calls: the destination of the first one is null. -/
def sbCalls : List (Buf × Buf) := [(row 2000, ⟨none, 1, [⟨0, 1, 1, -1⟩]⟩), (row 3000, row 1002)]

/-- A world where the function fails if it is called with a buffer that has elements but no memory. -/
def nullW : World := { dsW with call := fun _ _ os _ _ => if ∃ b ∈ os, b.base = none ∧ ∀ d ∈ b.dims, d.min ≤ d.max then 1 else 0 }

/-- Why `StackOk.bounds`: the statement of the stack calls the function that copies with a destination that has elements but has no memory (`copy`, buffer.cc:426, has an assert that
this does not happen; without the assert it writes to the null pointer). -/
theorem stack_out_of_bounds_counterexample : sem (icW (sbCalls.map fun c => [c.1, c.2])) false (implS id icLb (makeStack 7 [(1, 1), (2, 1)] ccOut 1) 6).1
      (ccEnv sbDst (row 2000) (row 3000)) [] = some (0, List.replicate 2 (.call 7 0)) ∧
    (⟨none, 1, [⟨0, 1, 1, -1⟩]⟩ : Buf).InBounds [0] ∧
    sem nullW false (implS id icLb (makeStack 7 [(1, 1), (2, 1)] ccOut 1) 6).1 (ccEnv sbDst (row 2000) (row 3000)) [] = some (1, [.call 7 1]) ∧
    sem nullW false (implS id icLb (makeStack 7 [(1, 1), (2, 1)] ccOut 1) 6).1 (ccEnv stDst (row 2000) (row 3000)) [] = some (0, List.replicate 2 (.call 7 0)) := by
  refine ⟨by decide +kernel, by simp [Buf.InBounds, InB], by decide +kernel, by decide +kernel⟩

end Slinky.CC
