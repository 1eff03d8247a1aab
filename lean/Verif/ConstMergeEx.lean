import Verif.ConstMergeThm

/-!
# C66: merging equal constants. Examples and counterexamples
-/

namespace Slinky.CM

open Slinky FE

/-- Two rows of three bytes, padded to 4. -/
def exRows : List Dim := [⟨0, 2, 1, -1⟩, ⟨5, 6, 4, -1⟩]
/-- Constants 0 and 1 (and the others) have the same value, constant 2 differs. -/
def exHeap (c : Nat) : Buf := if c = 1 then ⟨some 200, 1, exRows⟩ else if c = 2 then ⟨some 300, 1, exRows⟩ else ⟨some 100, 1, exRows⟩
/-- The elements are 7, 8, 9, ...; the padding of the constants is not the same; the last element of constant 2 is 0. -/
def exMem (a : Int) : UInt8 := if a = 203 then 55 else if a = 306 then 0 else UInt8.ofInt (7 + a % 100)

theorem exConst (c : Nat) : Const (exHeap c) := by
  have h : ∀ b : Buf, b.base.isSome → b.elem = 1 → b.dims = exRows → Const b := fun b h1 h2 h3 => by
    refine ⟨h1, by omega, ?_, ?_⟩
    · rw [h3]; intro d hd
      simp only [exRows, List.mem_cons, List.not_mem_nil, or_false] at hd
      rcases hd with rfl | rfl <;> exact .inl (.inl rfl)
    · intro d d' hd e1 e2 e3 e4
      simp only [Buf.dim, h2, h3] at e1 e2 e3 e4
      match d', hd with
      | 1, _ => simp [exRows] at e2
      | d' + 2, _ => simp [exRows, Dim.broadcast] at e2
  unfold exHeap
  split
  · exact h _ rfl rfl rfl
  · split <;> exact h _ rfl rfl rfl

/-- Constant 2 is `x3`, constant 0 is `x5`, and there are other buffers. -/
def exDecls : List Decl := [.const 3 2, .other 4 ⟨some 800, 4, []⟩, .const 5 0, .crop 1 4 0 2 3]

theorem ex_ok : AllOk (fun _ => none) exDecls := ⟨trivial, trivial, trivial, by simp [Decl.Ok, track], trivial⟩

/-- A constant 1 in the declarations is replaced by `x5`. -/
theorem ex_find : findParent exMem exHeap (exDecls.foldl track fun _ => none) 1 10 0 = some (some 5) := by decide +kernel

/-- The hypotheses of `merge_partial` hold. -/
example (ρ : Nat → Buf) : SameConst exMem (exDecls.foldl (declare exHeap) ρ 5) (exHeap 1) := by
  obtain ⟨r, h1, h2, _⟩ := merge_partial (m := exMem) exDecls ρ ex_ok exConst 10 1
  rw [ex_find] at h1
  injection h1 with h1
  exact h2 5 h1.symm

example : buffersEqual exMem (exHeap 2) (exHeap 1) = some false := by decide +kernel

/-! ## Counterexamples -/

/-- The constant 0 is `x5`, and `x3` is a crop of it. -/
def cxDecls : List Decl := [.const 5 0, .crop 3 5 0 1 1]
/-- A slice. -/
def cxDecls2 : List Decl := [.const 5 0, .slice 3 5 0 1]

/-- C66 cannot be proved of the code: what is known of a crop of a constant is that it is the constant. So an equal constant (or the same constant) that is declared in
the crop is replaced by the crop, if the symbol of the crop is before that of the constant. The same is so for a slice whose index is not a constant. -/
theorem crop_counterexample (ρ : Nat → Buf) :
    findParent exMem exHeap (cxDecls.foldl track fun _ => none) 1 10 0 = some (some 3) ∧
    (cxDecls.foldl (declare exHeap) ρ 3).dims = [⟨1, 1, 1, -1⟩, ⟨5, 6, 4, -1⟩] ∧ ¬ SameConst exMem (cxDecls.foldl (declare exHeap) ρ 3) (exHeap 1) ∧
    findParent exMem exHeap (cxDecls2.foldl track fun _ => none) 1 10 0 = some (some 3) ∧
    (cxDecls2.foldl (declare exHeap) ρ 3).dims = [⟨5, 6, 4, -1⟩] ∧ ¬ SameConst exMem (cxDecls2.foldl (declare exHeap) ρ 3) (exHeap 1) := by
  have e1 : cxDecls.foldl (declare exHeap) ρ 3 = (exHeap 0).crop 0 1 1 := by simp [cxDecls, declare, Function.update]
  have e2 : cxDecls2.foldl (declare exHeap) ρ 3 = (exHeap 0).slice 0 1 := by simp [cxDecls2, declare, Function.update]
  have d1 : ((exHeap 0).crop 0 1 1).dims = [⟨1, 1, 1, -1⟩, ⟨5, 6, 4, -1⟩] := by decide +kernel
  have d2 : ((exHeap 0).slice 0 1).dims = [⟨5, 6, 4, -1⟩] := by decide +kernel
  rw [e1, e2]
  refine ⟨by decide +kernel, d1, fun h => ?_, by decide +kernel, d2, fun h => ?_⟩
  · have := h.dims
    rw [d1] at this
    revert this; decide
  · have := h.dims
    rw [d2] at this
    revert this; decide

/-- C66 cannot be proved of the code: the constant of a slice out of bounds has no memory, and comparing it with a constant of the same dimensions reads a null pointer. -/
theorem null_counterexample :
    (FS.foldSlice 900 ⟨some 400, 1, exRows ++ [⟨0, 1, 8, -1⟩]⟩ [.undef, .undef, .const 7] exMem).map (fun r => r.map (·.1)) = some (some ⟨none, 1, exRows⟩) ∧
    buffersEqual exMem (exHeap 0) ⟨none, 1, exRows⟩ = none ∧ buffersEqual exMem ⟨none, 1, exRows⟩ (exHeap 0) = none := by decide +kernel

/-- Two dimensions with the stride of an element. -/
def cxTwo : List Dim := [⟨0, 1, 1, -1⟩, ⟨0, 1, 1, -1⟩]

/-- C66 cannot be proved of the code: two constants with the same value are not found to be equal, if two dimensions have the stride of an element: bytes after the constants are compared. -/
theorem two_slices_counterexample : buffersEqual exMem ⟨some 100, 1, cxTwo⟩ ⟨some 200, 1, cxTwo⟩ = some false ∧
    SameConst exMem ⟨some 100, 1, cxTwo⟩ ⟨some 200, 1, cxTwo⟩ := by
  refine ⟨by decide +kernel, rfl, rfl, fun is h => ?_⟩
  match is, h with
  | [i, j], h =>
    obtain ⟨⟨a1, a2⟩, ⟨a3, a4⟩, -⟩ := h
    refine ⟨_, _, rfl, rfl, fun k hk => ?_⟩
    simp only at a1 a2 a3 a4 hk
    obtain rfl : k = 0 := by omega
    have hi : i = 0 ∨ i = 1 := by omega
    have hj : j = 0 ∨ j = 1 := by omega
    rcases hi with rfl | rfl <;> rcases hj with rfl | rfl <;> decide +kernel

end Slinky.CM
