import Verif.ViewsTrans
import Verif.DeshadowEx

/-!
# C59: views of views. Examples and counterexamples
-/

namespace Slinky.VW

open Slinky

/-! ## Crops of crops

`x1` is `x0` with dimension 0 cropped to [12, 18], and `x2` is `x1` cropped to [.., 16] and [2, 7]. -/

/-- The buffer. -/
def exB : Buf := ⟨some 1000, 4, [⟨10, 20, 4, -1⟩, ⟨0, 9, 44, -1⟩]⟩
/-- Its first crop. -/
def exB1 : Buf := ⟨some 1008, 4, [⟨12, 18, 4, -1⟩, ⟨0, 9, 44, -1⟩]⟩
/-- Its second crop. -/
def exB2 : Buf := ⟨some 1096, 4, [⟨12, 16, 4, -1⟩, ⟨2, 7, 44, -1⟩]⟩
/-- The first crop. -/
def exC1 : CropDecl := .dim 0 0 (.bounds (.const 12) (.const 18))
/-- The second crop. -/
def exC2 : CropDecl := .buffer 1 [.bounds .undef (.const 16), .bounds (.const 2) (.const 7)]
/-- The declarations. -/
def exDecl : Nat → Option CropDecl := fun x => if x = 1 then some exC1 else if x = 2 then some exC2 else none
/-- The buffers. -/
def exEnv : SEnv := fun x => if x = 0 then .buf exB else if x = 1 then .buf exB1 else if x = 2 then .buf exB2 else .undef

theorem solid_of {b : Buf} (h : ∀ D ∈ b.dims, D.min ≤ D.max) : Solid b := fun _ d hd => by
  have := dim_eq b d hd
  exact h _ (List.mem_of_getElem? this)

theorem ex_declared : Declared dsW [] exEnv exDecl := by
  intro x c h
  unfold exDecl at h
  split at h
  · rename_i hx; subst hx
    obtain rfl := Option.some.inj h
    exact ⟨exB, exB1, rfl, rfl, solid_of (by decide), by decide +kernel, by decide⟩
  · split at h
    · rename_i hx; subst hx
      obtain rfl := Option.some.inj h
      exact ⟨exB1, exB2, rfl, rfl, solid_of (by decide), by decide +kernel, by decide⟩
    · cases h

/-- The third crop: `x2` to `[buffer_min(x2, 0) + 1, buffer_max(x2, 0) - 1]`. -/
def exC3 : CropDecl := .dim 2 0 (.bounds (.bin .add (.var 2 .min 0) (.const 1)) (.bin .sub (.var 2 .max 0) (.const 1)))

theorem const_ok {w : World} {l : List Ev} {ρ : SEnv} {decl : Nat → Option CropDecl} (c : Int) : ExprOK w l ρ decl (.const c) := ⟨trivial, fun _ => trivial⟩

theorem ex_decl_ok : ∀ x c, exDecl x = some c → ∀ i ∈ c.box, IvOK dsW [] exEnv exDecl i := by
  intro x c h i hi
  unfold exDecl at h
  split at h
  · obtain rfl := Option.some.inj h
    simp only [exC1, CropDecl.box, List.replicate_zero, List.nil_append, List.mem_singleton] at hi
    subst hi
    exact ⟨(fun h => by cases h), const_ok _, const_ok _⟩
  · split at h
    · obtain rfl := Option.some.inj h
      simp only [exC2, CropDecl.box, List.mem_cons, List.not_mem_nil, or_false] at hi
      rcases hi with rfl | rfl
      · exact ⟨(fun h => by cases h), undef_ok, const_ok _⟩
      · exact ⟨(fun h => by cases h), const_ok _, const_ok _⟩
    · cases h

theorem ex_exact : Exact dsW [] exEnv 2 exC2 0 := by
  intro b i hb hi
  simp only [exC2, CropDecl.box, List.getElem?_cons_zero, Option.some.injEq] at hi
  subst hi
  obtain rfl : b = exB2 := (Option.some.inj hb).symm
  exact ⟨(fun h => by cases h), fun _ => rfl⟩

theorem ex_crop_ok : ∀ i ∈ exC3.box, IvOK dsW [] exEnv exDecl i := by
  intro i hi
  simp only [exC3, CropDecl.box, List.replicate_zero, List.nil_append, List.mem_singleton] at hi
  subst hi
  have hF : ∀ f, f = Field.min ∨ f = Field.max → ExprOK dsW [] exEnv exDecl (.var 2 f 0) := by
    intro f hf
    refine ⟨plain_var _ _ _, ?_⟩
    rintro _ rfl _ c hc
    obtain rfl : c = exC2 := (Option.some.inj hc).symm
    exact Or.inr (Or.inr ⟨le_refl _, Or.inr (Or.inr ⟨hf, ex_exact⟩)⟩)
  refine ⟨(fun h => by cases h), ?_, ?_⟩
  · exact ⟨⟨(hF .min (by simp)).1, trivial⟩, fun x => ⟨(hF .min (by simp)).2 x, trivial⟩⟩
  · exact ⟨⟨(hF .max (by simp)).1, trivial⟩, fun x => ⟨(hF .max (by simp)).2 x, trivial⟩⟩

/-- The third crop is the crop of `x0` to
`[max(12, buffer_min(x2, 0) + 1), min(18, min(16, 16 - 1))]` and `[2, 7]`. -/
theorem ex_merge : mergeCrops exDecl 5 2 exC3.box = some (0,
    [⟨.bin .max (.bin .add (.var 2 .min 0) (.const 1)) (.const 12), .bin .min (.bin .min (.bin .sub (.const 16) (.const 1)) (.const 16)) (.const 18), false⟩,
     ⟨.const 2, .const 7, false⟩]) := by decide +kernel

/-- The hypotheses of `crop_of_crop_partial` are true for it, and both crops are to [13, 15] and [2, 7]. -/
example : exEnv.buf? exC3.src = some exB2 ∧ Solid exB2 ∧ exC3.box.length ≤ exB2.rank ∧
    exC3.head.val dsW [] exEnv 3 = some (some ⟨some 1100, 4, [⟨13, 15, 4, -1⟩, ⟨2, 7, 44, -1⟩]⟩) ∧
    ((mergeCrops exDecl 5 2 exC3.box).bind fun m => (makeCrop m.1 m.2).bind fun h => h.val dsW [] exEnv 3) =
      some (some ⟨some 1100, 4, [⟨13, 15, 4, -1⟩, ⟨2, 7, 44, -1⟩]⟩) :=
  ⟨rfl, solid_of (by decide), by decide, by decide +kernel, by decide +kernel⟩

/-- A crop with bounds of one dimension becomes `crop_dim`, of two dimensions `crop_buffer`, of none nothing. -/
theorem ex_makeCrop : makeCrop 0 [.unbounded, .bounds (.const 1) .undef, .unbounded] = some (.cropDim 0 1 (.bounds (.const 1) .undef)) ∧
    makeCrop 0 [.bounds .undef (.const 3), .bounds (.const 1) .undef, .unbounded] =
      some (.cropBuffer 0 [.bounds .undef (.const 3), .bounds (.const 1) .undef]) ∧
    makeCrop 0 [.unbounded, .unbounded] = none := ⟨rfl, rfl, rfl⟩

/-! ## Slices of crops -/

/-- A prover that proves what is true. -/
def exProve : Expr → Bool := fun e => match evalI dsW [] exEnv e with
  | some v => decide (v ≠ 0)
  | none => false

theorem exProve_sound : ∀ e u, exProve e = true → evalI dsW [] exEnv e = some u → u ≠ 0 := by
  intro e u h hu
  simpa [exProve, hu] using h

theorem evalI_undef_right {op : BinOp} {a : Expr} : evalI dsW [] exEnv (mkBin op a .undef) = none := by
  unfold evalI
  rw [evalS_mkBin]
  simp only [evalS, Option.bind_none]
  cases (evalS dsW [] exEnv a).bind Val.int? <;> rfl

theorem evalI_undef_left {op : BinOp} {a : Expr} : evalI dsW [] exEnv (mkBin op .undef a) = none := by
  unfold evalI
  rw [evalS_mkBin]
  simp only [evalS, Option.bind_none]

theorem exProve_undef : ∀ i : Interval, exProve (i.contains .undef) = true → i.min.defined = false ∧ i.max.defined = false := by
  intro i h
  unfold Interval.contains at h
  split at h
  · have : evalI dsW [] exEnv (mkBin .and (mkBin .le i.min .undef) (mkBin .le .undef i.max)) = none := by
      have h1 := evalI_undef_right (op := .le) (a := i.min)
      unfold evalI at h1 ⊢
      rw [evalS_mkBin]
      simp only [evalS, h1, Option.bind_none]
    simp [exProve, this] at h
  · split at h
    · simp [exProve, evalI_undef_right] at h
    · split at h
      · simp [exProve, evalI_undef_left] at h
      · rename_i h1 h2
        exact ⟨by simpa using h1, by simpa using h2⟩

/-- `x2` is sliced at [14, 3]. -/
def exS : SliceDecl := .buffer 2 [.const 14, .const 3]

/-- The slice is of `x0`, since the indices are in both crops. -/
theorem ex_sliceSrc : sliceSrc exProve exDecl exS.indices 5 2 = 0 ∧ sliceSrc exProve exDecl [.const 17, .const 3] 5 2 = 2 ∧
    sliceSrc exProve exDecl [.const 14] 5 2 = 2 ∧ sliceSrc exProve exDecl [.const 14] 5 1 = 0 := by decide +kernel

/-- The hypotheses of `slice_of_crop_partial` are true for it. -/
example : (∀ x c, exDecl x = some c → ∀ i ∈ c.box, i.WF) ∧ IndicesOK dsW [] exEnv exS.indices ∧
    (∀ x b, exEnv.buf? x = some b → InBroadcasts dsW [] exEnv exS.indices b) ∧
    exS.head.val dsW [] exEnv 3 = some (some ⟨some 1148, 4, []⟩) ∧
    (makeSlice (sliceSrc exProve exDecl exS.indices 5 2) (sliceAt (some 2) (fun _ => false) exS.indices)).bind (fun h => h.val dsW [] exEnv 3) =
      some (some ⟨some 1148, 4, []⟩) := by
  refine ⟨fun x c h i hi => (ex_decl_ok x c h i hi).1, ?_, ?_, by decide +kernel, by decide +kernel⟩
  · intro e he _
    simp only [exS, SliceDecl.indices, List.mem_cons, List.not_mem_nil, or_false] at he
    rcases he with rfl | rfl
    · exact ⟨14, rfl⟩
    · exact ⟨3, rfl⟩
  · intro x b hb d e v _ _ hd
    left
    have key : ∀ b' : Buf, (∀ D ∈ b'.dims, D.stride ≠ 0) → d < b'.rank → (b'.dim d).stride ≠ 0 := fun b' h hd => h _ (List.mem_of_getElem? (dim_eq b' d hd))
    unfold exEnv SEnv.buf? at hb
    dsimp only at hb
    split at hb
    · obtain rfl := Option.some.inj hb; exact key _ (by decide) hd
    · split at hb
      · obtain rfl := Option.some.inj hb; exact key _ (by decide) hd
      · split at hb
        · obtain rfl := Option.some.inj hb; exact key _ (by decide) hd
        · cases hb

/-- A slice with one index becomes `slice_dim`, with two `slice_buffer`, with none nothing; indices beyond the rank and of broadcasts are dropped. -/
theorem ex_makeSlice : makeSlice 0 [.undef, .const 1, .undef] = some (.sliceDim 0 1 (.const 1)) ∧
    makeSlice 0 [.const 2, .const 1, .undef] = some (.sliceBuffer 0 [.const 2, .const 1]) ∧ makeSlice 0 [.undef] = none ∧
    sliceAt (some 2) (fun d => d == 0) [.const 1, .const 2, .const 3] = [.undef, .const 2] ∧
    sliceAt none (fun d => d == 2) [.const 1, .const 2, .const 3] = [.const 1, .const 2, .undef] := ⟨rfl, rfl, rfl, rfl, rfl⟩

/-! ## Transposes of transposes -/

/-- The declaration of a transpose. -/
def exT : Nat → Option (Nat × List Nat) := fun x => if x = 4 then some (0, [1, 0]) else if x = 5 then some (4, [1]) else none
/-- The buffers. -/
def exEnvT : SEnv := fun x => if x = 0 then .buf exB else if x = 4 then .buf ⟨some 1000, 4, [⟨0, 9, 44, -1⟩, ⟨10, 20, 4, -1⟩]⟩ else
  if x = 5 then .buf ⟨some 1000, 4, [⟨10, 20, 4, -1⟩]⟩ else .undef

theorem ex_declaredT : DeclaredT 100 exEnvT exT := by
  intro x src t h
  unfold exT at h
  split at h
  · rename_i hx; subst hx
    obtain ⟨rfl, rfl⟩ := Prod.mk.inj (Option.some.inj h)
    exact ⟨exB, rfl, by decide, rfl⟩
  · split at h
    · rename_i hx; subst hx
      obtain ⟨rfl, rfl⟩ := Prod.mk.inj (Option.some.inj h)
      exact ⟨⟨some 1000, 4, [⟨0, 9, 44, -1⟩, ⟨10, 20, 4, -1⟩]⟩, rfl, by decide, rfl⟩
    · cases h

/-- A chain of transposes; the second dimension of `x5` does not exist. -/
theorem ex_transpose : mergeTranspose 100 exT 5 5 [0, 1] = (0, [0, 100]) ∧ popRank (some 2) [0, 100] = [0] ∧ noopTranspose (some 2) [0] = false ∧
    noopTranspose (some 2) [0, 1] = true ∧ noopTranspose (some 2) [1, 0] = false ∧ noopTranspose none [0, 1] = false ∧
    popRank (some 2) [0, 3, 1] = [0, 3, 1] ∧ popRank none [0, 3] = [0, 3] := by decide +kernel

/-- The hypotheses of `transpose_of_transpose_partial` are true for it. -/
example : (∀ x b, exEnvT.buf? x = some b → trimRank b.dims = b.rank) ∧
    (Head.transpose 5 [0, 1]).val dsW [] exEnvT 6 = some (some ⟨some 1000, 4, [⟨10, 20, 4, -1⟩]⟩) ∧
    (Head.transpose 0 [0]).val dsW [] exEnvT 6 = some (some ⟨some 1000, 4, [⟨10, 20, 4, -1⟩]⟩) := by
  refine ⟨fun x b hb => ?_, rfl, rfl⟩
  unfold exEnvT SEnv.buf? at hb
  dsimp only at hb
  split at hb
  · obtain rfl := Option.some.inj hb; rfl
  · split at hb
    · obtain rfl := Option.some.inj hb; rfl
    · split at hb
      · obtain rfl := Option.some.inj hb; rfl
      · cases hb

/-! ## Counterexamples -/

/-- `x1` is the crop of `x0` to [0, 15]: its bounds are [10, 15]. -/
def badDecl : Nat → Option CropDecl := fun x => if x = 1 then some (.dim 0 0 (.bounds (.const 0) (.const 15))) else none
/-- The buffers. -/
def badEnv : SEnv := fun x => if x = 0 then .buf ⟨some 1000, 4, [⟨10, 20, 4, -1⟩]⟩ else if x = 1 then .buf ⟨some 1000, 4, [⟨10, 15, 4, -1⟩]⟩ else .undef

/-- C59, counterexample: the bounds of the first crop are taken for those of the cropped buffer, but the crop goes beyond the buffer. `x1` cropped to
`[buffer_min(x1, 0) + 2, ..]` is [12, 15]; the simplifier makes it a crop of `x0` to `[max(0, 0 + 2), 15]`, which is [10, 15]. -/
theorem crop_beyond_counterexample : Declared dsW [] badEnv badDecl ∧
    (Head.cropDim 1 0 (.bounds (.bin .add (.var 1 .min 0) (.const 2)) .undef)).val dsW [] badEnv 2 = some (some ⟨some 1008, 4, [⟨12, 15, 4, -1⟩]⟩) ∧
    ((mergeCrops badDecl 5 1 [.bounds (.bin .add (.var 1 .min 0) (.const 2)) .undef]).bind fun m => (makeCrop m.1 m.2).bind fun h => h.val dsW [] badEnv 2) =
      some (some ⟨some 1000, 4, [⟨10, 15, 4, -1⟩]⟩) := by
  refine ⟨?_, by decide +kernel, by decide +kernel⟩
  intro x c h
  unfold badDecl at h
  split at h
  · rename_i hx; subst hx
    obtain rfl := Option.some.inj h
    exact ⟨⟨some 1000, 4, [⟨10, 20, 4, -1⟩]⟩, ⟨some 1000, 4, [⟨10, 15, 4, -1⟩]⟩, rfl, rfl, solid_of (by decide), by decide +kernel, by decide⟩
  · cases h

/-- `x1` is the crop to [10, 20] of a dimension [0, 5] of `x0` whose stride is 0: it has no elements. -/
def nullDecl : Nat → Option CropDecl := fun x => if x = 1 then some (.dim 0 0 (.bounds (.const 10) (.const 20))) else none
/-- The buffers. -/
def nullEnv : SEnv := fun x => if x = 0 then .buf ⟨some 1000, 4, [⟨0, 5, 0, -1⟩]⟩ else if x = 1 then .buf ⟨none, 4, [⟨10, 5, 0, -1⟩]⟩ else .undef

/-- C59, counterexample: the slice at 15 of the empty crop has no memory, but 15 is in [10, 20], so it becomes the slice of `x0`, which has. -/
theorem slice_empty_crop_counterexample : Declared dsW [] nullEnv nullDecl ∧
    (Head.sliceDim 1 0 (.const 15)).val dsW [] nullEnv 2 = some (some ⟨none, 4, []⟩) ∧
    sliceSrc (fun e => evalI dsW [] nullEnv e = some 1) nullDecl [.const 15] 5 1 = 0 ∧
    (Head.sliceDim 0 0 (.const 15)).val dsW [] nullEnv 2 = some (some ⟨some 1000, 4, []⟩) := by
  refine ⟨?_, by decide +kernel, by decide +kernel, by decide +kernel⟩
  intro x c h
  unfold nullDecl at h
  split at h
  · rename_i hx; subst hx
    obtain rfl := Option.some.inj h
    exact ⟨⟨some 1000, 4, [⟨0, 5, 0, -1⟩]⟩, ⟨none, 4, [⟨10, 5, 0, -1⟩]⟩, rfl, rfl, solid_of (by decide), by decide +kernel, by decide⟩
  · cases h

/-- C59, counterexample: the index of a dimension known to be a broadcast is dropped, but then the dimension is still there. The slice of a 2-d buffer, whose
dimension 0 is a broadcast, at [3] has one dimension; the simplifier removes the slice. -/
theorem slice_broadcast_counterexample (ρ : SEnv) (h : ρ.buf? 0 = some ⟨some 1000, 4, [⟨0, 0, 0, -1⟩, ⟨0, 9, 4, -1⟩]⟩) :
    (Head.sliceDim 0 0 (.const 3)).val dsW [] ρ 1 = some (some ⟨some 1000, 4, [⟨0, 9, 4, -1⟩]⟩) ∧
    makeSlice 0 (sliceAt (some 2) (fun d => d == 0) [.const 3]) = none := by
  refine ⟨?_, rfl⟩
  simp only [Head.val, h, Option.bind_some]
  rfl

/-- C59, counterexample: a transpose with all dimensions in order is taken for one that does nothing, but it removes a broadcast at the end. -/
theorem transpose_noop_counterexample : noopTranspose (some 2) [0, 1] = true ∧
    Buf.transpose [0, 1] ⟨some 1000, 4, [⟨0, 9, 4, -1⟩, ⟨0, 0, 0, -1⟩]⟩ = ⟨some 1000, 4, [⟨0, 9, 4, -1⟩]⟩ := by decide

/-- C59, counterexample: a transpose of a transpose can change the fold factor of a broadcast. -/
theorem transpose_fold_counterexample :
    Buf.transpose [1, 0] (Buf.transpose [0, 1] ⟨some 1000, 4, [⟨0, 9, 4, -1⟩, ⟨0, 0, 0, -1⟩]⟩) = ⟨some 1000, 4, [⟨0, 0, 0, 0⟩, ⟨0, 9, 4, -1⟩]⟩ ∧
    Buf.transpose (permute 100 [1, 0] [0, 1]) ⟨some 1000, 4, [⟨0, 9, 4, -1⟩, ⟨0, 0, 0, -1⟩]⟩ = ⟨some 1000, 4, [⟨0, 0, 0, -1⟩, ⟨0, 9, 4, -1⟩]⟩ := by decide

end Slinky.VW
