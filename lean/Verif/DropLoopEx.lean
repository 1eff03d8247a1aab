import Verif.DropLoopMain
import Verif.SimplifierApi
import Verif.ImplementCopyEx

/-! # C55: examples and counterexamples -/

namespace Slinky.DL

/-! ### The metadata of the buffers of an environment -/

theorem bufferAt_none : ∀ (ds : List Dim) (xs : List (Option Int)), bufferAt none ds xs = none
  | [], _ => by simp [bufferAt]
  | _ :: _, [] => by simp [bufferAt]
  | _ :: ds, none :: xs => by simp only [bufferAt]; exact bufferAt_none ds xs
  | _ :: ds, some _ :: xs => by simp only [bufferAt]; exact bufferAt_none ds xs

theorem bufferAt_index (x : Int) : ∀ (ds : List Dim) (r : Option Int) (xs ys : List (Option Int)),
    (∀ d, ds[xs.length]? = some d → d.contains x = true ∧ d.flatOffset x = 0) → bufferAt r ds (xs ++ some x :: ys) = bufferAt r ds (xs ++ none :: ys)
  | [], _, xs, ys, _ => by cases xs <;> simp [bufferAt]
  | d :: ds, r, [], ys, h => by
    obtain ⟨h1, h2⟩ := h d (by simp)
    cases r <;> simp [bufferAt, h1, h2]
  | d :: ds, r, none :: xs, ys, h => by
    simp only [List.cons_append, bufferAt]
    exact bufferAt_index x ds r xs ys (fun d hd => h d (by simpa using hd))
  | d :: ds, r, some z :: xs, ys, h => by
    simp only [List.cons_append, bufferAt]
    exact bufferAt_index x ds _ xs ys (fun d hd => h d (by simpa using hd))

theorem bufferAt_trail : ∀ (ds : List Dim) (r : Option Int) (xs : List (Option Int)), bufferAt r ds (xs ++ [none]) = bufferAt r ds xs
  | [], _, xs => by cases xs <;> simp [bufferAt]
  | d :: ds, r, [] => by cases ds <;> simp [bufferAt]
  | d :: ds, r, none :: xs => by simp only [List.cons_append, bufferAt]; exact bufferAt_trail ds r xs
  | d :: ds, r, some z :: xs => by simp only [List.cons_append, bufferAt]; exact bufferAt_trail ds _ xs

theorem bufferAt_rank : ∀ (ds : List Dim) (r : Option Int) (xs ys : List (Option Int)), xs.length = ds.length → bufferAt r ds (xs ++ ys) = bufferAt r ds xs
  | [], _, xs, ys, h => by
    have : xs = [] := List.length_eq_zero_iff.1 h
    subst this; cases ys <;> simp [bufferAt]
  | d :: ds, r, [], ys, h => by simp at h
  | d :: ds, r, none :: xs, ys, h => by
    simp only [List.cons_append, bufferAt]; exact bufferAt_rank ds r xs ys (by simpa using h)
  | d :: ds, r, some z :: xs, ys, h => by
    simp only [List.cons_append, bufferAt]; exact bufferAt_rank ds _ xs ys (by simpa using h)

theorem ofBuf_buf' (b : Buf) : (Obj.ofBuf b).buf = b := by simp [Obj.ofBuf, Obj.buf]

theorem ofBuf_dim (b : Buf) {k : Nat} {d : Dim} (h : b.dims[k]? = some d) : (Obj.ofBuf b).buf.dim k = d := by
  rw [ofBuf_buf']
  simp [Buf.dim, h]

/-- The hypothesis about the memory is true for environments whose buffers are not empty nor folded. -/
theorem memS_ok (host : Fn → List (Option Int) → Int) {ρ : SEnv} (h : ∀ x b, ρ x = .buf b → 0 ≤ b.elem ∧ ∀ d ∈ b.dims, d.MinIsDefault) : BufMem (memS host ρ) where
  min p xs ys := by
    cases hp : ρ p.toNat with
    | buf b =>
      simp only [memS, hp]
      rw [bufferAt_index]
      intro d hd
      have hm := (h _ _ hp).2 d (List.mem_of_getElem? hd)
      have e : (Obj.ofBuf b).field .min (xs.length : Int) = d.min := by simp [Obj.field, ofBuf_dim b hd]
      rw [e]
      rcases hm with hp | ⟨hp, hle⟩
      · simp [Dim.contains, Dim.containsI, Dim.flatOffset, hp]
      · simp [Dim.contains, Dim.containsI, Dim.flatOffset, hp, hle]
    | _ => simp [memS, hp]
  trail p xs := by
    cases hp : ρ p.toNat with
    | buf b => simp only [memS, hp, bufferAt_trail]
    | _ => simp [memS, hp]
  rank_nonneg p d := by
    cases hp : ρ p.toNat with
    | buf b => simp [memS, hp, Obj.field, Obj.ofBuf]
    | _ => simp [memS, hp]
  rank_dim p d d' := by
    cases hp : ρ p.toNat with
    | buf b => simp [memS, hp, Obj.field, Obj.ofBuf]
    | _ => simp [memS, hp]
  elem_nonneg p d := by
    cases hp : ρ p.toNat with
    | buf b => simpa [memS, hp, Obj.field, Obj.ofBuf] using (h _ _ hp).1
    | _ => simp [memS, hp]
  elem_dim p d d' := by
    cases hp : ρ p.toNat with
    | buf b => simp [memS, hp, Obj.field, Obj.ofBuf]
    | _ => simp [memS, hp]
  beyond p f d hf hr := by
    cases hp : ρ p.toNat with
    | buf b =>
      simp only [memS, hp] at hr ⊢
      have hr : (b.dims.length : Int) ≤ d := by simpa [Obj.field, Obj.ofBuf] using hr
      have : (Obj.ofBuf b).buf.dim d.toNat = Dim.broadcast := by
        rw [ofBuf_buf']
        have h0 : b.dims[d.toNat]? = none := List.getElem?_eq_none (by omega)
        simp [Buf.dim, h0]
      cases f <;> simp [Field.ofDim] at hf <;> simp [Obj.field, this, Dim.broadcast]
    | _ => simp [memS, hp]
  atRank p xs ys hr := by
    cases hp : ρ p.toNat with
    | buf b =>
      simp only [memS, hp] at hr ⊢
      rw [bufferAt_rank]
      simpa [Obj.field, Obj.ofBuf] using hr
    | _ => simp [memS, hp]
  atBcast p xs x ys hr := by
    cases hp : ρ p.toNat with
    | buf b =>
      simp only [memS, hp] at hr ⊢
      rw [bufferAt_index]
      intro d hd
      have : d.stride = 0 := by simpa [Obj.field, ofBuf_dim b hd] using hr
      simp [Dim.contains, Dim.containsI, Dim.flatOffset, this]
    | _ => simp [memS, hp]

/-! ### An example

`loop(x in [0, 8] step 2) { crop_dim(3, 0, 0, [x, x + 3]) { crop_dim(4, 1, 0, [x, x + 1]) { call } } }` becomes one call on the crops [0, 11] and
[0, 9]. -/

/-- The functions of the world. -/
def dlHost : Fn → List (Option Int) → Int := fun _ _ => 0
/-- The buffer 0. -/
def dlA : Buf := ⟨some 1000, 4, [⟨0, 20, 4, -1⟩, ⟨0, 20, 84, -1⟩]⟩
/-- The buffer 1. -/
def dlB : Buf := ⟨some 4000, 4, [⟨0, 20, 4, -1⟩, ⟨0, 20, 84, -1⟩]⟩
/-- The environment. -/
def dlEnv : SEnv := fun y => if y = 0 then .buf dlA else if y = 1 then .buf dlB else .undef
/-- The simplifier of the examples. -/
def dlCfg : SimpCfg := safeCfg (memS dlHost dlEnv).call
/-- See `dlCfg`. -/
def dlRec : Rec := mutateN dlCfg 8
/-- `x + c` -/
def plus (c : Int) : Expr := .bin .add (.v 5) (.const c)
/-- The body of the loop. -/
def dlBody : Stmt := .cropDim 3 0 0 (.bounds (.v 5) (plus 3)) (.cropDim 4 1 0 (.bounds (.v 5) (plus 1)) (.call 7 [3] [4] [.const 6]))
/-- The bounds of the loop. -/
def dlBounds : Interval := .bounds (.const 0) (.const 8)
/-- A world where the call fails if `bad` is true of its output or its scalars. -/
def badW (bad : Buf → List Int → Bool) : World := { dsW with call := fun _ _ os xs _ => if os.any (bad · xs) then 1 else 0 }

theorem dlMem_ok : BufMem (memS dlHost dlEnv) := memS_ok _ fun x b h => by
  unfold dlEnv at h
  split at h
  · cases h; simp [dlA, Dim.MinIsDefault, Dim.unfolded]
  · split at h
    · cases h; simp [dlB, Dim.MinIsDefault, Dim.unfolded]
    · cases h

theorem dlCfg_ok (env : Env) : SimpCfgOK dlCfg (memS dlHost dlEnv) env := safeCfg_ok _ env dlMem_ok.toBufferAtMin

theorem dlRange : dlEnv.InRange64 := by
  intro x
  unfold dlEnv
  by_cases h0 : x = 0
  · simp only [h0, if_true]; exact inRange64_of (by decide +kernel) (by decide +kernel)
  · by_cases h1 : x = 1
    · simp only [h1, if_true, if_neg (by decide : ¬ (1 = 0))]; exact inRange64_of (by decide +kernel) (by decide +kernel)
    · simp [h0, h1]

theorem dlWhole : (peel dlBody).1.map (whole dlRec .empty 5 dlBounds) =
    [⟨3, 0, 0, ⟨.const 0, .const 11, false⟩⟩, ⟨4, 1, 0, ⟨.const 0, .const 9, false⟩⟩] := by
  have h1 : wholeIv dlRec .empty 5 dlBounds (.bounds (.v 5) (plus 3)) = ⟨.const 0, .const 11, false⟩ := by decide +kernel
  have h2 : wholeIv dlRec .empty 5 dlBounds (.bounds (.v 5) (plus 1)) = ⟨.const 0, .const 9, false⟩ := by decide +kernel
  simp [dlBody, peel, whole, h1, h2]

/-- The loop is replaced by one call on the whole bounds. -/
theorem dl_result : lastStep dlCfg dlRec .empty 5 (.const 1) dlBounds (.const 2) dlBody =
    .loop 5 (.const 1) ⟨.bin .lt (.const 8) (.const 0), .const 0, false⟩ (.const 1)
      (.cropDim 3 0 0 ⟨.const 0, .const 11, false⟩ (.cropDim 4 1 0 ⟨.const 0, .const 9, false⟩ (.call 7 [3] [4] [.const 6]))) := by
  have h1 : proveTrueS dlCfg dlRec .empty (mkBin .eq (.const 1) (.const 1)) = true := by decide +kernel
  have h2 : (peel dlBody).1.all (contiguous dlCfg dlRec .empty 5 dlBounds (.const 2)) = true := by decide +kernel
  have h3 : (peel dlBody).2 = .call 7 [3] [4] [.const 6] := rfl
  have h4 : (peel dlBody).1.isEmpty = false := rfl
  unfold lastStep dropLoop
  rw [if_pos h1, h4, if_neg (by decide), if_pos h2, h3, dlWhole]
  rfl

theorem dlCond (bad : Buf → List Int → Bool) : Cond (badW bad) dlHost dlCfg dlRec .empty dlEnv 5 (.const 1) dlBounds (.const 2) (peel dlBody).1 [.const 6] where
  h_host := fun _ _ _ => rfl
  h_range := dlRange
  cfg_ok := dlCfg_ok
  sound := mutateN_sound dlMem_ok dlCfg_ok 8
  state := fun _ => .empty
  workers_ok := ⟨rfl, by simp [Expr.WF, InRange], by simp [FreeIn]⟩
  min_ok := ⟨rfl, by simp [dlBounds, Interval.bounds, Expr.WF, InRange], by simp [dlBounds, Interval.bounds, FreeIn]⟩
  max_ok := ⟨rfl, by simp [dlBounds, Interval.bounds, Expr.WF, InRange], by simp [dlBounds, Interval.bounds, FreeIn]⟩
  bounds_wf := fun h => by cases h
  step_ok := ⟨rfl, by simp [Expr.WF, InRange], by simp [FreeIn]⟩
  step_plain := trivial
  ivMin_ok := by simp [dlBody, peel, Interval.bounds, plus, Expr.v, Expr.ok, Expr.WF, Expr.Plain, InRange]
  ivMax_ok := by simp [dlBody, peel, Interval.bounds, plus, Expr.v, Expr.ok, Expr.WF, Expr.Plain, InRange]
  iv_wf := by simp [dlBody, peel, Interval.bounds, Interval.WF]
  wMin_ok := by
    have h : ∀ c ∈ (peel dlBody).1.map (whole dlRec .empty 5 dlBounds), c.iv.min = .undef ∨ c.iv.min.ok = true ∧ c.iv.min.WF ∧ ¬ FreeIn 5 c.iv.min := by
      rw [dlWhole]; simp [Expr.ok, Expr.WF, FreeIn, InRange]
    intro c hc
    exact h _ (List.mem_map_of_mem hc)
  wMax_ok := by
    have h : ∀ c ∈ (peel dlBody).1.map (whole dlRec .empty 5 dlBounds), c.iv.max = .undef ∨ c.iv.max.ok = true ∧ c.iv.max.WF ∧ ¬ FreeIn 5 c.iv.max := by
      rw [dlWhole]; simp [Expr.ok, Expr.WF, FreeIn, InRange]
    intro c hc
    exact h _ (List.mem_map_of_mem hc)
  apart := by simp [dlBody, peel, Apart, Interval.bounds, plus, Expr.v, FreeIn]
  wApart := by rw [dlWhole]; simp [Apart, FreeIn]
  sym_ne := by simp [dlBody, peel]
  dim_ok := by
    simp only [dlBody, peel, List.mem_cons, List.not_mem_nil, or_false, forall_eq_or_imp, forall_eq]
    exact ⟨fun b h => by cases h; decide, fun b h => by cases h; decide⟩
  scalars_ok := by simp [FreeIn]

/-- The simplifier proves the contiguity. -/
theorem dlOneWay : OneWay dlCfg dlRec .empty 5 dlBounds (.const 2) (peel dlBody).1 := by
  have h : (peel dlBody).1.all (fun c => proveTrueS dlCfg dlRec (inLoop .empty 5 dlBounds) (nextOK 5 (.const 2) c.iv)) = true := by decide +kernel
  exact fun c hc => .inl (List.all_eq_true.1 h c hc)

/-- The bounds are reached in the first and the last iteration. -/
theorem dlTight : Tight dlHost dlRec .empty dlEnv 5 dlBounds (.const 2) (peel dlBody).1 := by
  have h1 : wholeIv dlRec .empty 5 dlBounds (.bounds (.v 5) (plus 3)) = ⟨.const 0, .const 11, false⟩ := by decide +kernel
  have h2 : wholeIv dlRec .empty 5 dlBounds (.bounds (.v 5) (plus 1)) = ⟨.const 0, .const 9, false⟩ := by decide +kernel
  intro c hc b hb
  simp only [dlBody, peel, List.mem_cons, List.not_mem_nil, or_false] at hc
  rcases hc with rfl | rfl
  · cases hb
    simp only [wholeLo, wholeHi, h1]
    exact ⟨by decide +kernel, 4, by decide +kernel, by decide +kernel⟩
  · cases hb
    simp only [wholeLo, wholeHi, h2]
    exact ⟨by decide +kernel, 4, by decide +kernel, by decide +kernel⟩

/-- The theorem for the example, with the runs of both statements. -/
example : ∃ as as', runSeq (callW (badW fun _ _ => false) 7) as [] = some (0, List.replicate 5 (.call 7 0)) ∧ runSeq (callW (badW fun _ _ => false) 7) as' [] = some (0, [.call 7 0]) ∧
    (as = [] ∧ as' = [] ∨ as ≠ [] ∧ ∃ c, as' = [c] ∧ Each Covers as c ∧ Each NoMore as c) := by
  refine (drop_loop_exact_partial (dlCond fun _ _ => false) rfl (by decide) dlOneWay dlTight (by decide +kernel) (by rw [dl_result]; decide +kernel)).resolve_left ?_
  rw [dl_result]
  intro h
  cases h

/-! ### Counterexamples -/

/-- The index is in the bounds. -/
def has (i : List Int) (b : Buf) : Bool := b.dims.length == i.length && (b.dims.zip i).all fun p => p.1.min ≤ p.2 && p.2 ≤ p.1.max

/-- Why `Cond.scalars_ok`: a scalar argument of the call is the loop variable. The loop calls with 0 to 8; the loop that replaces it calls once, with
0. In a world where the call fails for 8, the loop fails and the simplified loop does not. -/
theorem drop_loop_scalar_counterexample : ∃ body : Stmt,
    sem (badW fun _ xs => xs == [8]) false (.loop 5 (.const 1) dlBounds (.const 1) body) dlEnv [] = some (1, .call 7 1 :: List.replicate 8 (.call 7 0)) ∧
    sem (badW fun _ xs => xs == [8]) false (lastStep dlCfg dlRec .empty 5 (.const 1) dlBounds (.const 1) body) dlEnv [] = some (0, [.call 7 0]) :=
  ⟨.cropDim 4 1 0 (.point (.v 5)) (.call 7 [] [4] [.v 5]), by decide +kernel, by decide +kernel⟩

/-- Why `Cond.apart` (the source of a crop): two dimensions of a buffer are cropped to the loop variable. The loop calls for the elements of the
diagonal; the loop that replaces it for all elements of the square. -/
theorem drop_loop_diagonal_counterexample : ∃ body : Stmt,
    sem (badW fun b _ => has [0, 1] b) false (.loop 5 (.const 1) dlBounds (.const 1) body) dlEnv [] = some (0, List.replicate 9 (.call 7 0)) ∧
    sem (badW fun b _ => has [0, 1] b) false (lastStep dlCfg dlRec .empty 5 (.const 1) dlBounds (.const 1) body) dlEnv [] = some (1, [.call 7 1]) :=
  ⟨.cropDim 3 1 0 (.point (.v 5)) (.cropDim 4 3 1 (.point (.v 5)) (.call 7 [] [4] [])), by decide +kernel, by decide +kernel⟩

/-- Why `Tight`: the last iteration is not at the max of the loop. The loop (of 0, 4, 8) calls for the indices up to 11, the loop that replaces it
for the indices up to 13. -/
theorem drop_loop_step_counterexample : ∃ body : Stmt,
    sem (badW fun b _ => has [12, 0] b) false (.loop 5 (.const 1) (.bounds (.const 0) (.const 10)) (.const 4) body) dlEnv [] = some (0, List.replicate 3 (.call 7 0)) ∧
    sem (badW fun b _ => has [12, 0] b) false (lastStep dlCfg dlRec .empty 5 (.const 1) (.bounds (.const 0) (.const 10)) (.const 4) body) dlEnv [] = some (1, [.call 7 1]) :=
  ⟨.cropDim 4 1 0 (.bounds (.v 5) (plus 3)) (.call 7 [] [4] []), by decide +kernel, by decide +kernel⟩

/-- Why `Cond.apart` (the bounds of a crop): the bounds of a crop use the min of a buffer that is cropped outside, so they are `2 * x`. The loop calls
for the index 16; the loop that replaces it only for the indices up to 8. (In a whole run of the simplifier, the crops have been simplified before, which may replace
the min by its value.) -/
theorem drop_loop_metadata_counterexample : ∃ body : Stmt,
    sem (badW fun b _ => has [16, 0] b) false (.loop 5 (.const 1) dlBounds (.const 1) body) dlEnv [] = some (1, .call 7 1 :: List.replicate 8 (.call 7 0)) ∧
    sem (badW fun b _ => has [16, 0] b) false (lastStep dlCfg dlRec .empty 5 (.const 1) dlBounds (.const 1) body) dlEnv [] = some (0, [.call 7 0]) :=
  ⟨.cropDim 3 0 0 (.point (.v 5)) (.cropDim 4 1 0 (.point (.bin .add (.v 5) (.var 3 .min 0))) (.call 7 [3] [4] [])), by decide +kernel, by decide +kernel⟩

/-- A loop `[y, min(y, z)]` has at most one iteration. If `z < y` it has none, and the body that replaces it calls. -/
theorem once_empty_counterexample : ∃ (bounds : Interval) (body : Stmt) (ρ : SEnv),
    proveTrueS dlCfg dlRec .empty (mkBin .lt bounds.max (mkBin .add bounds.min (.const 1))) = true ∧
    sem (badW fun _ _ => false) false (.loop 5 (.const 1) bounds (.const 1) body) ρ [] = some (0, []) ∧
    sem (badW fun _ _ => false) false body (ρ.set 5 (.int 3)) [] = some (0, [.call 7 0]) ∧ evalI dsW [] ρ bounds.min = some 3 :=
  ⟨.bounds (.v 8) (.bin .min (.v 8) (.v 9)), .call 7 [] [1] [], fun y => if y = 8 then .int 3 else if y = 9 then .int 2 else dlEnv y,
    by decide +kernel, by decide +kernel, by decide +kernel, by decide +kernel⟩

end Slinky.DL
