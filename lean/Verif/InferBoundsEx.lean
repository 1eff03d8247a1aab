import Verif.InferBoundsMain

/-! # C47: bounds inference: the checks that the simplifier drops, and examples -/

namespace Slinky

/-! ### The simplifier drops the checks of allocations -/

/-- What becomes of a check. -/
inductive CheckR where
  | dropped
  | abort
  | kept (c : Expr)

/-- simplify.cc:2452-2470 `visit(const check*)` -/
def simplifyCheck (cfg : SimpCfg) (n : Nat) (s : SState) (c0 : Expr) : CheckR :=
  let c := mutateBool cfg (mutateN cfg n) s c0
  if !c.1.defined then .dropped
  else
    match attemptI cfg c.2.bounds with
    | some true => .dropped
    | some false => .abort
    | none => .kept c.1

variable {cfg : SimpCfg}

theorem mutateN_undef (n : Nat) (s : SState) : (mutateN cfg n s .undef).1 = .undef := by
  cases n <;> rfl

theorem mutateBool_undef {rec : Rec} {s : SState} {e : Expr} (h : (rec s e).1 = .undef) : (mutateBool cfg rec s e).1 = .undef := by
  simp only [mutateBool, h]
  rfl

/-- A logical operation with an undefined operand is undefined. -/
theorem mutateN_logic_undef (n : Nat) (s : SState) {op : BinOp} (hop : op.isLogic = true) {a b : Expr}
    (h : (mutateN cfg n s a).1 = .undef ∨ (mutateN cfg n s b).1 = .undef) : (mutateN cfg (n + 1) s (.bin op a b)).1 = .undef := by
  have key : ∀ c, (visitLogical cfg (mutateN cfg n) s op c a b).1 = .undef := by
    intro c
    unfold visitLogical
    rcases h with h | h
    · have hb := mutateBool_undef (cfg := cfg) h
      cases c <;> simp [h, hb, Expr.defined]
    · have hb := mutateBool_undef (cfg := cfg) h
      cases c <;> simp [h, hb, Expr.defined]
  cases op <;> simp [BinOp.isLogic] at hop <;> exact key _

theorem mutateN_mkBin_undef (n : Nat) (s : SState) {op : BinOp} (hop : op.isLogic = true) {a b : Expr}
    (h : (mutateN cfg n s a).1 = .undef ∨ (mutateN cfg n s b).1 = .undef) : (mutateN cfg (n + 1) s (mkBin op a b)).1 = .undef := by
  unfold mkBin
  split
  · exact mutateN_logic_undef n s hop h.symm
  · exact mutateN_logic_undef n s hop h

/-- C47, counterexample: if the stride of a dimension is not known (it is undefined, unless the user sets it: `inferredDims_stride`), the simplifier removes the checks that the allocation contains
what is needed, whatever the bounds are. -/
theorem simplify_drops_allocChecks (n : Nat) (s : SState) {dims : List DimE} {bounds : List Interval} (hst : ∀ d ∈ dims, d.stride = .undef) {c : Expr}
    (hc : c ∈ allocChecks dims bounds) : simplifyCheck cfg (n + 3) s c = .dropped := by
  have key : ∀ (D : DimE) (e : Expr), D.stride = .undef → simplifyCheck cfg (n + 3) s (mkBin .or (isBroadcastE D) e) = .dropped := by
    intro D e hD
    have h1 : (mutateN cfg (n + 2) s (isBroadcastE D)).1 = .undef := by
      unfold isBroadcastE
      refine mutateN_mkBin_undef (n + 1) s rfl (Or.inr ?_)
      exact mutateN_mkBin_undef n s rfl (Or.inl (by rw [hD]; exact mutateN_undef n s))
    have h2 := mutateBool_undef (cfg := cfg) (mutateN_mkBin_undef (n + 2) s (op := .or) rfl (b := e) (Or.inl h1))
    simp [simplifyCheck, h2, Expr.defined]
  simp only [allocChecks, List.mem_flatMap, List.mem_cons, List.not_mem_nil, or_false] at hc
  obtain ⟨t, ht, h⟩ := hc
  have hs := hst t.1 (List.of_mem_zip ht).1
  rcases h with rfl | rfl <;> exact key _ _ hs

theorem substAll_undef : ∀ subs : List (Expr × Expr), (∀ s ∈ subs, s.1 ≠ .undef) → substAll subs .undef = .undef
  | [], _ => rfl
  | s :: subs, h => by
    have : substExpr s.1 s.2 .undef = .undef := by
      rw [substExpr, if_neg]
      intro hm
      exact h s (List.mem_cons_self ..) ((match_iff _ _).1 hm).symm
    rw [substAll, List.foldl_cons, this]
    exact substAll_undef subs fun t ht => h t (List.mem_cons_of_mem _ ht)

theorem substAll_var_hit {x : Nat} {f : Field} {d : Int} : ∀ subs : List (Expr × Expr), (∀ s ∈ subs, s.1 ≠ .undef) → (∀ s ∈ subs, s.1 = .var x f d → s.2 = .undef) →
    (∃ s ∈ subs, s.1 = .var x f d) → substAll subs (.var x f d) = .undef
  | [], _, _, h => by obtain ⟨s, hs, _⟩ := h; simp at hs
  | s :: subs, h1, h2, h3 => by
    by_cases he : s.1 = .var x f d
    · have : substExpr s.1 s.2 (.var x f d) = .undef := by
        rw [substExpr, if_pos, h2 s (List.mem_cons_self ..) he]
        exact (match_iff _ _).2 he.symm
      rw [substAll, List.foldl_cons, this]
      exact substAll_undef subs fun t ht => h1 t (List.mem_cons_of_mem _ ht)
    · rw [substAll, List.foldl_cons, substExpr_var_ne fun h => he h.symm]
      refine substAll_var_hit subs (fun t ht => h1 t (List.mem_cons_of_mem _ ht)) (fun t ht => h2 t (List.mem_cons_of_mem _ ht)) ?_
      obtain ⟨t, ht, h⟩ := h3
      rcases List.mem_cons.1 ht with rfl | ht
      · exact absurd h he
      · exact ⟨t, ht, h⟩

theorem substFromMap_stride (subs : List (Expr × Expr)) (d : DimE) : (substFromMap subs d).stride = substAll subs d.stride := by
  unfold substFromMap substAll
  induction subs generalizing d with
  | nil => rfl
  | cons s subs ih => rw [List.foldl_cons, List.foldl_cons, ih]

/-- The stride of the allocation is undefined, unless the user changed it. -/
theorem inferredDims_stride {b : Nat} {dims : List DimE} {bounds : List Interval} (hl : dims.length ≤ bounds.length)
    (hd : ∀ (d : Nat) (D : DimE), dims[d]? = some D → D.stride = .var b .stride d) : ∀ D ∈ inferredDims b dims bounds, D.stride = .undef := by
  intro D hD
  obtain ⟨D₀, hD₀, rfl⟩ := List.mem_map.1 hD
  obtain ⟨k, hk, hk'⟩ := List.mem_iff_getElem.1 hD₀
  rw [substFromMap_stride, hd k D₀ (by rw [List.getElem?_eq_getElem hk, hk'])]
  apply substAll_var_hit
  · intro s hs
    simp only [dimSubs, List.mem_append, List.mem_flatMap, List.mem_cons, List.not_mem_nil, or_false, List.mem_map] at hs
    rcases hs with ⟨t, _, rfl | rfl⟩ | ⟨t, _, rfl⟩ <;> simp
  · intro s hs he
    simp only [dimSubs, List.mem_append, List.mem_flatMap, List.mem_cons, List.not_mem_nil, or_false, List.mem_map] at hs
    rcases hs with ⟨t, _, rfl | rfl⟩ | ⟨t, _, rfl⟩ <;> simp at he ⊢
  · refine ⟨(.var b .stride k, .undef), ?_, rfl⟩
    simp only [dimSubs, List.mem_append, List.mem_map]
    right
    exact ⟨(bounds[k]'(by omega), k), List.mem_zipIdx_iff_getElem?.2 (by simp), rfl⟩

/-! ### An example -/

/-- The output is `[0, 9]`, its producer is `[-1, 10]`, the input is `[-5, 20]`; in an iteration of a loop, the output is `[4, 4]`, and its producer is `[3, 5]`. -/
def ibBufs : Int → Buf := fun p =>
  ⟨some (1000 * p), 1, [if p = 0 then ⟨0, 9, 1, -1⟩ else if p = 1 then ⟨-1, 10, 1, -1⟩ else if p = 2 then ⟨-5, 20, 1, -1⟩ else if p = 3 then ⟨4, 4, 1, -1⟩ else ⟨3, 5, 1, -1⟩]⟩
/-- See `ibBufs`. -/
def ibMem : Mem := memOf ibBufs
theorem ibMem_ok : BufMem ibMem := by
  refine memOf_ok (fun _ => by simp [ibBufs]) fun p d h => ?_
  simp only [ibBufs, List.mem_cons, List.not_mem_nil, or_false] at h
  subst h
  split_ifs <;> simp [Dim.MinIsDefault, Dim.unfolded]
/-- See `safeCfg`. -/
def ibCfg : SimpCfg := safeCfg ibMem.call
theorem ibCfg_ok (ρ : Env) : SimpCfgOK ibCfg ibMem ρ := safeCfg_ok ibMem ρ ibMem_ok.toBufferAtMin

/-- A stencil: `out(x)` needs `intm(x - 1)` to `intm(x + 1)`. -/
def ibIn1 : PInput := ⟨11, 1, [⟨.bin .sub (.v 0) (.const 1), .bin .add (.v 0) (.const 1), false⟩], [], []⟩
/-- `intm(y)` needs `in(y)`. -/
def ibIn0 : PInput := ⟨12, 1, [.point (.v 1)], [], []⟩
/-- See `ibIn1`. -/
def ibF1 : PFunc := ⟨[ibIn1], [⟨10, 1, [0]⟩]⟩
/-- See `ibIn0`. -/
def ibF0 : PFunc := ⟨[ibIn0], [⟨11, 1, [1]⟩]⟩
/-- The funcs, consumers first. -/
def ibOrder : List PFunc := [ibF1, ibF0]
/-- The outputs of the pipeline. -/
def ibIsOut : Nat → Bool := fun x => x == 10
/-- The bounds of the intermediate buffer. -/
def ibB1 : List Interval := [⟨.bin .add (.var 10 .min 0) (.const (-1)), .bin .add (.var 10 .max 0) (.const 1), false⟩]
/-- The bounds of the input. -/
def ibB0 : List Interval := [⟨.var 11 .min 0, .var 11 .max 0, false⟩]

theorem ibAlloc1 : allocBounds ibCfg 12 ibIsOut ibOrder 11 = some ibB1 := by decide +kernel
theorem ibAlloc0 : allocBounds ibCfg 12 ibIsOut ibOrder 12 = some ibB0 := by decide +kernel

theorem ibRank : RankOK ibOrder fun _ => 1 := by
  intro f hf i hi
  simp only [ibOrder, List.mem_cons, List.not_mem_nil, or_false] at hf
  rcases hf with rfl | rfl <;> simp only [ibF1, ibF0, List.mem_cons, List.not_mem_nil, or_false] at hi <;> subst hi <;> rfl

theorem ibOK : ∀ f ∈ ibOrder, f.OK := by
  intro f hf
  simp only [ibOrder, List.mem_cons, List.not_mem_nil, or_false] at hf
  rcases hf with rfl | rfl <;> constructor <;> simp [ibF1, ibF0, ibIn1, ibIn0, Interval.WF, Interval.point, Expr.ok, Expr.v, PFunc.vars]

theorem ibInputs {P : PFunc → PInput → Prop} (h1 : P ibF1 ibIn1) (h0 : P ibF0 ibIn0) : ∀ f ∈ ibOrder, ∀ i ∈ f.inputs, P f i := by
  intro f hf i hi
  simp only [ibOrder, List.mem_cons, List.not_mem_nil, or_false] at hf
  rcases hf with rfl | rfl <;> simp only [ibF1, ibF0, List.mem_cons, List.not_mem_nil, or_false] at hi <;> subst hi
  · exact h1
  · exact h0

theorem ibFin : ∀ f ∈ ibOrder, ∀ i ∈ f.inputs, ∀ b, allocBounds ibCfg 12 ibIsOut ibOrder i.sym = some b → NoVars f b ∧ EndsOK b := by
  refine ibInputs (fun b hb => ?_) (fun b hb => ?_)
  · rw [show ibIn1.sym = 11 from rfl, ibAlloc1, Option.some.injEq] at hb
    subst hb
    constructor
    · simp [NoVars, ibB1, ibF1, PFunc.vars, FreeIn]
    · simp [EndsOK, ibB1, Expr.ok]
  · rw [show ibIn0.sym = 12 from rfl, ibAlloc0, Option.some.injEq] at hb
    subst hb
    constructor
    · simp [NoVars, ibB0, ibF0, PFunc.vars, FreeIn]
    · simp [EndsOK, ibB0, Expr.ok]

/-- The environment outside the allocation. -/
def ibE0 : Env := fun x => if x = 10 then 0 else 2
/-- The dimensions of the intermediate buffer. -/
def ibBnd : Nat → List Interval := fun x => if x = 11 then (inferredDims 11 (defaultDims 11 1) ibB1).map DimE.bounds else []

theorem ibBnd11 : ibBnd 11 = ibB1 := by decide +kernel

theorem ibScoped : Scoped ibBnd [11] := by
  refine .cons (by simp) ?_ .nil
  rw [ibBnd11]
  simp [ibB1, FreeIn]

theorem ibMake : MakeBuffers ibMem ibBnd [11] ibE0 (ibE0.set 11 1) := by
  refine .cons ?_ .nil
  rw [ibBnd11]
  intro d i hi
  match d with
  | 0 =>
    simp only [ibB1, List.getElem?_cons_zero, Option.some.injEq] at hi
    subst hi
    decide +kernel
  | d + 1 => simp [ibB1] at hi

/-- The theorem applies to the example. -/
theorem ib_reads : ReadsInBounds ibMem (ibE0.set 11 1) ibOrder := by
  refine pipeline_reads_in_bounds_partial ibMem_ok ibCfg_ok 12 ibIsOut ibRank ibOK ibMake ibScoped ibFin ?_ (inputs := [(12, defaultDims 12 1)]) ?_ ?_
  · intro b hb bounds hbo
    simp only [List.mem_cons, List.not_mem_nil, or_false] at hb
    subst hb
    rw [ibAlloc1, Option.some.injEq] at hbo
    subst hbo
    exact .default rfl (by simp [ibB1, Mentions])
  · intro c hc
    simp only [addInputChecks, List.flatMap_cons, List.flatMap_nil, List.append_nil, ibAlloc0, inputChecks, defaultDims, ibB0, List.range_one, List.map_cons, List.map_nil, List.zip_cons_cons,
      List.zip_nil_right, List.mem_cons, List.not_mem_nil, or_false] at hc
    rcases hc with rfl | rfl <;> decide +kernel
  · refine ibInputs (fun h => absurd h (by simp [ibIn1])) (fun _ => ⟨_, List.mem_cons_self .., by simp [ibIn0, defaultDims], ?_⟩)
    intro d i hi
    match d with
    | 0 =>
      simp only [defaultDims, List.range_one, List.map_cons, List.map_nil, List.getElem?_cons_zero, Option.some.injEq] at hi
      subst hi
      constructor <;> rfl
    | d + 1 => simp [defaultDims] at hi

/-- In a loop over the dimension of the output, at the iteration 4, the intermediate buffer is cropped. -/
theorem ib_loop : ReadsInBounds ibMem (((ibE0.set 11 1).set 10 3).set 11 4) ibOrder := by
  have hcr : Cropped ibMem ((ibE0.set 11 1).set 10 3) 1 4 ibB1 fun d => d = 0 := by
    refine ⟨fun d i hd hi => ?_, fun d hd => ?_, fun d hd => by subst hd; simp [ibB1], fun d => ?_⟩
    · subst hd
      simp only [ibB1, List.getElem?_cons_zero, Option.some.injEq] at hi
      subst hi
      decide +kernel
    · obtain ⟨d, rfl⟩ := Nat.exists_eq_succ_of_ne_zero hd
      exact ⟨rfl, rfl⟩
    · cases d <;> rfl
  refine loop_reads_in_bounds_partial (bnd := ibBnd) (base := [10]) (bs := [11]) (ρ₁ := (ibE0.set 11 1).set 10 3) ibMem_ok ibCfg_ok 12 ibIsOut ibRank ibOK ib_reads ?_ ?_ ?_ ibScoped
    (by simp) (fun _ h => h) ?_ ?_ ibFin ?_ ?_ ?_
  · intro y hy
    exact Env.set_other _ (by simpa using hy) _
  · intro y hy d
    simp only [List.mem_cons, List.not_mem_nil, or_false] at hy
    subst hy
    cases d with
    | zero => decide +kernel
    | succ d => exact ⟨le_refl _, le_refl _⟩
  · refine .crop (p := 4) (D := fun d => d = 0) ?_ .nil
    rw [ibBnd11]
    exact hcr
  · exact ibInputs (by simp [ibIn1]) (by simp [ibIn0])
  · exact ibInputs (by simp [ibIn1, Expr.v, FreeIn]) (by simp [ibIn0, Interval.point, Expr.v, FreeIn])
  · intro b hb bounds hbo d iv jv h1 h2
    simp only [List.mem_cons, List.not_mem_nil, or_false] at hb
    subst hb
    rw [ibAlloc1, Option.some.injEq] at hbo
    subst hbo
    rw [ibBnd11, h1, Option.some.injEq] at h2
    subst h2
    exact ⟨le_refl _, le_refl _⟩
  · intro b hb bounds hbo
    simp only [List.mem_cons, List.not_mem_nil, or_false] at hb
    subst hb
    rw [ibAlloc1, Option.some.injEq] at hbo
    subst hbo
    rw [ibBnd11]
  · intro b hb d hd
    simp only [List.mem_cons, List.not_mem_nil, or_false] at hb
    subst hb
    have : d = 0 := by omega
    subst this
    intro h
    exact absurd h.1 (by decide +kernel)

/-- The loop of the example. -/
example : ∃ L t, getLoopBounds ibF1.outputs 0 = some L ∧ t ∈ cropForLoop ibF1.outputs 0 (.const 3) ∧ ibMem.field (ibE0 t.1) .min t.2.1 ≤ 7 ∧ 7 ≤ ibMem.field (ibE0 t.1) .max t.2.1 :=
  ⟨_, (10, 0, _), rfl, List.mem_cons_self .., by decide +kernel, by decide +kernel⟩

/-- C47, counterexample: the user makes the intermediate buffer `[0, 9]`, where `[-1, 10]` is needed; the checks fail if they are run, but the simplifier drops all of them. -/
theorem small_allocation_counterexample : ∃ (dims : List DimE), dims.length = 1 ∧
    (∀ D ∈ inferredDims 11 dims ibB1, eval ibMem (ibE0.set 11 1) D.bounds.min = 0 ∧ eval ibMem (ibE0.set 11 1) D.bounds.max = 9) ∧
    (¬ ∀ c ∈ inputChecks (inferredDims 11 dims ibB1) ibB1, eval ibMem (ibE0.set 11 1) c ≠ 0) ∧
    ∀ (n : Nat) (s : SState), ∀ c ∈ allocChecks (inferredDims 11 dims ibB1) ibB1, simplifyCheck ibCfg (n + 3) s c = .dropped := by
  refine ⟨[⟨.bounds (.var 10 .min 0) (.var 10 .max 0), .var 11 .stride 0, .undef⟩], rfl, ?_, ?_, fun n s c hc => simplify_drops_allocChecks n s ?_ hc⟩
  · decide +kernel
  · decide +kernel
  · refine inferredDims_stride (by simp [ibB1]) fun d D hD => ?_
    match d with
    | 0 =>
      simp only [List.getElem?_cons_zero, Option.some.injEq] at hD
      subst hD
      rfl
    | d + 1 => simp at hD

/-- C47, counterexample: a dimension that is a broadcast contains every index, but if it is cropped to the bounds that are needed in an iteration, it contains none of them. -/
theorem crop_broadcast_counterexample : ∃ (bufs : Int → Buf) (p p' : Int) (dims : List Interval) (x : Nat → Int), Cropped (memOf bufs) ibE0 p p' dims (fun d => d = 0) ∧
    bufs p' = (bufs p).crop 0 3 5 ∧ dims = [.bounds (.const 3) (.const 5)] ∧ InBuf (memOf bufs) p 1 x ∧ 3 ≤ x 0 ∧ x 0 ≤ 5 ∧ ¬ InBuf (memOf bufs) p' 1 x := by
  refine ⟨fun p => if p = 0 then ⟨some 0, 1, [⟨0, 0, 0, -1⟩]⟩ else Buf.crop ⟨some 0, 1, [⟨0, 0, 0, -1⟩]⟩ 0 3 5, 0, 1, [.bounds (.const 3) (.const 5)], fun _ => 4, ?_, rfl, rfl, ?_, by decide,
    by decide, ?_⟩
  · refine ⟨fun d i hd hi => ?_, fun d hd => ?_, fun d hd => by subst hd; simp, fun d => ?_⟩
    · subst hd
      simp only [List.getElem?_cons_zero, Option.some.injEq] at hi
      subst hi
      decide +kernel
    · obtain ⟨d, rfl⟩ := Nat.exists_eq_succ_of_ne_zero hd
      exact ⟨rfl, rfl⟩
    · cases d <;> rfl
  · intro d hd
    have : d = 0 := by omega
    subst this
    left
    exact ⟨by decide +kernel, by decide +kernel, by decide +kernel⟩
  · intro h
    rcases h 0 (by decide) with h | h
    · exact absurd h.1 (by decide +kernel)
    · exact absurd h.2 (by decide +kernel)

/-- C47, counterexample: a buffer that is an output of the pipeline and is also read by a func of the pipeline is not checked: all checks succeed, and the func reads beyond it. -/
theorem output_not_checked_counterexample : ∃ (ρ : Env), (∀ c ∈ addInputChecks [(12, defaultDims 12 1)] (allocBounds ibCfg 12 (fun x => x == 10 || x == 11) ibOrder), eval ibMem ρ c ≠ 0) ∧
    ¬ ReadsInBounds ibMem ρ ibOrder := by
  have ha : allocBounds ibCfg 12 (fun x => x == 10 || x == 11) ibOrder 12 = some ibB0 := by decide +kernel
  refine ⟨fun x => if x = 12 then 2 else 0, ?_, fun h => ?_⟩
  · intro c hc
    simp only [addInputChecks, List.flatMap_cons, List.flatMap_nil, List.append_nil, ha, inputChecks, defaultDims, ibB0, List.range_one, List.map_cons, List.map_nil, List.zip_cons_cons,
      List.zip_nil_right, List.mem_cons, List.not_mem_nil, or_false] at hc
    rcases hc with rfl | rfl <;> decide +kernel
  · have := h ibF1 (by simp [ibOrder]) ibIn1 (by simp [ibF1]) (fun x => if x = 12 then 2 else 0) (fun _ => -1) ?_ ?_ 0 (by decide)
    · rcases this with h | h
      · exact absurd h.2.1 (by decide +kernel)
      · exact absurd h.1 (by decide +kernel)
    · refine ⟨fun _ _ => rfl, fun v hv => ?_⟩
      simp only [PFunc.vars, ibF1, List.flatMap_cons, List.flatMap_nil, List.append_nil, List.mem_cons, List.not_mem_nil, or_false] at hv
      subst hv
      refine ⟨⟨10, 1, [0]⟩, by simp [ibF1], 0, 0, rfl, ⟨rfl, rfl⟩, ?_, ?_⟩ <;> decide +kernel
    · intro d b hb
      match d with
      | 0 =>
        simp only [ibIn1, List.getElem?_cons_zero, Option.some.injEq] at hb
        subst hb
        exact ⟨⟨by decide +kernel, by decide +kernel⟩, fun c hc => by simp [ibIn1] at hc⟩
      | d + 1 => simp [ibIn1] at hb

end Slinky
