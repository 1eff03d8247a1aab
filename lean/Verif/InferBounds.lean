import Verif.SimplifierApi
import Verif.IntervalProps
import Verif.Stmt

/-!
# Model of bounds inference (slinky/builder/pipeline.cc)

From the bounds of the inputs that the user gives for every `func`, in terms of the dimensions of its outputs, `build_pipeline` computes the bounds of every buffer: of the allocations of intermediate
buffers, of the checks of the inputs of the pipeline, and of the crops in loops.

* `getOutputBounds`, `boundsOfI`, `computeInputBounds`, `allocBounds`: the expressions (pipeline.cc:313-350, 757-787; simplify.cc:2499-2509);
* `inferredDims`, `allocChecks`, `inputChecks`: the dimensions of the allocations and the checks (pipeline.cc:526-541, 690-731, 845-852, 1409-1425);
* `MakeBuffers`, `CropSteps`: the values of the metadata that `make_buffers` and the crops in `make_loop` define (pipeline.cc:1363-1388, 1427-1444).

Simplifications: `sanitize_user_exprs` has already been applied to the expressions of the user. Expressions have their mathematical values (`eval`).
Which dimensions of which buffers are cropped in a loop (`find_transitive_deps`, `find_dependent_dims`) is not modelled, any choice is allowed.
-/

namespace Slinky

/-! ### Pipelines -/

/-- pipeline.h:146-163 `func::input`. `rank` is the rank of the buffer. An entry of `outputSlice` that is not sliced is undefined. -/
structure PInput where
  sym : Nat
  rank : Nat
  bounds : List Interval
  inputCrop : List Interval := []
  outputSlice : List Expr := []

/-- pipeline.h:165-171 `func::output`. `dims` are the symbols of the dimensions, `rank` is the rank of the buffer. -/
structure POutput where
  sym : Nat
  rank : Nat
  dims : List Nat

/-- pipeline.h:139 `func`, as far as bounds inference needs it. -/
structure PFunc where
  inputs : List PInput
  outputs : List POutput

/-- The variables that are the dimensions of the outputs. -/
def PFunc.vars (f : PFunc) : List Nat := f.outputs.flatMap POutput.dims

/-! ### The expressions -/

/-- expr_stmt.cc `buffer_bounds` -/
def bufBoundsE (x d : Nat) : Interval := .bounds (.var x .min d) (.var x .max d)

/-- pipeline.cc:317-323: the dimension of the buffer that dimension `od` of the output is, if some dimensions of the buffer are sliced. `k` is the dimension of the first slice in the list. -/
def skipSlices : List Expr → Nat → Nat → Nat
  | [], _, od => od
  | s :: ss, k, od => if k ≤ od then skipSlices ss (k + 1) (if s.defined then od + 1 else od) else od

/-- pipeline.cc:316: the dimensions of an output: the variable, the symbol of the buffer, and the dimension of the buffer. -/
def outDims (slices : List Expr) (o : POutput) : List (Nat × Nat × Nat) :=
  o.dims.zipIdx.map fun t => (t.1, o.sym, skipSlices slices 0 t.2)

/-- pipeline.cc:324-329 -/
def addBound (M : Nat → Option Interval) (t : Nat × Nat × Nat) : Nat → Option Interval := fun y =>
  if y = t.1 then some (match M y with | none => bufBoundsE t.2.1 t.2.2 | some i => i.union (bufBoundsE t.2.1 t.2.2)) else M y

/-- pipeline.cc:313-333 `get_output_bounds` (the two nested loops as one loop) -/
def getOutputBounds (outputs : List POutput) (slices : List Expr) : Nat → Option Interval :=
  (outputs.flatMap (outDims slices)).foldl addBound fun _ => none

/-- simplify.cc:2499-2509 `bounds_of(interval_expr, bounds_map)` -/
def boundsOfI (cfg : SimpCfg) (n : Nat) (i : Interval) (B : Nat → Option Interval) : Interval :=
  if i.isPoint || matchE i.min i.max then boundsOf cfg n i.min B fun _ => none
  else .bounds (boundsOf cfg n i.min B fun _ => none).min (boundsOf cfg n i.max B fun _ => none).max

/-- pipeline.cc:340-348: the bounds of one dimension of an input -/
def inputBound (cfg : SimpCfg) (n : Nat) (B : Nat → Option Interval) (i : PInput) (d : Nat) : Interval :=
  match i.bounds[d]? with
  | none => .unbounded
  | some b =>
    match i.inputCrop[d]? with
    | none => boundsOfI cfg n b B
    | some c => (boundsOfI cfg n b B).inter c

/-- pipeline.cc:335-350 `compute_input_bounds` -/
def computeInputBounds (cfg : SimpCfg) (n : Nat) (B : Nat → Option Interval) (i : PInput) : List Interval :=
  (List.range i.rank).map (inputBound cfg n B i)

/-- pipeline.cc:762-767 -/
def addBox (A : Nat → Option (List Interval)) (t : Nat × List Interval) : Nat → Option (List Interval) := fun y =>
  if y = t.1 then some (match A y with | none => t.2 | some b => boxUnion b t.2) else A y

/-- pipeline.cc:759-761: what a func needs of its inputs -/
def needs (cfg : SimpCfg) (n : Nat) (f : PFunc) : List (Nat × List Interval) :=
  f.inputs.map fun i => (i.sym, computeInputBounds cfg n (getOutputBounds f.outputs i.outputSlice) i)

/-- pipeline.cc:758-772: the first part of `compute_allocation_bounds` -/
def neededBounds (cfg : SimpCfg) (n : Nat) (order : List PFunc) : Nat → Option (List Interval) :=
  (order.flatMap (needs cfg n)).foldl addBox fun _ => none

/-- pipeline.cc:757-787 `compute_allocation_bounds`: buffers that nothing uses are empty. `isOutput`: the outputs of the pipeline. -/
def allocBounds (cfg : SimpCfg) (n : Nat) (isOutput : Nat → Bool) (order : List PFunc) : Nat → Option (List Interval) := fun y =>
  match neededBounds cfg n order y with
  | some b => some b
  | none =>
    match (order.flatMap PFunc.outputs).find? fun o => o.sym = y with
    | some o => if isOutput y then none else some (List.replicate o.rank (.bounds (.const 1) (.const 0)))
    | none => none

/-! ### Dimensions and checks -/

/-- pipeline.cc:526-541 `substitute_from_map` (for the bounds and the stride) -/
def substFromMap (subs : List (Expr × Expr)) (d : DimE) : DimE :=
  subs.foldl (fun d s => ⟨⟨substExpr s.1 s.2 d.bounds.min, substExpr s.1 s.2 d.bounds.max, false⟩, substExpr s.1 s.2 d.stride, substExpr s.1 s.2 d.fold⟩) d

/-- pipeline.cc:699-711: the replacements of the metadata of the buffer by its bounds, and of the strides by undefined expressions. -/
def dimSubs (b : Nat) (bounds : List Interval) : List (Expr × Expr) :=
  (bounds.zipIdx.flatMap fun t => [(.var b .min t.2, t.1.min), (.var b .max t.2, t.1.max)]) ++
    bounds.zipIdx.map fun t => (.var b .stride t.2, .undef)

/-- pipeline.cc:690-725 `substitute_buffer_dims`, for one buffer. `dims` are the dimensions that the user gave. -/
def inferredDims (b : Nat) (dims : List DimE) (bounds : List Interval) : List DimE := dims.map (substFromMap (dimSubs b bounds))

/-- pipeline.cc:42-46: the dimensions of a `buffer_expr` that the user did not change -/
def defaultDims (b rank : Nat) : List DimE :=
  (List.range rank).map fun d => ⟨bufBoundsE b d, .var b .stride d, .var b .foldFactor d⟩

/-- expr.h:564 `is_broadcast` -/
def isBroadcastE (d : DimE) : Expr :=
  mkBin .and (mkBin .and (mkBin .eq d.bounds.min (.const 0)) (mkBin .eq d.bounds.max (.const 0))) (mkBin .eq d.stride (.const 0))

/-- pipeline.cc:845-849: the conditions that are checked before an allocation -/
def allocChecks (dims : List DimE) (bounds : List Interval) : List Expr :=
  (dims.zip bounds).flatMap fun t =>
    [mkBin .or (isBroadcastE t.1) (mkBin .le t.1.bounds.min t.2.min), mkBin .or (isBroadcastE t.1) (mkBin .le t.2.max t.1.bounds.max)]

/-- pipeline.cc:1416-1419: the conditions that are checked for an input of the pipeline -/
def inputChecks (dims : List DimE) (bounds : List Interval) : List Expr :=
  (dims.zip bounds).flatMap fun t => [mkBin .le t.1.bounds.min t.2.min, mkBin .le t.2.max t.1.bounds.max]

/-- pipeline.cc:1409-1425 `add_input_checks`. Only the inputs of the pipeline are checked. -/
def addInputChecks (inputs : List (Nat × List DimE)) (alloc : Nat → Option (List Interval)) : List Expr :=
  inputs.flatMap fun t => match alloc t.1 with | none => [] | some b => inputChecks t.2 b

/-! ### Loops -/

/-- pipeline.cc:744-755 `get_loop_bounds`. Simplifications: the union of nothing is undefined (it is `[inf, -inf]`); `simplify` is left out. -/
def getLoopBounds (outputs : List POutput) (x : Nat) : Option Interval := getOutputBounds outputs [] x

/-- pipeline.cc:733-742 `crop_for_loop`: the crops of the outputs. `simplify` of the max is left out. -/
def cropForLoop (outputs : List POutput) (x : Nat) (step : Expr) : List (Nat × Nat × Interval) :=
  (outputs.flatMap (outDims [])).filterMap fun t =>
    if t.1 = x then some (t.2.1, t.2.2, .bounds (.v x) (mkBin .sub (mkBin .add (.v x) step) (.const 1))) else none

/-! ### Metadata -/

/-- The buffer at `p` has the bounds. -/
def HasBounds (m : Mem) (ρ : Env) (p : Int) (dims : List Interval) : Prop :=
  ∀ (d : Nat) (i : Interval), dims[d]? = some i → m.field p .min d = eval m ρ i.min ∧ m.field p .max d = eval m ρ i.max

/-- pipeline.cc:1427-1444 `make_buffers`: the metadata of the buffers is defined one after the other; the first ones are the nearest to the outputs. -/
inductive MakeBuffers (m : Mem) (bnd : Nat → List Interval) : List Nat → Env → Env → Prop
  | nil {ρ : Env} : MakeBuffers m bnd [] ρ ρ
  | cons {b : Nat} {bs : List Nat} {ρ ρ' : Env} {p : Int} : HasBounds m ρ p (bnd b) → MakeBuffers m bnd bs (ρ.set b p) ρ' → MakeBuffers m bnd (b :: bs) ρ ρ'

/-- buffer.h:395-417: `p'` is the buffer `p`, some dimensions (`D`) are cropped to the values of intervals. -/
structure Cropped (m : Mem) (ρ : Env) (p p' : Int) (dims : List Interval) (D : Nat → Prop) : Prop where
  crop : ∀ (d : Nat) (i : Interval), D d → dims[d]? = some i →
    m.field p' .min d = max (m.field p .min d) (eval m ρ i.min) ∧ m.field p' .max d = min (m.field p .max d) (eval m ρ i.max)
  keep : ∀ d : Nat, ¬ D d → m.field p' .min d = m.field p .min d ∧ m.field p' .max d = m.field p .max d
  dom : ∀ d : Nat, D d → d < dims.length
  stride : ∀ d : Nat, m.field p' .stride d = m.field p .stride d

/-- pipeline.cc:1363-1388: in a loop, the metadata of the buffers is cropped, one after the other; or it is defined again, if the buffer is allocated in the loop (then the new bounds should be
within the bounds outside). -/
inductive CropSteps (m : Mem) (bnd : Nat → List Interval) : List Nat → Env → Env → Prop
  | nil {ρ : Env} : CropSteps m bnd [] ρ ρ
  | crop {b : Nat} {bs : List Nat} {ρ ρ' : Env} {p : Int} {D : Nat → Prop} : Cropped m ρ (ρ b) p (bnd b) D → CropSteps m bnd bs (ρ.set b p) ρ' → CropSteps m bnd (b :: bs) ρ ρ'
  | make {b : Nat} {bs : List Nat} {ρ ρ' : Env} {p : Int} : HasBounds m ρ p (bnd b) →
      (∀ d : Nat, m.field (ρ b) .min d ≤ m.field p .min d ∧ m.field p .max d ≤ m.field (ρ b) .max d) → CropSteps m bnd bs (ρ.set b p) ρ' → CropSteps m bnd (b :: bs) ρ ρ'

end Slinky
