import Mathlib.Data.List.Basic

/-!
# Model of the schedule of a pipeline (slinky/builder/pipeline.cc)

* `topoImpl`, `topoSort`: the order of the funcs (pipeline.cc:352-386);
* `findPath`, `compareUpTo`, `lca`, `place`, `computeLocs`: where every func is computed (pipeline.cc:388-520);
* `buildAt`, `makeLoop`, `buildNest`: the loop nest (pipeline.cc:1112-1165, 1271-1290).

A func is a number. Simplifications: containers of pointers are lists of numbers and functions; an assertion that fails, and a recursion that does not end, is `none`;
allocations, crops and the statements of the calls are left out of the nest (they do not change the order of the calls: pipeline.cc:975-1110 keeps the order of the results).
-/

namespace Slinky

/-- pipeline.h `loop_id`: a func and one of its loop variables; `none` is the root. -/
abbrev LoopId := Option (Nat × Nat)

/-- What the schedule needs to know about a pipeline. -/
structure SPipe where
  /-- The producers of the inputs of a func, for those that have one. -/
  prods : Nat → List Nat
  /-- pipeline.h `func::loops`: the variables of the loops, the innermost first. -/
  loops : Nat → List Nat
  /-- pipeline.h `func::compute_at` -/
  computeAt : Nat → Option LoopId
  /-- The producers of the outputs of the pipeline, for those that have one. -/
  outs : List Nat

namespace SPipe

variable (G : SPipe)

/-! ### The order -/

/-- The state of `topological_sort`. -/
structure Topo where
  processing : List Nat
  visited : List Nat
  order : List Nat
  deps : Nat → List Nat

/-- pipeline.cc:363: `f` is a consumer of `p`. -/
def Topo.addDep (s : Topo) (p f : Nat) : Topo := { s with deps := fun x => if x = p then s.deps x ++ [f] else s.deps x }
/-- pipeline.cc:359 -/
def Topo.enter (s : Topo) (f : Nat) : Topo := { s with processing := f :: s.processing }
/-- pipeline.cc:366-368 -/
def Topo.leave (s : Topo) (f : Nat) : Topo :=
  { s with processing := s.processing.filter (· ≠ f), visited := f :: s.visited, order := s.order ++ [f] }

/-- pipeline.cc:352-369 `topological_sort_impl` -/
def topoImpl : Nat → Topo → Nat → Option Topo
  | 0, _, _ => none
  | n + 1, s, f =>
    if f ∈ s.visited then some s
    else if f ∈ s.processing then none
    else ((G.prods f).foldlM (fun s p => topoImpl n (s.addDep p f) p) (s.enter f)).map fun s => s.leave f

/-- pipeline.cc:371-382: the loop over the outputs of `topological_sort` -/
def topoRun (n : Nat) : Option Topo := G.outs.foldlM (fun s f => topoImpl G n s f) ⟨[], [], [], fun _ => []⟩

/-- pipeline.cc:371-386 `topological_sort`: the order, outputs first, and the consumers of every func. -/
def topoSort (n : Nat) : Option (List Nat × (Nat → List Nat)) := (topoRun G n).map fun s => (s.order.reverse, s.deps)

/-! ### Locations -/

/-- pipeline.cc:388-393 `loop_tree_node`: the parent and the loop. The parent of the root (-1) is not used. -/
abbrev Tree := List (Nat × LoopId)

/-- pipeline.cc:395-404 `find_path_from_root`. The first argument is fuel: a parent is smaller than its child. -/
def findPathGo (t : Tree) : Nat → Nat → List Nat
  | 0, i => [i]
  | n + 1, i => if i = 0 then [0] else findPathGo t n ((t[i]?.getD (0, none)).1) ++ [i]

/-- pipeline.cc:395-404 `find_path_from_root` -/
def findPath (t : Tree) (i : Nat) : List Nat := findPathGo t i i

/-- pipeline.cc:406-417 `compare_paths_up_to` -/
def compareUpTo (base other : List Nat) (m : Int) : Int :=
  match (List.range (min m ((other.length : Int) - 1) + 1).toNat).find? fun iy => other[iy]? ≠ base[iy]? with
  | some iy => (iy : Int) - 1
  | none => min m ((other.length : Int) - 1)

/-- pipeline.cc:419-441 `lca` -/
def lca (t : Tree) (ids : List Nat) : Option Nat :=
  let paths := ids.map (findPath t)
  let base := paths.headD []
  let m := paths.foldl (fun m p => compareUpTo base p m) ((base.length : Int) - 1)
  if 0 ≤ m then base[m.toNat]? else none

/-- pipeline.cc:468-475: the innermost location of the only consumer, or the common ancestor of those of the consumers. -/
def common (t : Tree) (ids : List Nat) : Option Nat := if ids.length = 1 then ids.head? else lca t ids

/-- The state of `compute_innermost_locations`. -/
structure Locs where
  tree : Tree
  loc : Nat → Option Nat
  cAt : Nat → LoopId
  rAt : Nat → LoopId

/-- pipeline.cc:456-490: the node in which `f` is computed, and its compute level. `consumers` is the entry of `deps` for `f`, if there is one. -/
def parentOf (s : Locs) (f : Nat) (consumers : List Nat) : Option (Nat × LoopId) :=
  if consumers = [] then
    match G.computeAt f with
    | none => some (0, none)
    | some a => if a = none then some (0, none) else none
  else do
    let ids ← consumers.mapM s.loc
    let p ← common s.tree ids
    match G.computeAt f with
    | some a => do
      let q ← ((findPath s.tree p).filter fun i => (s.tree[i]?.getD (0, none)).2 = a).getLast?
      some (q, a)
    | none => some (p, (s.tree[p]?.getD (0, none)).2)

/-- pipeline.cc:496-499: add the loops of `f`, the outermost first. -/
def addLoops (f : Nat) : List Nat → Tree × Nat → Tree × Nat
  | [], r => r
  | v :: vs, r => addLoops f vs (r.1 ++ [(r.2, some (f, v))], r.1.length)

/-- pipeline.cc:455-506: one iteration of the loop over the funcs -/
def place (deps : Nat → List Nat) (s : Locs) (f : Nat) : Option Locs := do
  let (p, c) ← parentOf G s f (deps f)
  let r := addLoops f (G.loops f).reverse (s.tree, p)
  some ⟨r.1, fun x => if x = f then some r.2 else s.loc x, fun x => if x = f then c else s.cAt x,
    fun x => if x = f then (match G.loops f with | [] => c | v :: _ => some (f, v)) else s.rAt x⟩

/-- pipeline.cc:443-507 `compute_innermost_locations` -/
def computeLocs (order : List Nat) (deps : Nat → List Nat) : Option Locs :=
  order.foldlM (place G deps) ⟨[(0, none)], fun _ => none, fun _ => none, fun _ => none⟩

/-! ### The loop nest -/

/-- The calls and loops of a pipeline. -/
inductive Nest where
  | call (f : Nat)
  | loop (l : Nat × Nat) (body : List Nest)

/-- pipeline.cc:1123-1165 `build`: the statements at the loop level `at`. `mk` makes the loops of a func. -/
def buildAt (cAt rAt : Nat → LoopId) (order : List Nat) (mk : Nat → Nat → Option Nest) (at_ : LoopId) : Option (List Nest) :=
  (order.reverse.mapM fun f =>
    if cAt f = at_ ∧ G.loops f ≠ [] then (mk f ((G.loops f).length - 1)).map fun s => [s]
    else if rAt f = at_ then some [Nest.call f] else some []).map List.flatten

/-- pipeline.cc:1265-1286 `make_loop`, for a loop of a func. `i` is the index of the loop, the innermost is 0. -/
def makeLoop (cAt rAt : Nat → LoopId) (order : List Nat) : Nat → Nat → Nat → Option Nest
  | 0, _, _ => none
  | n + 1, f, i => do
    let v ← (G.loops f)[i]?
    let b ← buildAt G cAt rAt order (makeLoop cAt rAt order n) (some (f, v))
    if i = 0 then some (.loop (f, v) b)
    else do
      let inner ← makeLoop cAt rAt order n f (i - 1)
      some (.loop (f, v) (b ++ [inner]))

/-- pipeline.cc:1265-1292 `make_loop`, for the root -/
def buildNest (cAt rAt : Nat → LoopId) (order : List Nat) (n : Nat) : Option (List Nest) :=
  buildAt G cAt rAt order (makeLoop G cAt rAt order n) none

/-- The schedule of a pipeline: pipeline.cc:1213-1241 (the constructor of `pipeline_builder`) and 1573. -/
def schedule (n : Nat) : Option (List Nat × Locs × List Nest) := do
  let (order, deps) ← topoSort G n
  let s ← computeLocs G order deps
  let b ← buildNest G s.cAt s.rAt order n
  some (order, s, b)

end SPipe

end Slinky
