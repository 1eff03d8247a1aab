import Verif.ScheduleNest

/-!
# Model of the placement of allocations (slinky/builder/pipeline.cc)

* `compute_deps_count` (pipeline.cc:864-910), `produce` (788-839), `produce_allocation` (841-862), `place_constrained_buffers` (921-945), `place_constant_buffers` (947-965),
  `lay_out_allocations` (977-1110), `build` (1123-1165), `make_loop` (1265-1290), the constants of `make_buffers` (1427-1431).

Simplifications: a statement is the list of the statements of its block (`block::make` flattens, C38); calls, loops, allocations and constants are kept; checks, crops, clones and
the shapes of the allocations are left out (C47). Sets are lists without duplicates, in the order of insertion and not of the symbols. `functions_produced_` is a natural number.
A failed assertion, and a recursion that does not end, is `none`. The assertion that the loop of `store_at` exists (pipeline.cc:803) is left out: it holds for the loops of
`StoreOK`, which are around the call.
-/

namespace Slinky

/-- pipeline.h: what a buffer says about where it is stored. -/
inductive Store where
  /-- `store_at` of the producer and no loop: the loop in which the producer is computed. -/
  | innermost
  /-- A loop, or the root. -/
  | at (l : LoopId)

/-- A pipeline with buffers. -/
structure APipe where
  inputs : Nat → List Nat
  outputs : Nat → List Nat
  /-- pipeline.h `buffer_expr::producer` -/
  prodOf : Nat → Option Nat
  /-- An output of the pipeline. -/
  isOut : Nat → Bool
  /-- pipeline.h `buffer_expr::constant` -/
  const : Nat → Bool
  /-- pipeline.h `buffer_expr::store_at` -/
  storeAt : Nat → Option Store
  /-- `!f->impl() && !f->is_padded_copy()` -/
  isCopy : Nat → Bool
  /-- `!f->impl() && f->is_padded_copy()` -/
  isPadded : Nat → Bool
  loops : Nat → List Nat
  computeAt : Nat → Option LoopId
  /-- The outputs of the pipeline. -/
  outs : List Nat

namespace APipe

open SPipe (Locs)

variable (A : APipe)

/-- What the schedule needs to know. -/
def toS : SPipe where
  prods := fun f => (A.inputs f).filterMap A.prodOf
  loops := A.loops
  computeAt := A.computeAt
  outs := A.outs.filterMap A.prodOf

/-- A statement. -/
inductive ANest where
  | call (f : Nat)
  | loop (l : Nat × Nat) (body : List ANest)
  /-- An allocation, or a constant (`k`). -/
  | decl (k : Bool) (b : Nat) (body : List ANest)

/-- pipeline.cc:623-640 `statement_with_range` -/
structure Rng where
  body : List ANest
  start : Int
  stop : Int
  allocs : List Nat

/-- pipeline.cc:613-621 `allocation_candidate`, without the buffer -/
structure Info where
  consumed : Nat
  lstart : Int
  lend : Int

/-- The state of the `pipeline_builder`. -/
structure LSt where
  /-- `functions_produced_` -/
  produced : Nat
  /-- `candidates_for_allocation_` -/
  cands : LoopId → List Nat
  /-- `allocation_info_` -/
  info : Nat → Info
  /-- `constants_` -/
  consts : List Nat

/-- Insert into a set. -/
def ins (x : Nat) (l : List Nat) : List Nat := if x ∈ l then l else l ++ [x]

/-- pipeline.cc:893-910: the number of uses of a buffer -/
def depsCount (order : List Nat) (b : Nat) : Nat := (order.map fun f => (A.inputs f).count b).sum

/-- pipeline.cc:866-910: whether the buffer is in `copy_inputs_` -/
def copyIn (order : List Nat) (b : Nat) : Bool :=
  order.any fun f => (A.isPadded f && (A.outputs f).contains b && !A.isOut b) || ((A.isCopy f || A.const b) && (A.inputs f).contains b)

/-- pipeline.cc:866-910: `copy_deps_` -/
def copyDeps (order : List Nat) (b : Nat) : List Nat :=
  (order.flatMap fun f => if A.isPadded f && (A.outputs f).contains b && !A.isOut b then (A.inputs f).filter fun i => (A.prodOf i).isSome else []) ++
  (order.flatMap fun f => if (A.isCopy f || A.const b) && (A.inputs f).contains b then (A.outputs f).filter fun o => A.const b || !A.isOut o else [])

/-- pipeline.cc:912-919 `has_all_allocations` -/
def hasAll (order : List Nat) (b : Nat) (allocs : List Nat) : Bool := (copyDeps A order b).all fun x => allocs.contains x

/-- pipeline.cc:797-808: the loop in which the output `b` of `f` is stored -/
def levelOf (cAt : Nat → LoopId) (f b : Nat) : LoopId :=
  match A.storeAt b with
  | none => none
  | some .innermost => cAt f
  | some (.at l) => l

/-- pipeline.cc:793-816: the outputs of `produce` -/
def produceOut (cAt : Nat → LoopId) (order : List Nat) (f : Nat) (s : LSt) (b : Nat) : LSt :=
  if A.isOut b then s
  else { s with
    cands := fun l => if l = levelOf A cAt f b then ins b (s.cands l) else s.cands l
    info := fun x => if x = b then
      { s.info b with lstart := s.produced, lend := if (s.info b).consumed = depsCount A order b then s.produced else (s.info b).lend } else s.info x }

/-- Whether there is an `allocation_info_` for the buffer: pipeline.cc:866-873. -/
def hasInfo (order : List Nat) (b : Nat) : Bool := order.any fun f => (A.outputs f).contains b && !A.isOut b

/-- pipeline.cc:818-834: the inputs of `produce` -/
def produceIn (order : List Nat) (s : LSt) (b : Nat) : LSt :=
  let s := if A.const b then { s with consts := ins b s.consts } else s
  if (A.prodOf b).isSome && hasInfo A order b then
    { s with info := fun x => if x = b then
      { s.info b with consumed := (s.info b).consumed + 1, lend := if (s.info b).consumed + 1 = depsCount A order b then s.produced else (s.info b).lend } else s.info x }
  else s

/-- pipeline.cc:788-839 `produce` -/
def produce (cAt : Nat → LoopId) (order : List Nat) (f : Nat) (s : LSt) : Rng × LSt :=
  let s := (A.outputs f).foldl (produceOut A cAt order f) s
  let s := (A.inputs f).foldl (produceIn A order) s
  (⟨[.call f], s.produced, s.produced, []⟩, { s with produced := s.produced + 1 })

/-- pipeline.cc:841-862 `produce_allocation` -/
def allocate (b : Nat) (r : Rng) : Rng := { r with body := [.decl false b r.body], allocs := ins b r.allocs }

/-- pipeline.cc:951-956: declare a constant. -/
def constant (b : Nat) (r : Rng) : Rng := { r with body := [.decl true b r.body] }

/-- pipeline.cc:630-639 `merge` -/
def merge (a b : Rng) : Option Rng :=
  if a.stop + 1 = b.start then some ⟨a.body ++ b.body, a.start, b.stop, b.allocs.foldl (fun l x => ins x l) a.allocs⟩ else none

/-- pipeline.cc:1026-1045: combine statements. -/
def combine (r : Rng) (rs : List Rng) : Rng :=
  ⟨(r :: rs).flatMap Rng.body, rs.foldl (fun m x => min m x.start) r.start, rs.foldl (fun m x => max m x.stop) r.stop,
    (r :: rs).foldl (fun l x => x.allocs.foldl (fun l y => ins y l) l) []⟩

/-- pipeline.cc:1012-1062: one pass over the lifetimes. The results are the new statements, the lifetimes that are left, and the buffers that were placed.
The first argument is fuel, it is the number of lifetimes. -/
def walk (info : Nat → Info) : Nat → List Nat → List Rng → List Rng × List Nat × List Nat
  | n + 1, b :: bs, r :: rs =>
    let pre := (r :: rs).takeWhile fun x => x.stop < (info b).lstart
    let rest := (r :: rs).dropWhile fun x => x.stop < (info b).lstart
    let blk := rest.takeWhile fun x => x.start ≤ (info b).lend ∧ (info b).lstart ≤ x.stop
    let rest' := rest.dropWhile fun x => x.start ≤ (info b).lend ∧ (info b).lstart ≤ x.stop
    let skip := bs.takeWhile fun c => blk.any fun x => (info c).lstart ≤ x.stop
    let bs' := bs.dropWhile fun c => blk.any fun x => (info c).lstart ≤ x.stop
    let w := walk info n bs' rest'
    match blk with
    | [] => (pre ++ w.1, skip ++ w.2.1, w.2.2)
    | x :: xs => (pre ++ allocate b (combine x xs) :: w.1, skip ++ w.2.1, b :: w.2.2)
  | _, _, rs => (rs, [], [])

/-- pipeline.cc:927-938: the first statement that the allocation of `b` can go around -/
def placeOne (order : List Nat) (i : Info) (b : Nat) : List Rng → Option (List Rng)
  | [] => none
  | r :: rs =>
    if hasAll A order b r.allocs ∧ r.start ≤ i.lstart ∧ i.lend ≤ r.stop then some (allocate b r :: rs)
    else (placeOne order i b rs).map fun rs => r :: rs

/-- pipeline.cc:921-945 `place_constrained_buffers`: the statements, the buffers that are left and those that were placed -/
def placeConstrained (order : List Nat) (info : Nat → Info) : List Nat → List Rng → List Rng × List Nat × List Nat
  | [], rs => (rs, [], [])
  | b :: bs, rs =>
    match placeOne A order (info b) b rs with
    | some rs' => let w := placeConstrained order info bs rs'; (w.1, w.2.1, b :: w.2.2)
    | none => let w := placeConstrained order info bs rs; (w.1, b :: w.2.1, w.2.2)

/-- pipeline.cc:952-958: the constants that can go around a statement -/
def placeConst1 (order : List Nat) (cs : List Nat) (r : Rng) : Rng := (cs.filter fun c => hasAll A order c r.allocs).foldl (fun r c => constant c r) r

/-- pipeline.cc:947-965 `place_constant_buffers` -/
def placeConsts (order : List Nat) : List Nat → List Rng → List Rng × List Nat
  | cs, [] => ([], cs)
  | cs, r :: rs =>
    let w := placeConsts order (cs.filter fun c => ¬ hasAll A order c r.allocs) rs
    (placeConst1 A order cs r :: w.1, w.2)

/-- pipeline.cc:1000-1009 `lifetime_less`, or equal -/
def lifetimeLe (info : Nat → Info) (a b : Nat) : Bool :=
  let la := (info a).lend - (info a).lstart
  let lb := (info b).lend - (info b).lstart
  if la = lb then (if (info a).lstart = (info b).lstart then decide (a ≤ b) else decide ((info a).lstart < (info b).lstart)) else decide (la < lb)

/-- The variables of the loop in `lay_out_allocations`. -/
structure LayS where
  results : List Rng
  lifetimes : List Nat
  special : List Nat
  cands : List Nat
  consts : List Nat

/-- pipeline.cc:1014-1081: one iteration -/
def layStep (order : List Nat) (info : Nat → Info) (x : LayS) : LayS :=
  let w := walk info x.lifetimes.length x.lifetimes x.results
  let p := placeConstrained A order info x.special w.1
  let c := placeConsts A order x.consts p.1
  ⟨c.1, w.2.1, p.2.1, x.cands.filter fun b => b ∉ w.2.2 ∧ b ∉ p.2.2, c.2⟩

/-- pipeline.cc:1013-1084: the loop -/
def layLoop (order : List Nat) (info : Nat → Info) : Nat → LayS → Option LayS
  | 0, _ => none
  | n + 1, x =>
    let y := layStep A order info x
    if x.lifetimes.length = y.lifetimes.length ∧ x.special.length = y.special.length then some y else layLoop order info n y

/-- pipeline.cc:977-1110 `lay_out_allocations` -/
def layOut (order : List Nat) (at_ : LoopId) (results : List Rng) (s : LSt) : Option (Rng × LSt) := do
  let cs := (s.cands at_).filter fun b => ¬ A.isOut b
  let lifetimes := (cs.filter fun b => ¬ copyIn A order b).mergeSort (lifetimeLe s.info)
  let special := (cs.filter fun b => copyIn A order b).mergeSort (lifetimeLe s.info)
  let y ← layLoop A order s.info (lifetimes.length + special.length + 1) ⟨results, lifetimes, special, s.cands at_, s.consts⟩
  match y.results with
  | [] => some (⟨[], 0, 0, []⟩, { s with cands := fun l => if l = at_ then y.cands else s.cands l, consts := y.consts })
  | r :: rs =>
    let r ← rs.foldlM merge r
    -- pipeline.cc:1094-1103
    let left := (order.flatMap A.outputs).filter fun b => ¬ A.isOut b ∧ b ∈ y.cands
    let r := left.foldl (fun r b => allocate b r) r
    let c := placeConsts A order y.consts [r]
    some (c.1.headD r, { s with cands := fun l => if l = at_ then y.cands.filter fun b => b ∉ left else s.cands l, consts := c.2 })

/-- pipeline.cc:1142-1157: the buffers that are produced and consumed in the loops of a func -/
def wrapLoop (order : List Nat) (old : List Nat) (at_ : LoopId) (r : Rng) (s : LSt) : Rng × LSt :=
  if (s.cands at_).length > old.length + 1 then
    let bs := (s.cands at_).filter fun b => b ∉ old ∧ ¬ copyIn A order b ∧ (s.info b).consumed = depsCount A order b
    (bs.foldl (fun r b => allocate b r) r, { s with cands := fun l => if l = at_ then (s.cands l).filter fun b => b ∉ bs else s.cands l })
  else (r, s)

/-- pipeline.cc:1125-1162: one func in `build` -/
def buildStep (cAt rAt : Nat → LoopId) (order : List Nat) (mk : Nat → Nat → LSt → Option (Rng × LSt)) (at_ : LoopId) (x : List Rng × LSt) (f : Nat) : Option (List Rng × LSt) :=
  if cAt f = at_ ∧ A.loops f ≠ [] then
    (mk f ((A.loops f).length - 1) x.2).map fun y => let z := wrapLoop A order (x.2.cands at_) at_ y.1 y.2; (x.1 ++ [z.1], z.2)
  else if rAt f = at_ then some (let y := produce A cAt order f x.2; (x.1 ++ [y.1], y.2))
  else some x

/-- pipeline.cc:1123-1165 `build` -/
def buildA (cAt rAt : Nat → LoopId) (order : List Nat) (mk : Nat → Nat → LSt → Option (Rng × LSt)) (at_ : LoopId) (s : LSt) : Option (List Rng × LSt) :=
  order.reverse.foldlM (buildStep A cAt rAt order mk at_) ([], s)

/-- pipeline.cc:1265-1405 `make_loop`, for a loop of a func -/
def makeLoopA (cAt rAt : Nat → LoopId) (order : List Nat) : Nat → Nat → Nat → LSt → Option (Rng × LSt)
  | 0, _, _, _ => none
  | n + 1, f, i, s => do
    let v ← (A.loops f)[i]?
    let (rs, s) ← buildA A cAt rAt order (makeLoopA cAt rAt order n) (some (f, v)) s
    let (rs, s) ← if i = 0 then some (rs, s) else (makeLoopA cAt rAt order n f (i - 1) s).map fun y => (rs ++ [y.1], y.2)
    let (r, s) ← layOut A order (some (f, v)) rs s
    some ({ r with body := [.loop (f, v) r.body] }, s)

/-- pipeline.cc:1265-1292 `make_loop`, for the root -/
def makeRootA (cAt rAt : Nat → LoopId) (order : List Nat) (n : Nat) (s : LSt) : Option (Rng × LSt) := do
  let (rs, s) ← buildA A cAt rAt order (makeLoopA A cAt rAt order n) none s
  layOut A order none rs s

/-- pipeline.cc:1427-1431: the constants that are left -/
def finish (r : Rng × LSt) : List ANest := (r.2.consts.foldl (fun r c => constant c r) r.1).body

/-- The state of a new builder. -/
def initA : LSt := ⟨0, fun _ => [], fun _ => ⟨0, -1, -1⟩, []⟩

/-- The statement of a pipeline: pipeline.cc:1573-1576 -/
def buildPipeline (n : Nat) : Option (List ANest) := do
  let (order, deps) ← (A.toS).topoSort n
  let s ← (A.toS).computeLocs order deps
  let r ← makeRootA A s.cAt s.rAt order n initA
  some (finish r)

end APipe

end Slinky
