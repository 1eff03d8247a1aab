import Verif.Buffer

/-!
# Model of `for_each_element` and `for_each_contiguous_slice` (buffer.cc:509-940, buffer.h:985-1064)

`plan` is the first part of `for_each_impl`: it makes the list of loops; `run` runs them. The result is the list of the calls
of the callback: the pointers (`none`: null), one per buffer, and the extent of the slice (1 for `for_each_element`).

Simplifications:
* Integers are unbounded, and pointers are integers.
* The plan is a list, not a structure in memory. The function pointers are the constructors of `Loop`.
* The loop in the callback (buffer.h:1032-1039, 1053-1058) is the loop of `call_impl_linear`, `doWhile`. So the last loop, that
  calls the callback with the extent and the strides, is the same as a loop that calls the callback for each step.
* `&buf_n == &buf` (the same object as the first buffer is passed twice) is not modelled: it is a shortcut for checks that
  succeed for equal buffers anyway.
-/

namespace Slinky
namespace FE

/-- The pointers `bases`, one per buffer. -/
abbrev Ptrs := List (Option Int)

/-- buffer.h:41-43 `offset_bytes` -/
def offs (p : Option Int) (o : Int) : Option Int := p.map (· + o)

/-- buffer.cc:514-530 `is_contiguous_slice` -/
def isContiguousSlice (bs : Bufs) (d : Nat) : Bool :=
  decide ((bs.first.dim d).stride = bs.first.elem) &&
    bs.rest.all fun b => b.base.isNone || decide ((b.dim d).stride = b.elem)

/-- buffer.cc:554-575: can the dimensions `d - 1` and `d` of another buffer be fused? -/
def canFuseOther (bi : Dim) (d : Nat) (b : Buf) : Bool :=
  b.base.isNone || decide (d > b.rank) ||
    (let i := b.dim (d - 1)
     decide (i.min = bi.min) && decide (i.max = bi.max) && decide (i.stride * bi.extent = (b.dim d).stride) &&
       !(decide ((b.dim d).stride ≠ 0) && decide (i.fold > 0)))

/-- buffer.cc:532-580 `can_fuse` -/
def canFuse (bs : Bufs) (d : Nat) : Bool :=
  let bi := bs.first.dim (d - 1)
  let bo := bs.first.dim d
  decide (bi.stride * bi.extent = bo.stride) && !(decide (bo.stride ≠ 0) && decide (bi.fold > 0)) &&
    bs.rest.all (canFuseOther bi d)

/-- buffer.cc:587-614 `use_nonlinear_loop` -/
def useNonlinear (bs : Bufs) (d : Nat) : Bool :=
  let bd := bs.first.dim d
  bd.isFolded bd.min bd.max ||
    bs.rest.any fun b => b.base.isSome && decide (d < b.rank) &&
      ((b.dim d).isFolded bd.min bd.max || !(b.dim d).containsI bd.min bd.max)

/-- buffer.cc:633-645 `for_each_loop` -/
inductive Loop
  /-- `for_each_impl_linear` -/
  | linear (extent : Int) (strides : List Int)
  /-- `for_each_impl_nonlinear` -/
  | nonlinear (fold : Int) (dims : List Dim) (contiguous : Bool)
deriving DecidableEq, Repr

/-- buffer.h:987-996 `increment_bases` -/
def increment (bases : Ptrs) (strides : List Int) : Ptrs := List.zipWith offs bases strides

/-- A loop with `n + 1` steps. -/
def steps {α : Type} (f : Ptrs → List α) (strides : List Int) : Nat → Ptrs → List α
  | 0, bases => f bases
  | n + 1, bases => f bases ++ steps f strides n (increment bases strides)

/-- buffer.cc:677-690 `call_impl_linear`: a loop with the test at the end. -/
def doWhile {α : Type} (extent : Int) (bases : Ptrs) (strides : List Int) (f : Ptrs → List α) : List α :=
  steps f strides (extent - 1).toNat bases

/-- buffer.cc:735-752: the pointer of another buffer at `i`. -/
def ptrOther (d : Dim) (p : Option Int) (i : Int) : Option Int :=
  match p with
  | none => none
  | some a => if d.stride = 0 then some a else if d.contains i then some (a + d.flatOffset i) else none

/-- buffer.cc:733-753: the pointers at `i`. -/
def ptrsAt (dims : List Dim) (bases : Ptrs) (i : Int) : Ptrs :=
  match dims, bases with
  | d :: ds, p :: ps => offs p (d.flatOffset i) :: List.zipWith (fun d p => ptrOther d p i) ds ps
  | _, _ => []

/-- buffer.cc:735-752: the end of the chunk that starts at `i`, for one more buffer. -/
def chunkEndOther (i : Int) (m : Int) (dp : Dim × Option Int) : Int :=
  match dp.2 with
  | none => m
  | some _ =>
    if dp.1.stride = 0 then m
    else if dp.1.contains i then Min.min m dp.1.max
    else if dp.1.min > i then Min.min m (dp.1.min - 1)
    else m

/-- buffer.cc:731-752: the end of the chunk that starts at `i`. -/
def chunkEnd (dims : List Dim) (bases : Ptrs) (i max : Int) : Int :=
  (dims.tail.zip bases.tail).foldl (chunkEndOther i) max

/-- buffer.cc:729-767 `run_one_fold`: the chunks, each with its first index and its number of indices. `n` is at least the
number of iterations of the loop, which is at most the number of indices. -/
def oneFold (dims : List Dim) (bases : Ptrs) (max : Int) : Nat → Int → List (Int × Int)
  | 0, _ => []
  | n + 1, i =>
    if i ≤ max then
      let m := chunkEnd dims bases i max
      (i, m - i + 1) :: oneFold dims bases max n (m + 1)
    else []

/-- `run_one_fold(min, max)` -/
def runOneFold (dims : List Dim) (bases : Ptrs) (min max : Int) : List (Int × Int) :=
  oneFold dims bases max (max - min + 1).toNat min

/-- buffer.cc:782-785: the loop over the folds. `n` is at least the number of iterations. -/
def foldsFrom (dims : List Dim) (bases : Ptrs) (fold max : Int) : Nat → Int → List (Int × Int)
  | 0, _ => []
  | n + 1, i =>
    if i ≤ max then runOneFold dims bases i (Min.min (i + fold - 1) max) ++ foldsFrom dims bases fold max n (i + fold)
    else []

/-- arithmetic.h:76-79 `align_up` (see C02) -/
def alignUp (x n : Int) : Int := (x + n - 1) / n * n

/-- buffer.cc:769-786: all the chunks. -/
def chunks (fold : Int) (dims : List Dim) (bases : Ptrs) (min max : Int) : List (Int × Int) :=
  if fold ≤ 0 then runOneFold dims bases min max
  else
    let first := alignUp min fold
    (if min ≠ first then runOneFold dims bases min (Min.min (first - 1) max) else []) ++
      foldsFrom dims bases fold max (max - first + 1).toNat first

/-- A call of the callback: the pointers, and the extent of the slice. -/
abbrev Call := Ptrs × Int

/-- Run the loops. -/
def run : List Loop → Ptrs → Int → List Call
  | [], bases, slice => [(bases, slice)]
  -- buffer.cc:692-703 `for_each_impl_linear`
  | .linear extent strides :: ls, bases, slice => doWhile extent bases strides fun b => run ls b slice
  -- buffer.cc:705-787 `for_each_impl_nonlinear`
  | .nonlinear fold dims contiguous :: ls, bases, slice =>
    (chunks fold dims bases (dims.headD .broadcast).min (dims.headD .broadcast).max).flatMap fun c =>
      let extent := if contiguous then 1 else c.2
      let slice' := (if contiguous then c.2 else 1) * slice
      doWhile extent (ptrsAt dims bases c.1) (dims.map (·.stride)) fun b => run ls b slice'

/-- buffer.cc:789-793 `gcd_fold_factor` -/
def gcdFold (a b : Int) : Int := if a ≤ 0 then b else if b ≤ 0 then a else Int.gcd a b

/-- buffer.cc:833-842: the intersection of the folds -/
def loopFold (bs : Bufs) (d : Nat) : Int :=
  bs.rest.foldl (fun f b => if d < b.rank then gcdFold f (b.dim d).fold else f) (bs.first.dim d).fold

/-- buffer.cc:861-872: the pointer of another buffer at the min of the dimension. -/
def alignOther (bd : Dim) (d : Nat) (b : Buf) (p : Option Int) : Option Int :=
  match p with
  | none => none
  | some a =>
    if d < b.rank then
      if (b.dim d).containsI bd.min bd.max then some (a + (b.dim d).flatOffset bd.min) else none
    else some a

/-- buffer.cc:851-874: the pointers at the min of the dimension. -/
def alignBases (bs : Bufs) (d : Nat) (bases : Ptrs) : Ptrs :=
  let bd := bs.first.dim d
  match bases with
  | p :: ps =>
    (if bd.fold > 0 then offs p (bd.flatOffset bd.min) else p) :: List.zipWith (alignOther bd d) bs.rest ps
  | [] => []

/-- buffer.cc:816-896: make the loops for the dimensions below the first argument. `extent` is the extent of the outer
dimensions that are fused with the next one. The result: the loops, from the outside to the inside, the pointers, and the
extent of the slice. -/
def plan (skipContiguous : Bool) (bs : Bufs) : Nat → Int → Ptrs → Int → List Loop × Ptrs × Int
  | 0, _, bases, slice => ([], bases, slice)
  | d + 1, extent, bases, slice =>
    let bd := bs.first.dim d
    if bd.min ≠ bd.max ∧ (bd.max < bd.min ∨ useNonlinear bs d = true) then
      let r := plan skipContiguous bs d 1 bases slice
      (.nonlinear (loopFold bs d) (bs.all.map (·.dim d)) (skipContiguous && isContiguousSlice bs d) :: r.1, r.2)
    else
      let extent := if bd.min = bd.max then extent else extent * (bd.max - bd.min + 1)
      let bases := alignBases bs d bases
      if extent = 1 ∨ (d > 0 ∧ canFuse bs d = true) then plan skipContiguous bs d extent bases slice
      else if skipContiguous && isContiguousSlice bs d then plan skipContiguous bs d 1 bases (slice * extent)
      else
        let r := plan skipContiguous bs d 1 bases slice
        (.linear extent (bs.all.map fun b => (b.dim d).stride) :: r.1, r.2)

/-- buffer.cc:795-912 `for_each_impl` -/
def forEachImpl (skipContiguous : Bool) (bs : Bufs) : List Call :=
  let r := plan skipContiguous bs bs.maxRank 1 (bs.all.map (·.base)) 1
  run r.1 r.2.1 r.2.2

/-- buffer.h:1044-1060 `for_each_element`: the pointers of the calls. -/
def forEachElement (bs : Bufs) : List Ptrs := (forEachImpl false bs).map (·.1)

/-- buffer.h:1016-1041 `for_each_contiguous_slice`: the pointers and extents of the calls. -/
def forEachContiguousSlice (bs : Bufs) : List Call := forEachImpl true bs

end FE
end Slinky
