import Verif.ForEach

/-!
# Model of `copy` and `pad` (buffer.cc:262-485)

Memory is a function from addresses to bytes. The result of an operation is the memory after it; `none`: undefined behavior (a null
pointer is dereferenced, the ranges of a `memcpy` overlap, a variable is used before it is initialized), or an assertion fails.

Simplifications:
* Integers are unbounded, and pointers are integers (`none`: null).
* The shallow copies of the buffers and their dimensions (buffer.cc:424-431, 436-438, 460-462, 469-471) are values.
* The memory of the local `fill_value_buffer` is separate from `Mem`.
* The assertion `dst.base || dst.elem_count() == 0` is not modelled: if it fails, a null pointer is written, which is `none` anyway.
-/

namespace Slinky
namespace Copy

open FE (Ptrs)

/-- The bytes of the memory. -/
abbrev Mem := Int → UInt8

/-- `memcpy` -/
def memcpy (dst src : Option Int) (n : Int) (m : Mem) : Option Mem :=
  match dst, src with
  | some d, some s =>
    if n ≤ 0 ∨ d + n ≤ s ∨ s + n ≤ d then some fun a => if d ≤ a ∧ a < d + n then m (s + (a - d)) else m a
    else none
  | _, _ => none

/-- `memset` -/
def memset (dst : Option Int) (v : UInt8) (n : Int) (m : Mem) : Option Mem :=
  match dst with
  | some d => some fun a => if d ≤ a ∧ a < d + n then v else m a
  | none => none

/-- What the pointer `value` of `fill` points to: memory, or the local `fill_value_buffer`. -/
inductive Val
  | ptr (p : Option Int)
  | buf (l : List UInt8)
deriving DecidableEq, Repr

/-- `memcpy` from `value`. -/
def memcpyVal (dst : Option Int) (v : Val) (n : Int) (m : Mem) : Option Mem :=
  match v with
  | .ptr p => memcpy dst p n m
  | .buf l =>
    match dst with
    | some d =>
      if n ≤ l.length then some fun a => if d ≤ a ∧ a < d + n then (l[(a - d).toNat]?).getD 0 else m a
      else none
    | none => none

/-- The first byte of `value`. -/
def Val.head (v : Val) (m : Mem) : Option UInt8 :=
  match v with
  | .ptr p => p.map m
  | .buf l => l.head?

/-- buffer.cc:263-272 `is_repeated_byte` (the pointer is not null) -/
def isRepeatedByte (p size : Int) (m : Mem) : Bool :=
  (List.range (size - 1).toNat).all fun i : Nat => decide (m p = m (p + (i + 1)))

/-- buffer.cc:279-285 `fill`, the loop; `fuel` is at least the number of iterations. -/
def fillLoop (v : Val) (elem : Int) : Nat → Option Int → Int → Mem → Option Mem
  | 0, dst, size, m => memcpyVal dst v size m
  | n + 1, dst, size, m =>
    if size ≥ elem then (memcpyVal dst v elem m).bind fun m => fillLoop v elem n (FE.offs dst elem) (size - elem) m
    else memcpyVal dst v size m

/-- buffer.cc:274-288 `fill` -/
def fill (dst : Option Int) (v : Val) (elem size : Int) (m : Mem) : Option Mem :=
  if elem = 1 then (v.head m).bind fun b => memset dst b size m
  else if elem > 0 then fillLoop v elem size.toNat dst size m
  else none

/-- buffer.cc:303-306 the loop of `optimize_fill_value`; `fuel` is at least the number of iterations. -/
def duplicate (target : Int) : Nat → List UInt8 → Int → List UInt8 × Int
  | 0, l, elem => (l, elem)
  | n + 1, l, elem => if elem * 2 ≤ target then duplicate target n (l ++ l) (elem * 2) else (l, elem)

/-- buffer.cc:290-309 `optimize_fill_value`: the value and its size. -/
def optimizeFillValue (p elem fillSize : Int) (m : Mem) : Val × Int :=
  if isRepeatedByte p elem m then (.ptr (some p), 1)
  else
    let target := Min.min 64 fillSize
    if elem * 2 ≤ target then
      let r := duplicate target 64 ((List.range elem.toNat).map fun i : Nat => m (p + i)) elem
      (.buf r.1, r.2)
    else (.ptr (some p), elem)

/-- buffer.cc:353-356 the variables of the callback: `cached_src`, and `buffer_value`, `buffer_elem_size` (`none`: not initialized) -/
structure FillState where
  cached : Option Int
  value : Option (Val × Int)

/-- buffer.cc:358-366 the callback of the fill. -/
def fillCall (elem size : Int) (dst src : Option Int) (st : FillState) (m : Mem) : Option (FillState × Mem) :=
  if st.cached ≠ src then
    match src with
    | none => none
    | some s =>
      let v := optimizeFillValue s elem size m
      (fill dst v.1 v.2 size m).map fun m => (⟨some s, some v⟩, m)
  else
    match st.value with
    | none => none
    | some v => (fill dst v.1 v.2 size m).map fun m => (st, m)

/-- buffer.cc:311-318 `slice_dim0` -/
def sliceDim0 (b : Buf) : Buf := { b with dims := b.dims.tail }

/-- The calls of `memcpy` in a loop over slices or elements. -/
def memcpys (size : Int → Int) : List (Ptrs × Int) → Mem → Option Mem
  | [], m => some m
  | ([d, s], n) :: cs, m => (memcpy d s (size n) m).bind fun m => memcpys size cs m
  | _ :: _, _ => none

/-- The calls of the callback of the fill in a loop over elements. -/
def fillCalls (elem size : Int) : List Ptrs → FillState → Mem → Option Mem
  | [], _, m => some m
  | [d, s] :: cs, st, m => (fillCall elem size d s st m).bind fun r => fillCalls elem size cs r.1 r.2
  | _ :: _, _, _ => none

/-- buffer.cc:330-387 `copy_impl` -/
def copyImpl (src dst : Buf) (m : Mem) : Option Mem :=
  if src.elem ≠ dst.elem then none
  else
    let elem := dst.elem
    let dd := dst.dim 0
    let sd := src.dim 0
    if dd.empty then some m
    else if dd.fold > 0 ∨ sd.fold > 0 ∨ dd.stride ≠ elem ∨ (sd.stride ≠ 0 ∧ sd.stride ≠ elem) then
      memcpys (fun extent => extent * elem) (FE.forEachContiguousSlice ⟨dst, [src]⟩) m
    else
      let size := dd.extent * elem
      if sd.stride = 0 then
        fillCalls elem size (FE.forEachElement ⟨sliceDim0 dst, [sliceDim0 src]⟩) ⟨none, none⟩ m
      else if (dd.min = dd.max ∨ sd.stride = elem) ∧ sd.min ≤ dd.min ∧ sd.max + 1 ≥ dd.max + 1 then
        memcpys (fun _ => size)
          ((FE.forEachElement ⟨sliceDim0 dst, [{ sliceDim0 src with base := FE.offs src.base (sd.flatOffset dd.min) }]⟩).map (·, 1)) m
      else none

/-- buffer.cc:389-419 `pad_impl`, for the dimensions below the first argument. The result: `src`, `dst`, and the memory. -/
def padImpl : Nat → Buf → Buf → Buf → Mem → Option (Buf × Buf × Mem)
  | 0, src, dst, _, m => some (src, dst, m)
  | d + 1, src, dst, pad, m =>
    let sd := src.dim d
    if sd.isBroadcast then padImpl d src dst pad m
    else
      let dd := dst.dim d
      (if dd.min < sd.min then copyImpl pad (dst.crop d dd.min (sd.min - 1)) m else some m).bind fun m =>
      (if dd.max > sd.max then copyImpl pad (dst.crop d (sd.max + 1) dd.max) m else some m).bind fun m =>
      padImpl d (src.crop d dd.min dd.max) (dst.crop d sd.min sd.max) pad m

/-- buffer.cc:423-453 `copy(src, dst, pad)` -/
def copy (src dst pad : Buf) (m : Mem) : Option Mem :=
  if dst.elem ≠ src.elem then none
  else if src.rank > 0 ∧ pad.base.isSome then
    if dst.elem ≠ pad.elem then none
    else
      match optimizeDims ⟨dst, [src, pad]⟩ with
      | ⟨dst, [src, pad]⟩ =>
        (padImpl (Min.min src.rank dst.rank) src dst pad m).bind fun r =>
          if r.1.base = r.2.1.base then some r.2.2 else copyImpl r.1 r.2.1 r.2.2
      | _ => none
  else
    match optimizeDims ⟨dst, [src]⟩ with
    | ⟨dst, [src]⟩ => copyImpl src dst m
    | _ => none

/-- buffer.cc:455-480 `pad(in_bounds, dst, pad)` -/
def pad (inBounds : List Dim) (dst pad : Buf) (m : Mem) : Option Mem :=
  if dst.elem ≠ pad.elem then none
  else if dst.rank = 0 then some m
  else
    let src : Buf := ⟨none, dst.elem, (List.range dst.rank).map fun d =>
      let b := (inBounds[d]?).getD .broadcast
      ⟨b.min, b.max, 0, b.fold⟩⟩
    match optimizeDims ⟨dst, [src, pad]⟩ with
    | ⟨dst, [src, pad]⟩ => (padImpl (Min.min src.rank dst.rank) src dst pad m).map fun r => r.2.2
    | _ => none

end Copy
end Slinky
