import Verif.ViewsTrans

/-!
# `make_buffer` that is a view of another buffer

The simplifier replaces a `make_buffer` whose base is `buffer_at` of a buffer by a slice, a crop or a transpose of the buffer
(`visit(const make_buffer*)` of the simplifier).
-/

namespace Slinky.MV

open Slinky VW

/-! ## The code -/

/-- simplify.cc:1690-1700 `is_buffer_dim(d, sym)`: the dimension of the buffer that `d` is (`none`: -1). -/
def bufDim (d : DimE) (src : Nat) : Option Int :=
  match d.bounds.min with
  | .var y .min k =>
    if y = src ∧ d.bounds.max = .var src .max k ∧ d.stride = .var src .stride k ∧ d.fold = .var src .foldFactor k then some k else none
  | _ => none

/-- simplify.cc:1800-1811: the loop of `is_slice`, `n` iterations from dimension `d`; `as` are the arguments from `d` on, `ds` the dimensions that are left. -/
def sliceLoop (src : Nat) : Nat → Nat → List Expr → List DimE → Bool
  | 0, _, _, ds => ds.isEmpty
  | n + 1, d, a :: as, ds =>
    if a.defined then sliceLoop src n (d + 1) as ds
    else match ds with
      | [] => false
      | D :: ds => decide (bufDim D src = some (d : Int)) && sliceLoop src n (d + 1) as ds
  | n + 1, d, [], ds => match ds with
      | [] => false
      | D :: ds => decide (bufDim D src = some (d : Int)) && sliceLoop src n (d + 1) [] ds

/-- simplify.cc:1796-1812 `is_slice`; `as` are the arguments of `buffer_at` after the buffer. -/
def isSlice (src : Nat) (as : List Expr) (dims : List DimE) : Bool := sliceLoop src (dims.length + as.countP (·.defined)) 0 as dims

/-- simplify.cc:1825-1842: the loop of `is_crop` from dimension `d`. -/
def cropLoop (src : Nat) : Nat → List Expr → List DimE → Bool
  | _, _, [] => true
  | d, as, D :: ds =>
    decide (D.stride = .var src .stride d) && decide (D.fold = .var src .foldFactor d) &&
      matchE D.bounds.min (match as with
        | a :: _ => if a.defined then a else .var src .min d
        | [] => .var src .min d) && cropLoop src (d + 1) as.tail ds

/-- simplify.cc:1823-1843 `is_crop` -/
def isCrop (src : Nat) (as : List Expr) (dims : List DimE) : Bool := decide (as.length ≤ dims.length) && cropLoop src 0 as dims

/-- simplify.cc:1855-1864: the permutation; `bcast` is `prove_constant_true(is_broadcast())`. -/
def permLoop (newDim : Nat) (src : Nat) (bcast : DimE → Bool) : List DimE → Option (List Nat)
  | [] => some []
  | D :: ds => match bufDim D src with
    | some k => if 0 ≤ k then (permLoop newDim src bcast ds).map (k.toNat :: ·)
      else if bcast D then (permLoop newDim src bcast ds).map (newDim :: ·) else none
    | none => if bcast D then (permLoop newDim src bcast ds).map (newDim :: ·) else none

/-- simplify.cc:1784-1791 `make_truncate`. `rank`: the rank that is known of the buffer (-1: not known), if anything is known of it. -/
def truncate (rank : Option Int) (x n : Nat) (body : Stmt) : Stmt :=
  match rank with
  | some r => if r ≤ n then body else .transpose x x (List.range n) body
  | none => .transpose x x (List.range n) body

/-- simplify.cc:1767-1873: what `make_buffer(x, buffer_at(src, as...), elem, dims)` becomes; `none`: it is not a view. (The metadata were
simplified and written as metadata of `src` before, simplify.cc:1757, 1776.) -/
def toView (newDim : Nat) (bcast : DimE → Bool) (rank : Option Int) (x src : Nat) (as : List Expr) (elem : Expr) (dims : List DimE) (body : Stmt) : Option Stmt :=
  if elem = .var src .elemSize (-1) then
    if isSlice src as dims then some (.sliceBuffer x src as (truncate rank x dims.length body))
    else if isCrop src as dims then some (.cropBuffer x src (dims.map (·.bounds)) (truncate rank x dims.length body))
    else if as = [] then (permLoop newDim src bcast dims).map fun p => .transpose x src p body
    else none
  else none

/-! ## Specification -/

/-- `buffer_at(src, as...)` -/
def bufferAtE (src : Nat) (as : List Expr) : Expr := .call .bufferAt (.cons (.v src) (.ofList as))

/-- The `make_buffer`. -/
def makeHead (src : Nat) (as : List Expr) (elem : Expr) (dims : List DimE) : Head := .makeBuffer (bufferAtE src as) elem dims

end Slinky.MV
