import Verif.Views

/-!
# Aliases of views (`slinky/builder/optimizations.cc`, `copy_aliaser`)

A copy may be in the scope of slices and transposes of a buffer. What was found there, an alias that starts at `at` in the view, with dimensions that are those
of the view (`permutation`), is changed to be an alias of the buffer. Expressions are their values (`none`: undefined).
-/

namespace Slinky.AV

/-- stmt.h:405 `new_dim` -/
def newDim : Nat := 2147483647

/-! ## The code -/

/-- optimizations.cc:923-925 `visit(const slice_buffer*)`: the loop over the dimensions from `d` on: `alias.at.insert(alias.at.begin() + d, op->at[d])`.
`none`: not in the vector. -/
def insertAt : Nat → List (Option Int) → List (Option Int) → Option (List (Option Int))
  | _, [], ats => some ats
  | d, none :: es, ats => insertAt (d + 1) es ats
  | d, some x :: es, ats => if d ≤ ats.length then insertAt (d + 1) es (ats.insertIdx d (some x)) else none

/-- optimizations.cc:926-928 `if (p >= d) ++p`. `none`: the `int` overflows. -/
def bump (d p : Nat) : Option Nat := if d ≤ p then (if p = newDim then none else some (p + 1)) else some p

/-- optimizations.cc:923-929 `visit(const slice_buffer*)`: the loop over the dimensions from `d` on, for an element of `permutation`. -/
def insertPerm : Nat → List (Option Int) → Nat → Option Nat
  | _, [], p => some p
  | d, none :: es, p => insertPerm (d + 1) es p
  | d, some _ :: es, p => (bump d p).bind (insertPerm (d + 1) es)

/-- optimizations.cc:934-951 `visit(const slice_dim*)`: as a slice of all dimensions that only has an index for the dimension `k`. -/
def sliceDimAt (k : Nat) (x : Int) : List (Option Int) := List.replicate k none ++ [some x]

/-- optimizations.cc:983-987 `visit(const transpose*)`: the loop `new_at[op->dims[i]] = at[i]`. `none`: not in the vector. -/
def transAt : List Nat → List (Option Int) → List (Option Int) → Option (List (Option Int))
  | p :: ps, a :: ats, new => if p < new.length then transAt ps ats (new.set p a) else none
  | _, _, new => some new

/-- optimizations.cc:983-987 -/
def transposeAt (ps : List Nat) (ats : List (Option Int)) : Option (List (Option Int)) := transAt ps ats (List.replicate ps.length none)

/-- optimizations.cc:989-993 `visit(const transpose*)`: an element of `permutation`. -/
def transPerm (ps : List Nat) (p : Nat) : Nat := if p < ps.length then ps[p]?.getD p else p

/-! ## Specification -/

/-- The base of a slice of one dimension. -/
def stepB (p : Option Int) (d : Dim) (x : Int) : Option Int :=
  match p with
  | some q => if d.contains x then some (q + d.flatOffset x) else none
  | none => none

/-- evaluate.cc:808-821 `slice_buffer`: the base and the dimensions. -/
def sliceB : Option Int → List Dim → List (Option Int) → Option Int × List Dim
  | p, d :: ds, some x :: es => sliceB (stepB p d x) ds es
  | p, d :: ds, none :: es => ((sliceB p ds es).1, d :: (sliceB p ds es).2)
  | p, ds, _ => (p, ds)

end Slinky.AV
