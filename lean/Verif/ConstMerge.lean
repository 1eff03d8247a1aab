import Verif.FoldSlice

/-!
# Merging equal constants (`slinky/builder/simplify.cc`, `visit(const constant_buffer*)`)

The simplifier replaces a constant by another constant in scope that has the same value.

Simplifications: constants are numbered (the number is the pointer to the constant), and `heap` has the constant of each number. A
`constant_buffer` declares the buffer of its constant. Expressions in declarations have been evaluated.
-/

namespace Slinky.CM

open Slinky FE

/-! ## The code -/

/-- `memcmp(p, q, n) == 0`. `none`: a null pointer is read. -/
def memEq (m : Copy.Mem) (n : Int) : Option Int → Option Int → Option Bool
  | some p, some q => some ((List.range n.toNat).all fun k => m (p + k) == m (q + k))
  | _, _ => if n ≤ 0 then some true else none

/-- simplify.cc:62-67 the calls of the callback, in order. -/
def cmpSlices (m : Copy.Mem) (elem : Int) : List Call → Bool → Option Bool
  | [], eq => some eq
  | c :: cs, eq =>
    if eq then
      match c.1 with
      | [p, q] => (memEq m (c.2 * elem) p q).bind (cmpSlices m elem cs)
      | _ => none
    else cmpSlices m elem cs false

/-- simplify.cc:53-69 `buffers_equal`. `none`: a null pointer is read. -/
def buffersEqual (m : Copy.Mem) (a b : Buf) : Option Bool :=
  if a.rank ≠ b.rank then some false
  else if a.elem ≠ b.elem then some false
  else if a.dims ≠ b.dims then some false
  else cmpSlices m a.elem (forEachContiguousSlice ⟨a, [b]⟩) true

/-- simplify.cc:1900-1909: the loop over the symbols from `i`, `n` of them; `known` is `buffers[i]->constant`, `c` the constant of the `constant_buffer`. -/
def findParent (m : Copy.Mem) (heap : Nat → Buf) (known : Nat → Option Nat) (c : Nat) : Nat → Nat → Option (Option Nat)
  | 0, _ => some none
  | n + 1, i =>
    match known i with
    | none => findParent m heap known c n (i + 1)
    | some p =>
      if p = c then some (some i)
      else if (heap c).sizeBytes < 256 then
        (buffersEqual m (heap p) (heap c)).bind fun e => if e then some (some i) else findParent m heap known c n (i + 1)
      else findParent m heap known c n (i + 1)

/-- Declarations around a statement. -/
inductive Decl
  /-- `constant_buffer` -/
  | const (x c : Nat)
  /-- `crop_dim`, `crop_buffer` of one dimension -/
  | crop (x src d : Nat) (mn mx : Int)
  /-- `slice_dim`, `slice_buffer` of one dimension -/
  | slice (x src d : Nat) (v : Int)
  /-- a declaration of a buffer that is not a constant -/
  | other (x : Nat) (b : Buf)

/-- What is known in the body of a declaration: `constant_buffer` simplify.cc:1912-1914 sets the constant; a crop 2121, 2191 and a slice 2270, 2336 copy what is
known of the source and change the dimensions only; other declarations start with nothing. -/
def track (known : Nat → Option Nat) : Decl → Nat → Option Nat
  | .const x c => Function.update known x (some c)
  | .crop x src _ _ _ => Function.update known x (known src)
  | .slice x src _ _ => Function.update known x (known src)
  | .other x _ => Function.update known x none

/-! ## Specification -/

/-- The buffers in the body of a declaration. -/
def declare (heap : Nat → Buf) (ρ : Nat → Buf) : Decl → Nat → Buf
  | .const x c => Function.update ρ x (heap c)
  | .crop x src d mn mx => Function.update ρ x ((ρ src).crop d mn mx)
  | .slice x src d v => Function.update ρ x ((ρ src).slice d v)
  | .other x b => Function.update ρ x b

/-- Two constants have the same value: the same dimensions and the same elements. -/
structure SameConst (m : Copy.Mem) (a b : Buf) : Prop where
  elem : a.elem = b.elem
  dims : a.dims = b.dims
  value : ∀ is, a.InBounds is → ∃ p q, a.address is = some p ∧ b.address is = some q ∧ ∀ k : Nat, k < a.elem → m (p + k) = m (q + k)

/-- A constant: it has memory, dimensions that the loops support, and at most one dimension whose stride is that of an element. -/
structure Const (b : Buf) : Prop where
  base : b.base.isSome
  elem : 0 ≤ b.elem
  dims : ∀ d ∈ b.dims, OkDim d
  one : OneSlice ⟨b, []⟩

/-- Crops and slices are not of constants. -/
def Decl.Ok (known : Nat → Option Nat) : Decl → Prop
  | .crop _ src _ _ _ => known src = none
  | .slice _ src _ _ => known src = none
  | _ => True

/-- Declarations, the outermost first. -/
def AllOk : (Nat → Option Nat) → List Decl → Prop
  | _, [] => True
  | T, d :: ds => d.Ok T ∧ AllOk (track T d) ds

end Slinky.CM
