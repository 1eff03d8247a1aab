import Mathlib.Data.Int.Bitwise

/-!
# Model of `slinky/base/arithmetic.h`

Machine integers of a signed two's complement type with `w` bits are mathematical integers; an operation whose
C++ result is not representable (undefined behaviour) yields `none`.
-/

namespace Slinky

/-- `x` is representable in a signed `w`-bit type. -/
def InRange (w : Nat) (x : Int) : Prop := -(2 : Int) ^ (w - 1) ≤ x ∧ x < (2 : Int) ^ (w - 1)

instance (w : Nat) (x : Int) : Decidable (InRange w x) := by unfold InRange; infer_instance

/-- `std::numeric_limits<T>::max()` -/
def maxOf (w : Nat) : Int := (2 : Int) ^ (w - 1) - 1
/-- `std::numeric_limits<T>::min()` -/
def minOf (w : Nat) : Int := -(2 : Int) ^ (w - 1)

/-- The result of a plain signed C++ operation: undefined behaviour (`none`) if not representable. -/
def chk (w : Nat) (x : Int) : Option Int := if InRange w x then some x else none

/-- C++ `a >> k` for signed `a` (arithmetic shift). -/
def asr (a : Int) (k : Nat) : Int := a >>> k

/-- arithmetic.h:17-29 `euclidean_div` (with `define_b_zero = 0`): C++ `/` and `%` truncate; `q - (rs & bs) + (rs & ~bs)`.
`a / b` overflows (UB) when `a = min, b = -1`. -/
def euclideanDiv (w : Nat) (a b : Int) : Option Int :=
  if b = 0 then some 0
  else do
    let q ← chk w (a.tdiv b)
    let r := a.tmod b
    let bs := asr b (w - 1)
    let rs := asr r (w - 1)
    let t ← chk w (q - Int.land rs bs)
    chk w (t + Int.land rs (Int.not bs))

/-- arithmetic.h:31-38 `euclidean_mod` (with `define_b_zero = 0`). (`a % b` with `a = min, b = -1` is UB in C++.) -/
def euclideanMod (w : Nat) (a b : Int) : Option Int :=
  if b = 0 then some 0
  else do
    let _ ← chk w (a.tdiv b)
    let r := a.tmod b
    if r ≥ 0 then some r else if b < 0 then chk w (r - b) else chk w (r + b)

/-- arithmetic.h:40-48 `euclidean_div_positive_divisor` -/
def euclideanDivPositiveDivisor (w : Nat) (a b : Int) : Option Int := do
  let q ← chk w (a.tdiv b)
  let r := a.tmod b
  let rs := asr r (w - 1)
  chk w (q + rs)

/-- arithmetic.h:50-55 `euclidean_mod_positive_modulus` -/
def euclideanModPositiveModulus (w : Nat) (a b : Int) : Option Int :=
  let r := a.tmod b
  if r ≥ 0 then some r else chk w (r + b)

/-- arithmetic.h:58-61 `floor_div` -/
def floorDiv (w : Nat) (a b : Int) : Option Int := euclideanDiv w a b

/-- arithmetic.h:64-67 `round_div` -/
def roundDiv (w : Nat) (a b : Int) : Option Int := do
  let s ← chk w (a + asr b 1)
  floorDiv w s b

/-- arithmetic.h:70-73 `ceil_div` -/
def ceilDiv (w : Nat) (a b : Int) : Option Int := do
  let s ← chk w (a + b)
  let s ← chk w (s - 1)
  floorDiv w s b

/-- arithmetic.h:76-79 `align_up` -/
def alignUp (w : Nat) (x n : Int) : Option Int := do
  let q ← ceilDiv w x n
  chk w (q * n)

/-- arithmetic.h:82-85 `align_down` -/
def alignDown (w : Nat) (x n : Int) : Option Int := do
  let q ← floorDiv w x n
  chk w (q * n)

/-- `__builtin_*_overflow` on a mathematical result `r`: returns (overflowed, wrapped result). -/
def builtinOverflow (w : Nat) (r : Int) : Bool × Int :=
  (decide (¬ InRange w r), Int.bmod r (2 ^ w))

/-- arithmetic.h:97-105 `add_sat` -/
def addSat (w : Nat) (a b : Int) : Int :=
  let (o, r) := builtinOverflow w (a + b)
  if !o then r else if asr a 1 + asr b 1 > 0 then maxOf w else minOf w

/-- arithmetic.h:107-115 `sub_sat` -/
def subSat (w : Nat) (a b : Int) : Int :=
  let (o, r) := builtinOverflow w (a - b)
  if !o then r else if asr a 1 - asr b 1 > 0 then maxOf w else minOf w

/-- arithmetic.h:117-121 `sign` -/
def sgn (x : Int) : Int := if x = 0 then 0 else if x > 0 then 1 else -1

/-- arithmetic.h:123-131 `mul_sat` -/
def mulSat (w : Nat) (a b : Int) : Int :=
  let (o, r) := builtinOverflow w (a * b)
  if !o then r else if sgn a * sgn b > 0 then maxOf w else minOf w

/-- arithmetic.h:133-141 `div_sat` -/
def divSat (w : Nat) (a b : Int) : Option Int :=
  if b = -1 ∧ a = minOf w then some (maxOf w) else euclideanDiv w a b

/-- arithmetic.h:143-147 `add_overflows` -/
def addOverflows (w : Nat) (a b : Int) : Bool := (builtinOverflow w (a + b)).1
/-- arithmetic.h:149-153 `sub_overflows` -/
def subOverflows (w : Nat) (a b : Int) : Bool := (builtinOverflow w (a - b)).1
/-- arithmetic.h:155-159 `mul_overflows` -/
def mulOverflows (w : Nat) (a b : Int) : Bool := (builtinOverflow w (a * b)).1

/-- arithmetic.h:164-171 `add_with_overflow`: (overflows, result). -/
def addWithOverflow (w : Nat) (a b : Int) : Bool × Int :=
  let (o, r) := builtinOverflow w (a + b)
  (o, if o then 0 else r)
/-- arithmetic.h:173-180 `sub_with_overflow`: (overflows, result). -/
def subWithOverflow (w : Nat) (a b : Int) : Bool × Int :=
  let (o, r) := builtinOverflow w (a - b)
  (o, if o then 0 else r)
/-- arithmetic.h:182-189 `mul_with_overflow`: (overflows, result). -/
def mulWithOverflow (w : Nat) (a b : Int) : Bool × Int :=
  let (o, r) := builtinOverflow w (a * b)
  (o, if o then 0 else r)

/-- arithmetic.h:196-200, the `while (b != 0)` loop of `gcd`; C++ `%` truncates. -/
def gcdLoop (a b : Int) : Int :=
  if h : b = 0 then a else gcdLoop b (a.tmod b)
termination_by b.natAbs
decreasing_by
  simp only [Int.natAbs_tmod]
  exact Nat.mod_lt _ (Int.natAbs_pos.mpr h)

/-- arithmetic.h:191-202 `gcd` -/
def gcd (a b : Int) : Int := if a < b then gcdLoop b a else gcdLoop a b

/-- arithmetic.h:204-207 `lcm`: `(a * b) / gcd(a, b)`, where `a * b` may overflow. -/
def lcm (w : Nat) (a b : Int) : Option Int := do
  let p ← chk w (a * b)
  let g := gcd a b
  if g = 0 then none else chk w (p.tdiv g)

/-- arithmetic.h:209-212 `is_power_of_two` -/
def isPowerOfTwo (x : Int) : Bool := x > 0 && Int.land x (x - 1) == 0

/-- Mathematical meaning of slinky's `/` (Euclidean, division by zero is 0). -/
def ediv (a b : Int) : Int := a / b
/-- Mathematical meaning of slinky's `%` (Euclidean, modulo zero is 0). -/
def emod (a b : Int) : Int := if b = 0 then 0 else a % b

/-- arithmetic.h:215-218 `staircase` (mathematical value, no overflow). -/
def staircase (x a b c : Int) : Int := ediv (x + a) b * c

/-- arithmetic.h:220-238 `interval<T>`: a missing end means unbounded. -/
structure CInterval where
  min : Option Int
  max : Option Int
deriving DecidableEq, Repr

/-- arithmetic.cc:20-30: the search of one period `x = 0 .. period-1` for the min and max of the sum, given the
values accumulated so far. Modelled over mathematical integers (the C++ uses `int`; see `staircaseSumBounds32`). -/
def stairSearch (f : Int → Int) : Nat → Int → Option (Int × Int) → Option (Int × Int)
  | 0, _, acc => acc
  | n + 1, x, acc =>
    let y := f x
    stairSearch f n (x + 1) (match acc with
      | none => some (y, y)
      | some (mn, mx) => some (Min.min mn y, Max.max mx y))

/-- arithmetic.cc:8-33 `staircase_sum_bounds`, over mathematical integers. The C++ starts from
`min = INT_MAX, max = INT_MIN`; the period is at least 1, so both are overwritten by the first iteration. -/
def staircaseSumBounds (a1 b1 c1 a2 b2 c2 : Int) : CInterval :=
  if b1 = 0 ∧ b2 = 0 then ⟨some 0, some 0⟩
  else if c1 * b2 ≠ -c2 * b1 then ⟨none, none⟩
  else if b1 = 0 ∨ b2 = 0 then ⟨none, none⟩
  else if b1.natAbs > 1024 ∨ b2.natAbs > 1024 then ⟨none, none⟩
  else
    let period := ((b1.natAbs : Int) * b2.natAbs).tdiv (gcd b1.natAbs b2.natAbs)
    match stairSearch (fun x => ediv (x + a1) b1 * c1 + ediv (x + a2) b2 * c2) period.toNat 0 none with
    | none => ⟨none, none⟩
    | some (mn, mx) => ⟨some mn, some mx⟩

/-- Conversion of an `index_t` argument to the `int` parameter of `staircase_sum_bounds` (modulo 2^32). -/
def toInt32 (x : Int) : Int := Int.bmod x (2 ^ 32)

/-- `staircase_sum_bounds` as called with `index_t` arguments (rewrite.h, simplify_bounds.cc:77): every argument is
first truncated to a 32-bit `int`. (Overflow of the `int` arithmetic inside is not modelled.) -/
def staircaseSumBounds32 (a1 b1 c1 a2 b2 c2 : Int) : CInterval :=
  staircaseSumBounds (toInt32 a1) (toInt32 b1) (toInt32 c1) (toInt32 a2) (toInt32 b2) (toInt32 c2)

end Slinky
