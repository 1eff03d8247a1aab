import Verif.Arith

/-!
# Model of `slinky/base/modulus_remainder.h` for `T = index_t` (64 bits)

`none` = signed overflow (undefined behaviour). `INT64_MIN % -1` inside `gcd` is not modelled as UB.
-/

namespace Slinky

/-- modulus_remainder.h:25-34 `modulus_remainder<T>` (default: all integers). -/
structure MR where
  m : Int := 1
  r : Int := 0
deriving DecidableEq, Repr

namespace MR

/-- modulus_remainder.h:12-16: the set represented: all `x` such that `x = modulus * y + remainder` for some `y`. -/
def Mem (x : Int) (a : MR) : Prop := ∃ y, x = a.m * y + a.r

/-- `euclidean_mod(r, m, r)`: Euclidean modulo, defined to be `r` when `m = 0`. (Lean's `r % 0 = r`.) -/
def emodSelf (r m : Int) : Int := if m = 0 then r else r % m

/-- modulus_remainder.h:36-44 `operator+` -/
def add (a b : MR) : MR :=
  let (o, r) := addWithOverflow 64 a.r b.r
  if !o then
    let m := gcd a.m b.m
    ⟨m, emodSelf r m⟩
  else ⟨1, r⟩

/-- modulus_remainder.h:46-54 `operator-` -/
def sub (a b : MR) : MR :=
  let (o, r) := subWithOverflow 64 a.r b.r
  if !o then
    let m := gcd a.m b.m
    ⟨m, emodSelf r m⟩
  else ⟨1, r⟩

/-- modulus_remainder.h:56-93 `operator*` -/
def mul (a b : MR) : MR :=
  if a.m = 0 then
    let (o1, m) := mulWithOverflow 64 a.r b.m
    let (o2, r) := mulWithOverflow 64 a.r b.r
    if !o1 && !o2 then ⟨m, r⟩ else {}
  else if b.m = 0 then
    let (o1, m) := mulWithOverflow 64 a.m b.r
    let (o2, r) := mulWithOverflow 64 a.r b.r
    if !o1 && !o2 then ⟨m, r⟩ else {}
  else if a.r = 0 ∧ b.r = 0 then
    let (o, m) := mulWithOverflow 64 a.m b.m
    if !o then ⟨m, 0⟩ else {}
  else if a.r = 0 then
    let g := gcd b.m b.r
    let (o, m) := mulWithOverflow 64 a.m g
    if !o then ⟨m, 0⟩ else {}
  else if b.r = 0 then
    let g := gcd a.m a.r
    let (o, m) := mulWithOverflow 64 b.m g
    if !o then ⟨m, 0⟩ else {}
  else
    let (o, r) := mulWithOverflow 64 a.r b.r
    if !o then
      let m := gcd a.m b.m
      ⟨m, emodSelf r m⟩
    else {}

/-- modulus_remainder.h:95-117 `operator/`. `none`: overflow of `INT64_MIN / -1`. -/
def div (a b : MR) : Option MR :=
  if b.m = 0 ∧ b.r ≠ 0 then
    if emodSelf a.m b.r = 0 then do
      let m ← chk 64 (a.m.tdiv b.r)
      let r ← euclideanDiv 64 a.r b.r
      return ⟨m, emodSelf r m⟩
    else some {}
  else some {}

/-- modulus_remainder.h:119-152 `operator|` after the swap that ensures `a.remainder >= b.remainder`. -/
def unionOrdered (a b : MR) : MR :=
  let modulus := gcd a.m b.m
  let (o, diff) := subWithOverflow 64 a.r b.r
  if o then {}
  else
    let modulus := gcd diff modulus
    ⟨modulus, emodSelf a.r modulus⟩

/-- modulus_remainder.h:119-152 `operator|` -/
def union (a b : MR) : MR := if b.r > a.r then unionOrdered b a else unionOrdered a b

/-- modulus_remainder.h:154-178 `operator&`. `none`: the unchecked product in `lcm` overflows. -/
def inter (a b : MR) : Option MR :=
  if a.m = 0 then some a
  else if b.m = 0 then some b
  else if a.r = 0 ∧ b.r = 0 then do
    let l ← lcm 64 a.m b.m
    return ⟨l, 0⟩
  else if a.m > b.m then some a
  else some b

/-- modulus_remainder.h:180-212 `operator%` -/
def mod (a b : MR) : MR :=
  let modulus := gcd a.m b.m
  let modulus := gcd modulus b.r
  let remainder := emodSelf a.r modulus
  if b.r = 0 ∧ remainder ≠ 0 then
    if modulus = 0 then ⟨modulus, 0⟩ else ⟨1, 0⟩
  else ⟨modulus, remainder⟩

end MR

end Slinky
