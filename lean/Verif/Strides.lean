import Verif.Buffer

/-!
# Model of the memory layout functions of `slinky/runtime/buffer.cc`

`calculate_flat_bounds`, `alloc_size`, `size_bytes`, `validate_buffer`, `init_strides`.

Simplification: where the C++ computes with `*_with_overflow` and records a flag, the model computes the exact integer and
the same flag. The values computed after the flag is set differ, but every function below returns failure then.
-/

namespace Slinky

/-- The flag returned by `add_with_overflow`, `sub_with_overflow`, `mul_with_overflow` on `index_t`: the exact result `r`
does not fit (arithmetic.h, modelled by `builtinOverflow`). -/
def ovf (r : Int) : Bool := (builtinOverflow 64 r).1

/-- buffer.h:69 `dim::auto_stride` -/
def Dim.autoStride : Int := 2 ^ 63 - 1

/-- buffer.cc:19-26 `alloc_extent` -/
def Dim.allocExtent (d : Dim) : Int := if d.fold > 0 then d.fold else d.extent

/-- buffer.cc:28-56 `calculate_flat_bounds`, from a partial result `(flat_min, flat_max, overflow)`. `none`: returns false. -/
def flatBoundsLoop : List Dim → Int → Int → Bool → Option (Int × Int)
  | [], lo, hi, ov => if ov then none else some (lo, hi)
  | d :: ds, lo, hi, ov =>
    if d.stride = 0 then flatBoundsLoop ds lo hi ov
    else if d.allocExtent = 0 then some (0, 0)
    else
      let e := d.allocExtent - 1
      let tmin := e * min 0 d.stride
      let tmax := e * max 0 d.stride
      flatBoundsLoop ds (lo + tmin) (hi + tmax)
        (ov || (decide (d.stride = Dim.autoStride) && decide (d.allocExtent > 1)) || ovf e || ovf tmin || ovf (lo + tmin) ||
          ovf tmax || ovf (hi + tmax))

/-- buffer.cc:28-56 `calculate_flat_bounds` -/
def flatBounds (ds : List Dim) : Option (Int × Int) := flatBoundsLoop ds 0 0 false

/-- buffer.cc:58-77 `alloc_size` (the result is a `size_t`: the last addition is checked for unsigned overflow) -/
def allocSize (elem : Int) (ds : List Dim) : Int :=
  if ds.any (fun d => decide (d.allocExtent = 0)) then 0
  else match flatBounds ds with
    | none => 0
    | some (lo, hi) => if ovf (hi - lo) then 0 else if hi - lo + elem ≥ 2 ^ 64 then 0 else hi - lo + elem

/-- buffer.cc:81 `size_bytes` -/
def Buf.sizeBytes (b : Buf) : Int := allocSize b.elem b.dims

/-- buffer.cc:485-508 `validate_buffer`; addresses are unsigned 64-bit integers. -/
def Buf.validate (b : Buf) : Bool :=
  match flatBounds b.dims with
  | none => false
  | some (lo, hi) =>
    match b.base with
    | none => true
    | some p => !(decide (p < -lo)) && !(decide (hi + b.elem ≥ 2 ^ 64)) && !(decide (p + (hi + b.elem) ≥ 2 ^ 64))

/-! ### `init_strides` -/

/-- buffer.cc:135-143 `init_stride_dim` -/
structure SD where
  stride : Int
  dimStride : Int
deriving DecidableEq, Repr

/-- buffer.cc:145-161 `is_stride_ok`: the result, and if the computation overflowed. -/
def isStrideOk (stride ext : Int) (known : List SD) : Bool × Bool :=
  if ovf (stride * ext) then (false, true)
  else (known.all fun d => decide (d.stride ≥ stride * ext) || decide (d.dimStride ≤ stride), false)

/-- buffer.cc:166-171 the local variables of `init_strides_impl`: `dims`, `flat_max`, `overflow`. -/
structure IS where
  known : List SD
  flatMax : Int
  ov : Bool
deriving DecidableEq, Repr

/-- buffer.cc:178-180 insert at the `lower_bound` -/
def insertSD (d : SD) : List SD → List SD
  | [] => [d]
  | x :: xs => if x.dimStride < d.dimStride then x :: insertSD d xs else d :: x :: xs

/-- buffer.cc:173-187 `learn_dim` -/
def learnDim (st : IS) (stride ext : Int) : IS :=
  let ds := stride * ext
  ⟨insertSD ⟨stride, ds⟩ st.known, st.flatMax + (ds - stride),
    st.ov || ovf ds || ovf (ds - stride) || ovf (st.flatMax + (ds - stride))⟩

/-- `x & ~(alignment - 1)` for a power of 2. -/
def maskDown (x al : Int) : Int := x / al * al

/-- buffer.cc:189-210 the first loop of `init_strides_impl`: learn the known strides. -/
def initKnown (elem : Int) : List Dim → IS → List Dim × IS
  | [], st => ([], st)
  | d :: ds, st =>
    if d.stride = 0 then
      let (r, st) := initKnown elem ds st; (d :: r, st)
    else if d.allocExtent ≤ 1 then
      let (r, st) := initKnown elem ds st
      ((if d.stride = Dim.autoStride then { d with stride := elem } else d) :: r, st)
    else if d.stride ≠ Dim.autoStride then
      let bad := decide (d.stride = -2 ^ 63)
      let st := { st with ov := st.ov || bad }
      let (r, st) := initKnown elem ds (learnDim st (if bad then 0 else (d.stride.natAbs : Int)) d.allocExtent)
      (d :: r, st)
    else
      let (r, st) := initKnown elem ds st; (d :: r, st)

/-- buffer.cc:229-243 the loop over the candidates `js` (the rest of the known dimensions) for the stride of a dimension with
allocated extent `ext`: the stride, and the overflow flag. -/
def findStride (al ext : Int) (known : List SD) : List SD → Bool → Option Int × Bool
  | [], ov => (none, ov)
  | j :: js, ov =>
    let padded := j.dimStride + (al - 1)
    let ov := ov || ovf padded
    let c := maskDown padded al
    if js.isEmpty then (some c, ov)
    else
      let (ok, ov') := isStrideOk c ext known
      let ov := ov || ov'
      if ok then (some c, ov) else findStride al ext known js ov

/-- buffer.cc:213-245 one unknown stride. If no stride is found, the assertion at the end of the loop fails (without
assertions, the overflow flag is set and the whole function fails). -/
def initOne (elem al : Int) (d : Dim) (st : IS) : Dim × IS :=
  let (ok, ov) := isStrideOk elem d.allocExtent st.known
  let st := { st with ov := st.ov || ov }
  if ok then ({ d with stride := elem }, learnDim st elem d.allocExtent)
  else
    match findStride al d.allocExtent st.known st.known st.ov with
    | (some c, ov) => ({ d with stride := c }, learnDim { st with ov := ov } c d.allocExtent)
    | (none, ov) => (d, { st with ov := ov })

/-- buffer.cc:212-245 the second loop of `init_strides_impl`: find the unknown strides. (The C++ loops over
`[unknown_begin, unknown_end)`; outside there is no unknown stride. A dimension of
extent at most 1 has no unknown stride here, unless `elem_size` equals `auto_stride`, when an assertion fails.) -/
def initUnknown (elem al : Int) : List Dim → IS → List Dim × IS
  | [], st => ([], st)
  | d :: ds, st =>
    if d.stride ≠ Dim.autoStride ∨ d.allocExtent ≤ 1 then
      let (r, st) := initUnknown elem al ds st; (d :: r, st)
    else
      let (d, st) := initOne elem al d st
      let (r, st) := initUnknown elem al ds st; (d :: r, st)

/-- buffer.cc:165-255 `init_strides_impl`: the dimensions with their strides and the size. -/
def initStridesImpl (elem al : Int) (ds : List Dim) : Option (List Dim × Int) :=
  let (ds, st) := initKnown elem ds ⟨[], 0, decide (elem ≥ 2 ^ 63)⟩
  let (ds, st) := initUnknown elem al ds st
  let size := st.flatMax + elem
  if st.ov || ovf size || ovf (size + (al - 1)) then none else some (ds, maskDown (size + (al - 1)) al)

/-- buffer.h:424-455 `init_strides` -/
def initStrides (elem al : Int) (ds : List Dim) : Option (List Dim × Int) :=
  match ds with
  | [] =>
    if decide (elem ≥ 2 ^ 63) || ovf (0 + elem) || ovf (0 + elem + (al - 1)) then none
    else some ([], maskDown (0 + elem + (al - 1)) al)
  | [d] =>
    if d.fold = Dim.unfolded ∧ d.stride ≥ 0 then
      let stride := if d.stride = Dim.autoStride then elem else d.stride
      let n := d.max - d.min
      let size := max n 0 * stride
      if decide (elem ≥ 2 ^ 63) || ovf n || ovf size || ovf (size + elem) || ovf (size + elem + (al - 1)) then none
      else some ([{ d with stride := stride }], maskDown (size + elem + (al - 1)) al)
    else initStridesImpl elem al [d]
  | ds => initStridesImpl elem al ds

end Slinky
