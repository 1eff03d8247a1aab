import Verif.StmtSem

/-!
# The meaning of statements, without a context that is mutated

`exec` (`Stmt.lean`) models the evaluator: it mutates a context, and buffer objects, some of them in place. This file is a specification: the
meaning of a statement in an environment that gives each symbol a number or a buffer. A declaration extends the environment of its body; nothing
is mutated, and two symbols cannot be names of one object. The meaning is the result and the log of what the world is asked to do (newest
first, without the names of symbols).

`none`: the statement has no meaning here, because the evaluator has undefined behaviour, or because the statement depends on what is specific
to the evaluator:
* a `let` makes a second name for a buffer;
* the symbol of an `async` is already in scope (the evaluator does not restore it);
* the bounds of a `crop_buffer` in place depend on the bounds that are already cropped;
* a `transpose` in place does not truncate, or leaves a broadcast at the end;
* `free`.

`SemExec.lean` proves that the evaluator does what this file says.
-/

namespace Slinky

/-- The value of a symbol. -/
inductive Val
  | undef
  | int (i : Int)
  | buf (b : Buf)
deriving DecidableEq, Repr

/-- The values of the symbols. -/
abbrev SEnv := Nat → Val

/-- The environment with a new value for a symbol. -/
def SEnv.set (ρ : SEnv) (x : Nat) (v : Val) : SEnv := fun y => if y = x then v else ρ y

/-- The world, like `Cfg`, except that it sees the values of the arguments and the log instead of the whole state of the evaluator. -/
structure World where
  /-- the result of a call, given the inputs, the outputs, the scalars -/
  call : Nat → List Buf → List Buf → List Int → List Ev → Int
  /-- the result of a call in an expression -/
  host : Fn → List (Option Int) → List Ev → Int
  /-- the memory for a buffer: the buffer and the allocation (0: `nullptr`) -/
  allocate : Buf → List Ev → Buf × Int
  /-- the allocator does not change the rank -/
  allocate_rank : ∀ b l, (allocate b l).1.dims.length = b.dims.length
  stackAddr : List Ev → Int
  strideAlign : Int
  autoStack : Int
  pool : Bool
  sched : List Ev → Nat → List (Nat × Nat)
  taskFirst : List Ev → Bool
  taskLate : List Ev → Bool
  taskHandle : List Ev → Int

/-- The number that a value is. -/
def Val.int? : Val → Option Int
  | .int i => some i
  | _ => none

/-- The buffer that a value is. -/
def Val.buf? : Val → Option Buf
  | .buf b => some b
  | _ => none

/-- The numbers of arguments that may be undefined. -/
def intArgs : List (Option Val) → Option (List (Option Int))
  | [] => some []
  | none :: vs => (intArgs vs).map (none :: ·)
  | some (.int i) :: vs => (intArgs vs).map (some i :: ·)
  | _ :: _ => none

/-- The value of a call in an expression. -/
def callS (w : World) (l : List Ev) : Fn → List (Option Val) → Option Int
  | .bufferAt, some (.buf b) :: vs => (intArgs vs).map fun xs => (bufferAt b.base b.dims xs).getD 0
  | .bufferAt, _ => none
  | .validateBuffer, [some (.buf b)] => some (if b.validate then 1 else 0)
  | .validateBuffer, _ => none
  | fn, vs => (intArgs vs).map fun xs => w.host fn xs l

/-- May the value be bound by `let x = e`? -/
def bindable (x : Nat) (e : Expr) : Val → Bool
  | .undef => false
  | .int _ => true
  | .buf _ => match e with
    | .var y .none _ => y = x
    | _ => false

mutual
/-- The value of an expression. -/
def evalS (w : World) (l : List Ev) (ρ : SEnv) : Expr → Option Val
  | .undef => none
  | .var x .none _ => match ρ x with
    | .undef => none
    | v => some v
  | .var x f d => match ρ x with
    | .buf b => some (.int ((Obj.ofBuf b).field f d))
    | _ => none
  | .const c => some (.int c)
  | .lets bs b => (evalBindsS w l ρ bs).bind fun ρ1 => evalS w l ρ1 b
  | .bin op a b =>
    ((evalS w l ρ a).bind Val.int?).bind fun x => ((evalS w l ρ b).bind Val.int?).bind fun y => (op.machine x y).map .int
  | .not a => ((evalS w l ρ a).bind Val.int?).map fun x => .int (if x = 0 then 1 else 0)
  | .select c t f => ((evalS w l ρ c).bind Val.int?).bind fun x => if x ≠ 0 then evalS w l ρ t else evalS w l ρ f
  | .call .andThen as => (evalShortS w l true ρ as).map .int
  | .call .orElse as => (evalShortS w l false ρ as).map .int
  | .call .abs as =>
    match as with
    | .cons e .nil => ((evalS w l ρ e).bind Val.int?).bind fun x => (chk 64 (x.natAbs : Int)).map .int
    | _ => none
  | .call fn as =>
    if fn.isHost then (evalArgsS w l ρ as).bind fun vs => (callS w l fn vs).bind fun v => (chk 64 v).map .int
    else none
/-- The value of `and_then` and `or_else`. -/
def evalShortS (w : World) (l : List Ev) (isAnd : Bool) (ρ : SEnv) : Exprs → Option Int
  | .nil => some (if isAnd then 1 else 0)
  | .cons e es => ((evalS w l ρ e).bind Val.int?).bind fun x =>
    if x = 0 ∧ isAnd then some 0 else if x ≠ 0 ∧ ¬ isAnd then some 1 else evalShortS w l isAnd ρ es
/-- The values of arguments. -/
def evalArgsS (w : World) (l : List Ev) (ρ : SEnv) : Exprs → Option (List (Option Val))
  | .nil => some []
  | .cons e es =>
    if e.defined then (evalS w l ρ e).bind fun v => (evalArgsS w l ρ es).map (some v :: ·)
    else (evalArgsS w l ρ es).map (none :: ·)
/-- The environment after a list of lets. -/
def evalBindsS (w : World) (l : List Ev) (ρ : SEnv) : Binds → Option SEnv
  | .nil => some ρ
  | .cons x e bs => (evalS w l ρ e).bind fun v => if bindable x e v then evalBindsS w l (ρ.set x v) bs else none
end

/-- The number that is the value of an expression. -/
def evalI (w : World) (l : List Ev) (ρ : SEnv) (e : Expr) : Option Int := (evalS w l ρ e).bind Val.int?

/-- The value of an expression, or a default if it is undefined. -/
def evalDefS (w : World) (l : List Ev) (ρ : SEnv) (e : Expr) (d : Int) : Option Int := if e.defined then evalI w l ρ e else some d

/-- The value of an interval. -/
def evalIvS (w : World) (l : List Ev) (ρ : SEnv) (i : Interval) : Option (Int × Int) := do
  let a ← evalI w l ρ i.min
  if i.isPoint then some (a, a)
  else
    let b ← evalI w l ρ i.max
    some (a, b)

/-- The value of an interval, with defaults for the ends that are undefined. -/
def evalIvDefS (w : World) (l : List Ev) (ρ : SEnv) (i : Interval) (a b : Int) : Option (Int × Int) :=
  if i.isPoint then do
    let a ← evalI w l ρ i.min
    some (a, a)
  else do
    let a ← evalDefS w l ρ i.min a
    let b ← evalDefS w l ρ i.max b
    some (a, b)

/-- The dimensions of `allocate` and `make_buffer`. -/
def evalDimsS (w : World) (l : List Ev) (ρ : SEnv) (ds : Option Int) : List DimE → Option (List Dim)
  | [] => some []
  | d :: rest => do
    let r ← evalDimsS w l ρ ds rest
    let b ← evalIvS w l ρ d.bounds
    let s ← match ds with
      | some x => evalDefS w l ρ d.stride x
      | none => evalI w l ρ d.stride
    let f ← evalDefS w l ρ d.fold Dim.unfolded
    some (⟨b.1, b.2, s, f⟩ :: r)

/-- The buffer that a symbol is. -/
def SEnv.buf? (ρ : SEnv) (x : Nat) : Option Buf := (ρ x).buf?

/-- The buffer of `crop_buffer`. -/
def cropS (w : World) (l : List Ev) (ρ : SEnv) : Nat → List Interval → Buf → Option Buf
  | _, [], b => some b
  | d, i :: is, b =>
    if d < b.rank then do
      let dd := b.dim d
      let x ← evalIvDefS w l ρ i dd.min dd.max
      cropS w l ρ (d + 1) is (b.crop d x.1 x.2)
    else some b

/-- The buffer of `crop_buffer` if the bounds are evaluated when the dimensions before are cropped. -/
def cropSeqS (w : World) (l : List Ev) (ρ : SEnv) (x : Nat) : Nat → List Interval → Buf → Option Buf
  | _, [], b => some b
  | d, i :: is, b =>
    if d < b.rank then do
      let dd := b.dim d
      let v ← evalIvDefS w l (ρ.set x (.buf b)) i dd.min dd.max
      cropSeqS w l ρ x (d + 1) is (b.crop d v.1 v.2)
    else some b

/-- The base and the dimensions of `slice_buffer`. -/
def sliceS (w : World) (l : List Ev) (ρ : SEnv) : List Expr → List Dim → Option Int → Option (Option Int × List Dim)
  | _, [], p => some (p, [])
  | [], d :: ds, p => (sliceS w l ρ [] ds p).map fun r => (r.1, d :: r.2)
  | e :: es, d :: ds, p =>
    if e.defined then
      match p with
      | none => sliceS w l ρ es ds none
      | some q => do
        let x ← evalI w l ρ e
        sliceS w l ρ es ds (if d.contains x then some (q + d.flatOffset x) else none)
    else (sliceS w l ρ es ds p).map fun r => (r.1, d :: r.2)

/-- The serial loop. -/
def serialS (f : Int → List Ev → Option (Int × List Ev)) (mn mx step : Int) : Nat → Int → List Ev → Option (Int × List Ev)
  | 0, _, _ => none
  | fuel + 1, i, l =>
    if mn ≤ i ∧ i ≤ mx then
      match f i l with
      | none => none
      | some (r, l') =>
        if r ≠ 0 then some (r, l')
        else match chk 64 (i + step) with
          | none => none
          | some j => serialS f mn mx step fuel j l'
    else some (0, l)

/-- The iterations of a parallel loop, in the order of the schedule. -/
def parS (f : Int → List Ev → Option (Int × List Ev)) (mn step : Int) : List (Nat × Nat) → Int → List Ev → Option (Int × List Ev)
  | [], res, l => some (res, l)
  | (i, _) :: sch, res, l =>
    match f (i * step + mn) l with
    | none => none
    | some (r, l') => parS f mn step sch (if res = 0 then r else res) l'

/-- The environment of a closure. -/
def initEnvS (ρ : SEnv) (excl : Option Nat) : Binds → Option SEnv
  | .nil => some fun _ => .undef
  | .cons x e bs => do
    let ρ1 ← initEnvS ρ excl bs
    if some x = excl then some ρ1
    else match e with
      | .var y .none _ => if x ∈ bs.syms then some ρ1 else match ρ y with
        | .buf b => if y = x then some (ρ1.set x (.buf b)) else none
        | v => some (ρ1.set x v)
      | _ => none

/-- The environment of a statement that is run by a task. -/
def newEnvS (ρ : SEnv) (excl : Option Nat) (body : Stmt) : Option SEnv :=
  match body.closure? with
  | some bs => initEnvS ρ excl bs
  | none => some ρ

/-- The memory of `allocate`: the buffer, the allocation, and the log. -/
def allocS (w : World) (storage : Storage) (b : Buf) (l : List Ev) : Option (Buf × Int × List Ev) :=
  match storage with
  | .heap => some ((w.allocate b l).1, (w.allocate b l).2, .alloc 0 (w.allocate b l).2 :: l)
  | _ =>
    match initStrides b.elem w.strideAlign b.dims with
    | none => none
    | some (ds, size) =>
      if storage = .stack ∨ size ≤ w.autoStack then some (⟨some (w.stackAddr l), b.elem, ds⟩, 0, l)
      else
        let b := { b with dims := ds }
        some ((w.allocate b l).1, (w.allocate b l).2, .alloc 0 (w.allocate b l).2 :: l)

/-- An event, if there is an allocation to release. -/
def freeS (h : Int) (l : List Ev) : List Ev := if h ≠ 0 then .free 0 h :: l else l

/-- Is the buffer of a `transpose` in place the truncated buffer? -/
def transposeOk (x src : Nat) (dims : List Nat) (b : Buf) : Bool :=
  !(decide (x = src ∧ dims = List.range dims.length)) ||
    decide (dims.length ≤ b.rank ∧ trimRank (dims.map b.dim) = dims.length)

/-- The symbol of an `async` is not in scope. -/
def asyncOk (ρ : SEnv) : Option Nat → Bool
  | none => true
  | some x => decide (ρ x = .undef)

/-- Set the symbol of an `async`. -/
def SEnv.setOpt (ρ : SEnv) : Option Nat → Int → SEnv
  | none, _ => ρ
  | some x, v => ρ.set x (.int v)

/-- Is the statement in the condition of a `check` a `free`? -/
def isFree : Expr → Bool
  | .call .free (.cons (.var _ .none _) .nil) => true
  | _ => false

mutual
/-- The meaning of a statement: the result and the log after. If `skip` is true and the statement is a closure, only the body of the closure is
run (in the environment of the closure). -/
def sem (w : World) (skip : Bool) : Stmt → SEnv → List Ev → Option (Int × List Ev)
  | .undef, _, _ => none
  | .copy .., _, _ => none
  | .call t i o sc, ρ, l => do
    let is ← i.mapM ρ.buf?
    let os ← o.mapM ρ.buf?
    let xs ← sc.mapM (evalI w l ρ)
    some (w.call t is os xs l, .call t (w.call t is os xs l) :: l)
  | .lets bs body closure, ρ, l =>
    if skip && closure then sem w false body ρ l
    else (evalBindsS w l ρ bs).bind fun ρ1 => sem w false body ρ1 l
  | .block ss, ρ, l => semAll w ss ρ l
  | .loop x workers bounds step body, ρ, l => do
    let n ← evalI w l ρ workers
    let b ← evalIvS w l ρ bounds
    let s ← evalDefS w l ρ step 1
    if s = 0 then none
    else if n > 1 then
      let k ← parCount b.1 b.2 s
      if k = 0 then some (0, l)
      else if k = 1 then sem w false body (ρ.set x (.int b.1)) l
      else if w.pool then
        (newEnvS ρ (some x) body).bind fun init =>
          parS (fun v l => sem w true body (init.set x (.int v)) l) b.1 s (w.sched l k) 0 l
      else none
    else serialS (fun i l => sem w false body (ρ.set x (.int i)) l) b.1 b.2 s (serialFuel b.1 b.2) b.1 l
  | .allocate x storage elem dims body, ρ, l => do
    let e ← evalI w l ρ elem
    let ds ← evalDimsS w l ρ (some Dim.autoStride) dims
    match allocS w storage ⟨none, e, ds.take (trimRank ds)⟩ l with
    | none => some (-1, .failed 0 :: l)
    | some (b, h, l1) =>
      if b.base = none ∧ b.elemCount > 0 then some (-1, freeS h (.failed 0 :: l1))
      else (sem w false body (ρ.set x (.buf b)) l1).map fun p => (p.1, freeS h p.2)
  | .makeBuffer x base elem dims body, ρ, l => do
    let e ← evalDefS w l ρ elem 0
    let p ← evalDefS w l ρ base 0
    let ds ← evalDimsS w l ρ none dims
    let b : Buf := ⟨if p = 0 then none else some p, e, ds.take (trimRank ds)⟩
    if b.validate then sem w false body (ρ.set x (.buf b)) l
    else some (-1, .failed 0 :: l)
  | .constantBuffer x b body, ρ, l => sem w false body (ρ.set x (.buf b)) l
  | .cloneBuffer x src body, ρ, l => (ρ.buf? src).bind fun b => sem w false body (ρ.set x (.buf b)) l
  | .cropBuffer x src bounds body, ρ, l =>
    (ρ.buf? src).bind fun b => (cropS w l ρ 0 bounds b).bind fun b' =>
      if x = src → cropSeqS w l ρ x 0 bounds b = some b' then sem w false body (ρ.set x (.buf b')) l else none
  | .cropDim x src d bounds body, ρ, l =>
    (ρ.buf? src).bind fun b => (evalIvDefS w l ρ bounds (b.dim d).min (b.dim d).max).bind fun v =>
      sem w false body (ρ.set x (.buf (b.crop d v.1 v.2))) l
  | .sliceBuffer x src es body, ρ, l =>
    (ρ.buf? src).bind fun b => (sliceS w l ρ es b.dims b.base).bind fun r => sem w false body (ρ.set x (.buf ⟨r.1, b.elem, r.2⟩)) l
  | .sliceDim x src d e body, ρ, l =>
    (ρ.buf? src).bind fun b =>
      if d ≥ b.rank then sem w false body (ρ.set x (.buf b)) l
      else match b.base with
        | none => sem w false body (ρ.set x (.buf (b.sliceDim d))) l
        | some _ => (evalI w l ρ e).bind fun i => sem w false body (ρ.set x (.buf (b.slice d i))) l
  | .transpose x src dims body, ρ, l =>
    (ρ.buf? src).bind fun b =>
      if transposeOk x src dims b then
        sem w false body (ρ.set x (.buf ⟨b.base, b.elem, (dims.map b.dim).take (trimRank (dims.map b.dim))⟩)) l
      else none
  | .async x task body, ρ, l =>
    if asyncOk ρ x then
      let h := if w.pool then w.taskHandle l else 0
      if !w.pool || w.taskFirst l then
        (newEnvS ρ none task).bind fun ρt => (sem w true task ρt l).bind fun p =>
          (newEnvS (ρ.setOpt x h) none body).bind fun ρb => (sem w true body ρb p.2).map fun q => (asyncResult p.1 q.1, q.2)
      else
        (newEnvS (ρ.setOpt x h) none body).bind fun ρb => (sem w true body ρb l).bind fun q =>
          (newEnvS (if w.taskLate q.2 then ρ else ρ.setOpt x h) none task).bind fun ρt =>
            (sem w true task ρt q.2).map fun p => (asyncResult p.1 q.1, p.2)
    else none
  | .check c, ρ, l =>
    if isFree c then none
    else (evalI w l ρ c).map fun v => if v = 0 then (1, .check false :: l) else (0, .check true :: l)
/-- The meaning of the statements of a block. -/
def semAll (w : World) : Stmts → SEnv → List Ev → Option (Int × List Ev)
  | .nil, _, l => some (0, l)
  | .cons s ss, ρ, l => (sem w false s ρ l).bind fun p => if p.1 ≠ 0 then some p else semAll w ss ρ p.2
end

end Slinky
