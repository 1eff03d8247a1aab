import Verif.Interval
import Verif.Strides

/-!
# Model of slinky statements (`slinky/runtime/stmt.h`) and of their evaluation (`slinky/runtime/evaluate.cc`)

The evaluator mutates a context (the values of the symbols) and `raw_buffer` objects that the values of some symbols point to. The
world outside (the functions that are called, the memory, the allocator) is described by a `Cfg`: its answers are arbitrary functions
of the state, and the state has a log of everything that the world was asked to do, so the answers can depend on the whole history.

Simplifications:
* the calls cannot change the context or the buffer objects (they are given a reference to the context, but are not supposed to);
* an iteration of a parallel loop, and the task of an `async`, run without interleaving with other iterations; the order of the iterations,
  the assignment to workers, and if the task of an `async` runs before or after its body, are arbitrary. (`ThreadPool.lean` has
  the interleavings.) Semaphores and `wait_for` are calls to the world that do not block;
* `free` is modelled where the code uses it, as the condition of a `check` (optimizations.cc:1418);
* addresses of buffer objects are never reused;
* the functions `call_failed` and `check_failed` of the configuration are set and return (the default is to abort).
-/

namespace Slinky

/-- expr.h `dim_expr` -/
structure DimE where
  bounds : Interval
  stride : Expr
  fold : Expr

/-- stmt.h:34-39 `memory_type` -/
inductive Storage | automatic | stack | heap
deriving DecidableEq, Repr

mutual
/-- stmt.h:120-440. `undef` is the null `stmt`. The target of a `call_stmt` is represented by a number. -/
inductive Stmt
  | undef
  | call (target : Nat) (inputs outputs : List Nat) (scalars : List Expr)
  | copy (target : Nat) (src : Nat) (srcX : List Expr) (dst : Nat) (dstX : List Nat) (pad : Option Nat)
  | lets (bs : Binds) (body : Stmt) (closure : Bool)
  | block (ss : Stmts)
  | loop (sym : Nat) (workers : Expr) (bounds : Interval) (step : Expr) (body : Stmt)
  | allocate (sym : Nat) (storage : Storage) (elem : Expr) (dims : List DimE) (body : Stmt)
  | makeBuffer (sym : Nat) (base elem : Expr) (dims : List DimE) (body : Stmt)
  | constantBuffer (sym : Nat) (value : Buf) (body : Stmt)
  | cloneBuffer (sym src : Nat) (body : Stmt)
  | cropBuffer (sym src : Nat) (bounds : List Interval) (body : Stmt)
  | cropDim (sym src : Nat) (dim : Nat) (bounds : Interval) (body : Stmt)
  | sliceBuffer (sym src : Nat) (at_ : List Expr) (body : Stmt)
  | sliceDim (sym src : Nat) (dim : Nat) (at_ : Expr) (body : Stmt)
  | transpose (sym src : Nat) (dims : List Nat) (body : Stmt)
  | async (sym : Option Nat) (task body : Stmt)
  | check (cond : Expr)
/-- `std::vector<stmt>` -/
inductive Stmts
  | nil
  | cons (s : Stmt) (ss : Stmts)
end

instance : Inhabited Stmt := ⟨.undef⟩

/-- Statements as a Lean list. -/
def Stmts.toList : Stmts → List Stmt
  | .nil => []
  | .cons s ss => s :: ss.toList
/-- Statements from a Lean list. -/
def Stmts.ofList : List Stmt → Stmts
  | [] => .nil
  | s :: ss => .cons s (.ofList ss)

/-! ## State -/

/-- buffer.h:173-470 `raw_buffer` and evaluate.cc:50-52 `allocated_buffer`: an object in memory. `store` is the array that `dims` points to,
which can be longer than `rank`. `alloc` is `allocation`, with `some 0` for `nullptr` and `none` if the object is not an
`allocated_buffer`. -/
structure Obj where
  base : Option Int
  elem : Int
  store : List Dim
  rank : Nat
  alloc : Option Int
deriving DecidableEq, Repr

/-- The buffer that the object describes. -/
def Obj.buf (o : Obj) : Buf := ⟨o.base, o.elem, o.store.take o.rank⟩
/-- An object that describes the buffer. -/
def Obj.ofBuf (b : Buf) : Obj := ⟨b.base, b.elem, b.dims, b.dims.length, none⟩
/-- A modification of the buffer in place (the rank does not change). -/
def Obj.setBuf (o : Obj) (b : Buf) : Obj := { o with base := b.base, elem := b.elem, store := b.dims ++ o.store.drop o.rank }

/-- What the world is asked to do: a call and its result, a check and its result, an allocation (with the result, 0 for
`nullptr`), a release, and the report that an allocation or a `make_buffer` failed. -/
inductive Ev
  | call (target : Nat) (result : Int)
  | check (ok : Bool)
  | alloc (sym : Nat) (h : Int)
  | free (sym : Nat) (h : Int)
  | failed (sym : Nat)
deriving DecidableEq, Repr

/-- The state: the context, the buffer objects that exist (by address), the address of the next object, and the log, newest first. -/
structure St where
  ctx : Env
  objs : Nat → Option Obj
  next : Nat
  log : List Ev

/-- evaluate.h:14-44 `eval_config`, and the rest of the world. -/
structure Cfg where
  /-- the result of a call: `op->target(op, context)` is given the inputs, the outputs and the scalars of the statement -/
  call : Nat → List Nat → List Nat → List Expr → St → Int
  /-- the result of a call in an expression -/
  host : Fn → List (Option Int) → St → Int
  /-- `config->allocate`: fills in the base and the strides, and returns the allocation (0: `nullptr`) -/
  allocate : Nat → Obj → St → Obj × Int
  /-- the address of memory on the stack (never null) -/
  stackAddr : St → Int
  strideAlign : Int
  autoStack : Int
  /-- Is there a thread pool? -/
  pool : Bool
  /-- the order in which a parallel loop runs `n` iterations: the iterations, and the workers that run them -/
  sched : St → Nat → List (Nat × Nat)
  /-- Does the task of an `async` run before the body? -/
  taskFirst : St → Bool
  /-- If not, does the task make its context after the symbol of the task is reset? -/
  taskLate : St → Bool
  /-- the handle of the task of an `async` -/
  taskHandle : St → Int
  /-- uninitialized memory -/
  garbage : Env

/-- `context.lookup` of a symbol that is a pointer to a buffer object. -/
def St.obj? (st : St) (p : Int) : Option Obj := if p < 0 then none else st.objs p.toNat

/-- Change the object at an address. -/
def St.setObj (st : St) (a : Nat) (o : Option Obj) : St := { st with objs := fun b => if b = a then o else st.objs b }
/-- `context.set` -/
def St.set (st : St) (x : Nat) (v : Int) : St := { st with ctx := st.ctx.set x v }
/-- Something happens in the world. -/
def St.emit (st : St) (e : Ev) : St := { st with log := e :: st.log }

/-- evaluate.cc:143-157 `eval(const variable*)`: the fields of a buffer. -/
def Obj.field (o : Obj) (f : Field) (d : Int) : Int :=
  let dd := o.buf.dim d.toNat
  match f with
  | .none => 0
  | .rank => o.rank
  | .elemSize => o.elem
  | .sizeBytes => o.buf.sizeBytes
  | .min => dd.min
  | .max => dd.max
  | .stride => dd.stride
  | .foldFactor => dd.fold

/-- evaluate.cc:207-224 `eval_buffer_at`, from a partial result. -/
def bufferAt (p : Option Int) : List Dim → List (Option Int) → Option Int
  | d :: ds, some x :: xs =>
    bufferAt (match p with
      | some q => if d.contains x then some (q + d.flatOffset x) else none
      | none => none) ds xs
  | _ :: ds, none :: xs => bufferAt p ds xs
  | _, _ => p

/-- What an expression can read in a state. `buffer_at` and `validate_buffer` read the buffer object; the other calls are answered by the
world. -/
def Cfg.mem (cfg : Cfg) (st : St) : Mem where
  field p f d := match st.obj? p with
    | some o => o.field f d
    | none => 0
  call fn xs := match fn, xs with
    | .bufferAt, some p :: xs => match st.obj? p with
      | some o => (bufferAt o.base o.buf.dims xs).getD 0
      | none => 0
    | .validateBuffer, [some p] => match st.obj? p with
      | some o => if o.buf.validate then 1 else 0
      | none => 0
    | fn, xs => cfg.host fn xs st
  undef := 0

/-! ## Evaluation -/

/-- `eval(const expr&)` in a state -/
def Cfg.eval (cfg : Cfg) (st : St) (e : Expr) : Option (Int × St) :=
  match evalM (cfg.mem st) st.ctx e with
  | some (v, ctx) => some (v, { st with ctx := ctx })
  | none => none

/-- evaluate.cc:119-125 `eval(const expr&, index_t def)` -/
def Cfg.evalDef (cfg : Cfg) (st : St) (e : Expr) (d : Int) : Option (Int × St) :=
  if e.defined then cfg.eval st e else some (d, st)

/-- evaluate.cc:127-134 `eval(const interval_expr&)` -/
def Cfg.evalIv (cfg : Cfg) (st : St) (i : Interval) : Option ((Int × Int) × St) := do
  let (a, st) ← cfg.eval st i.min
  if i.isPoint then some ((a, a), st)
  else
    let (b, st) ← cfg.eval st i.max
    some ((a, b), st)

/-- evaluate.cc:135-142 `eval(const interval_expr&, interval def)` -/
def Cfg.evalIvDef (cfg : Cfg) (st : St) (i : Interval) (a b : Int) : Option ((Int × Int) × St) :=
  if i.isPoint then do
    let (a, st) ← cfg.eval st i.min
    some ((a, a), st)
  else do
    let (a, st) ← cfg.evalDef st i.min a
    let (b, st) ← cfg.evalDef st i.max b
    some ((a, b), st)

/-- evaluate.cc:364-370 `eval_with_value` -/
def withValue (st : St) (x : Nat) (v : Int) (k : St → Option (Int × St)) : Option (Int × St) :=
  match k (st.set x v) with
  | some (r, st') => some (r, st'.set x (st.ctx x))
  | none => none

/-- A local `raw_buffer` variable, and `eval_with_value` of its address. -/
def withObj (st : St) (x : Nat) (o : Obj) (k : St → Option (Int × St)) : Option (Int × St) :=
  match withValue { (st.setObj st.next (some o)) with next := st.next + 1 } x st.next k with
  | some (r, st') => some (r, st'.setObj st.next none)
  | none => none

/-- evaluate.cc:401-404 the loop that sets the lets, returning the old values. -/
def Cfg.evalBinds (cfg : Cfg) (st : St) : Binds → Option (List (Nat × Int) × St)
  | .nil => some ([], st)
  | .cons x e bs => do
    let (v, st1) ← cfg.eval st e
    let (olds, st2) ← cfg.evalBinds (st1.set x v) bs
    some ((x, st1.ctx x) :: olds, st2)

/-- evaluate.cc:406-409 restore the old values, in forward order. -/
def St.restore (st : St) (olds : List (Nat × Int)) : St := { st with ctx := olds.foldl (fun ρ p => ρ.set p.1 p.2) st.ctx }

/-- evaluate.cc:598-614 and 655-671: the dimensions of `allocate` and `make_buffer`, evaluated in reverse. The stride has the default `ds`, if
there is one. -/
def Cfg.evalDims (cfg : Cfg) (ds : Option Int) (st : St) : List DimE → Option (List Dim × St)
  | [] => some ([], st)
  | d :: rest => do
    let (r, st) ← cfg.evalDims ds st rest
    let (b, st) ← cfg.evalIv st d.bounds
    let (s, st) ← match ds with
      | some x => cfg.evalDef st d.stride x
      | none => cfg.eval st d.stride
    let (f, st) ← cfg.evalDef st d.fold Dim.unfolded
    some (⟨b.1, b.2, s, f⟩ :: r, st)

/-- The rank without the trailing broadcasts (evaluate.cc:63-67 and 607-613). -/
def trimRank : List Dim → Nat
  | [] => 0
  | d :: ds => match trimRank ds with
    | 0 => if d.isBroadcast then 0 else 1
    | n + 1 => n + 2

/-- buffer.cc:83-89 `elem_count`: a product of `std::size_t`. -/
def Buf.elemCount (b : Buf) : Int := (b.dims.foldl (fun r d => r * d.extent % 2 ^ 64) 1)

/-- evaluate.cc:744-756 the crop of `crop_buffer` in place: the bounds of a dimension are evaluated after the dimensions before are
cropped. `a` is the address of the buffer. -/
def Cfg.cropAll (cfg : Cfg) (a : Nat) : Nat → List Interval → St → Option St
  | _, [], st => some st
  | d, i :: is, st =>
    match st.objs a with
    | none => none
    | some o =>
      if d < o.rank then do
        let dd := o.buf.dim d
        let (b, st) ← cfg.evalIvDef st i dd.min dd.max
        cfg.cropAll a (d + 1) is (st.setObj a (some (o.setBuf (o.buf.crop d b.1 b.2))))
      else some st

/-- evaluate.cc:776-782 the crop of a copy `b` of the source. -/
def Cfg.cropCopy (cfg : Cfg) : Nat → List Interval → Buf → St → Option (Buf × St)
  | _, [], b, st => some (b, st)
  | d, i :: is, b, st =>
    if d < b.rank then do
      let dd := b.dim d
      let (x, st) ← cfg.evalIvDef st i dd.min dd.max
      cfg.cropCopy (d + 1) is (b.crop d x.1 x.2) st
    else some (b, st)

/-- evaluate.cc:760-763: restore the bounds of the dimensions. -/
def restoreBounds : List Dim → List (Int × Int) → List Dim
  | d :: ds, b :: bs => { d with min := b.1, max := b.2 } :: restoreBounds ds bs
  | ds, _ => ds

/-- evaluate.cc:838-850 the loop of `slice_buffer`: the base and the dimensions. -/
def Cfg.sliceAll (cfg : Cfg) : List Expr → List Dim → Option Int → St → Option ((Option Int × List Dim) × St)
  | _, [], p, st => some ((p, []), st)
  | [], d :: ds, p, st => do
    let ((p, r), st) ← cfg.sliceAll [] ds p st
    some ((p, d :: r), st)
  | e :: es, d :: ds, p, st =>
    if e.defined then
      match p with
      | none => cfg.sliceAll es ds none st
      | some q => do
        let (x, st) ← cfg.eval st e
        cfg.sliceAll es ds (if d.contains x then some (q + d.flatOffset x) else none) st
    else do
      let ((p, r), st) ← cfg.sliceAll es ds p st
      some ((p, d :: r), st)

/-- evaluate.cc:497-510 the serial loop. `fuel` is a bound of the number of iterations (see `serialFuel`). -/
def serialLoop (f : Int → St → Option (Int × St)) (mn mx step : Int) : Nat → Int → St → Option (Int × St)
  | 0, _, _ => none
  | fuel + 1, i, st =>
    if mn ≤ i ∧ i ≤ mx then
      match f i st with
      | none => none
      | some (r, st') =>
        if r ≠ 0 then some (r, st')
        else match chk 64 (i + step) with
          | none => none
          | some j => serialLoop f mn mx step fuel j st'
    else some (0, st)

/-- The serial loop runs at most this many iterations, since the step is not 0. -/
def serialFuel (mn mx : Int) : Nat := (mx - mn).toNat + 2

/-- evaluate.cc:417-442 `init_context` -/
def initContext (garbage parent : Env) (excl : Option Nat) : Binds → Option Env
  | .nil => some garbage
  | .cons x e bs => do
    let ρ ← initContext garbage parent excl bs
    -- the closure is evaluated in order, so a later let with the same symbol wins; here the rest is set first
    if some x = excl then some ρ
    else match e with
      | .var y .none _ => if x ∈ bs.syms then some ρ else some (ρ.set x (parent y))
      | _ => none

/-- evaluate.cc:444-449 `n`, a `std::size_t` -/
def parCount (mn mx step : Int) : Option Nat := do
  let d ← chk 64 (mx - mn)
  let e ← chk 64 (d + 1)
  let n ← ceilDiv 64 e step
  some (n % 2 ^ 64).toNat

/-- evaluate.cc:477-493: run the iterations in the order of the schedule. `ctxs`: the contexts of the workers; `res`: the shared result. -/
def parLoop (f : St → Option (Int × St)) (x : Nat) (mn step : Int) :
    List (Nat × Nat) → (Nat → Env) → Int → St → Option (Int × St)
  | [], _, res, st => some (res, st)
  | (i, w) :: sch, ctxs, res, st =>
    match f { st with ctx := (ctxs w).set x (i * step + mn) } with
    | none => none
    | some (r, st') =>
      parLoop f x mn step sch (fun v => if v = w then st'.ctx else ctxs v) (if res = 0 then r else res) { st' with ctx := st.ctx }

/-- evaluate.cc:57-60 `as_closure`: the lets and the body of a closure. -/
def Stmt.closure? : Stmt → Option Binds
  | .lets bs _ true => some bs
  | _ => none

/-- evaluate.cc:417-442 and 519-525: the context that a statement is run in by a task. -/
def newContext (garbage parent : Env) (excl : Option Nat) (body : Stmt) : Option Env :=
  match body.closure? with
  | some bs => initContext garbage parent excl bs
  | none => some parent

/-- The result of two tasks (evaluate.cc:565). -/
def asyncResult (task body : Int) : Int := if task ≠ 0 then task else body

/-- Run a statement in another context. -/
def inCtx (st : St) (ctx : Env) (k : St → Option (Int × St)) : Option (Int × St) :=
  match k { st with ctx := ctx } with
  | some (r, st') => some (r, { st' with ctx := st.ctx })
  | none => none

/-- evaluate.cc:519-527 `eval_with_new_context` -/
def inNewCtx (cfg : Cfg) (st : St) (s : Stmt) (k : St → Option (Int × St)) : Option (Int × St) :=
  match newContext cfg.garbage st.ctx none s with
  | some init => inCtx st init k
  | none => none

/-- Set the symbol of an `async`. -/
def St.setOpt (st : St) (x : Option Nat) (v : Int) : St := match x with
  | some y => st.set y v
  | none => st

/-- A `free` of an `allocated_buffer` (evaluate.cc:293-300). -/
def evalFree (st : St) (x : Nat) : Option St :=
  match st.obj? (st.ctx x) with
  | some o => match o.alloc with
    | some h => some ((st.emit (.free x h)).setObj (st.ctx x).toNat (some { o with alloc := some 0 }))
    | none => none
  | none => none

/-- evaluate.cc:620-640: the memory of `allocate`. The buffer object, and the state, or a failure. -/
def Cfg.allocMem (cfg : Cfg) (sym : Nat) (storage : Storage) (o : Obj) (st : St) : Option (Obj × St) :=
  match storage with
  | .heap => some ({ (cfg.allocate sym o st).1 with alloc := some (cfg.allocate sym o st).2 }, st.emit (.alloc sym (cfg.allocate sym o st).2))
  | _ =>
    match initStrides o.elem cfg.strideAlign o.buf.dims with
    | none => none
    | some (ds, size) =>
      if storage = .stack ∨ size ≤ cfg.autoStack then
        some ({ o with base := some (cfg.stackAddr st), store := ds ++ o.store.drop o.rank, alloc := some 0 }, st)
      else
        let o := { o with store := ds ++ o.store.drop o.rank }
        some ({ (cfg.allocate sym o st).1 with alloc := some (cfg.allocate sym o st).2 }, st.emit (.alloc sym (cfg.allocate sym o st).2))

mutual
/-- evaluate.cc:354-911 `evaluator::eval(const stmt&)`: the result and the state after, or `none` if the behaviour is undefined. If `skip` is
true and the statement is a closure, only the body of the closure is run (evaluate.cc:468-471, 524-525). -/
def run (cfg : Cfg) (skip : Bool) : Stmt → St → Option (Int × St)
  | .undef, _ => none
  | .copy .., _ => none
  -- evaluate.cc:577-583
  | .call t i o sc, st => some (cfg.call t i o sc st, st.emit (.call t (cfg.call t i o sc st)))
  -- evaluate.cc:392-411
  | .lets bs body closure, st =>
    if skip && closure then run cfg false body st
    else do
      let (olds, st1) ← cfg.evalBinds st bs
      let (r, st2) ← run cfg false body st1
      some (r, st2.restore olds)
  -- evaluate.cc:413-419
  | .block ss, st => runAll cfg ss st
  -- evaluate.cc:514-521
  | .loop x workers bounds step body, st => do
    let (w, st) ← cfg.eval st workers
    let (b, st) ← cfg.evalIv st bounds
    let (s, st) ← cfg.evalDef st step 1
    if s = 0 then none
    else if w > 1 then
      let n ← parCount b.1 b.2 s
      if n = 0 then some (0, st)
      else if n = 1 then withValue st x b.1 (run cfg false body)
      else if cfg.pool then
        match newContext cfg.garbage st.ctx (some x) body with
        | none => none
        | some init => parLoop (run cfg true body) x b.1 s (cfg.sched st n) (fun _ => init) 0 st
      else none
    else
      match serialLoop (fun i st => run cfg false body (st.set x i)) b.1 b.2 s (serialFuel b.1 b.2) b.1 (st.set x 0) with
      | some (r, st') => some (r, st'.set x (st.ctx x))
      | none => none
  -- evaluate.cc:590-653
  | .allocate x storage elem dims body, st => do
    let (e, st) ← cfg.eval st elem
    let (ds, st) ← cfg.evalDims (some Dim.autoStride) st dims
    match cfg.allocMem x storage ⟨none, e, ds, trimRank ds, some 0⟩ st with
    | none => some (-1, st.emit (.failed x))
    | some (o, st) =>
      if o.base = none ∧ o.buf.elemCount > 0 then
        let st := st.emit (.failed x)
        match o.alloc with
        | some h => if h ≠ 0 then some (-1, st.emit (.free x h)) else some (-1, st)
        | none => some (-1, st)
      else
        -- the object is released after the body, and then it ceases to exist
        match withValue { (st.setObj st.next (some o)) with next := st.next + 1 } x st.next (run cfg false body) with
        | none => none
        | some (r, st') =>
          match st'.objs st.next with
          | none => none
          | some o' =>
            let st'' := match o'.alloc with
              | some h => if h ≠ 0 then st'.emit (.free x h) else st'
              | none => st'
            some (r, st''.setObj st.next none)
  -- evaluate.cc:655-690
  | .makeBuffer x base elem dims body, st => do
    let (e, st) ← cfg.evalDef st elem 0
    let (p, st) ← cfg.evalDef st base 0
    let (ds, st) ← cfg.evalDims none st dims
    let b : Buf := ⟨if p = 0 then none else some p, e, ds.take (trimRank ds)⟩
    if b.validate then withObj st x ⟨b.base, e, ds, trimRank ds, none⟩ (run cfg false body)
    else some (-1, st.emit (.failed x))
  -- evaluate.cc:692-694
  | .constantBuffer x b body, st => withObj st x (Obj.ofBuf b) (run cfg false body)
  -- evaluate.cc:696-705
  | .cloneBuffer x src body, st =>
    match st.obj? (st.ctx src) with
    | none => none
    | some o => withObj st x (Obj.ofBuf o.buf) (run cfg false body)
  -- evaluate.cc:707-761 (shadowed: in place)
  | .cropBuffer x src bounds body, st =>
    if x = src then
      match st.obj? (st.ctx x) with
      | none => none
      | some o => do
        let a := (st.ctx x).toNat
        let st1 ← cfg.cropAll a 0 bounds st
        let (r, st2) ← run cfg false body st1
        match st2.objs a with
        | none => none
        | some o' =>
          let old := ((o.buf.dims.take bounds.length).map fun d => (d.min, d.max))
          some (r, st2.setObj a (some { o' with base := o.base, store := restoreBounds o'.store old }))
    else
      match st.obj? (st.ctx src) with
      | none => none
      | some o => do
        let (b, st) ← cfg.cropCopy 0 bounds o.buf st
        withObj st x (Obj.ofBuf b) (run cfg false body)
  -- evaluate.cc:763-818
  | .cropDim x src d bounds body, st =>
    if x = src then
      match st.obj? (st.ctx x) with
      | none => none
      | some o =>
        if d ≥ o.rank then run cfg false body st
        else do
          let a := (st.ctx x).toNat
          let dd := o.buf.dim d
          let (b, st) ← cfg.evalIvDef st bounds dd.min dd.max
          let (r, st2) ← run cfg false body (st.setObj a (some (o.setBuf (o.buf.crop d b.1 b.2))))
          match st2.objs a with
          | none => none
          | some o' =>
            some (r, st2.setObj a (some { o' with
              base := o.base, store := o'.store.modify d fun d' => { d' with min := dd.min, max := dd.max } }))
    else
      match st.obj? (st.ctx src) with
      | none => none
      | some o => do
        let dd := o.buf.dim d
        let (b, st) ← cfg.evalIvDef st bounds dd.min dd.max
        withObj st x (Obj.ofBuf (o.buf.crop d b.1 b.2)) (run cfg false body)
  -- evaluate.cc:828-853
  | .sliceBuffer x src es body, st =>
    match st.obj? (st.ctx src) with
    | none => none
    | some o => do
      let ((p, ds), st) ← cfg.sliceAll es o.buf.dims o.base st
      withObj st x ⟨p, o.elem, ds, ds.length, none⟩ (run cfg false body)
  -- evaluate.cc:855-889
  | .sliceDim x src d e body, st =>
    match st.obj? (st.ctx src) with
    | none => none
    | some o =>
      if d ≥ o.rank then withObj st x (Obj.ofBuf o.buf) (run cfg false body)
      else
        match o.base with
        | none => withObj st x (Obj.ofBuf (o.buf.sliceDim d)) (run cfg false body)
        | some _ => do
          let (i, st) ← cfg.eval st e
          withObj st x (Obj.ofBuf (o.buf.slice d i)) (run cfg false body)
  -- evaluate.cc:891-923
  | .transpose x src dims body, st =>
    match st.obj? (st.ctx src) with
    | none => none
    | some o =>
      if x = src ∧ dims = List.range dims.length then
        let a := (st.ctx src).toNat
        -- beyond the array, the dims are uninitialized memory
        if dims.length ≤ o.store.length then do
          let (r, st2) ← run cfg false body (st.setObj a (some { o with rank := dims.length }))
          match st2.objs a with
          | none => none
          | some o' => some (r, st2.setObj a (some { o' with rank := o.rank }))
        else none
      else
        let ds := dims.map o.buf.dim
        withObj st x ⟨o.base, o.elem, ds, trimRank ds, none⟩ (run cfg false body)
  -- evaluate.cc:523-566
  | .async x task body, st =>
    let h := if cfg.pool then cfg.taskHandle st else 0
    if !cfg.pool || cfg.taskFirst st then do
      let (t, st1) ← inNewCtx cfg st task (run cfg true task)
      let st2 := st1.setOpt x h
      let (r, st3) ← inNewCtx cfg st2 body (run cfg true body)
      some (asyncResult t r, st3.setOpt x 0)
    else do
      let st1 := st.setOpt x h
      let (r, st2) ← inNewCtx cfg st1 body (run cfg true body)
      let st3 := if cfg.taskLate st2 then st2.setOpt x 0 else st2
      let (t, st4) ← inNewCtx cfg st3 task (run cfg true task)
      some (asyncResult t r, st4.setOpt x 0)
  -- evaluate.cc:925-944 and 293-300
  | .check c, st =>
    match c with
    | .call .free (.cons (.var x .none _) .nil) =>
      match evalFree st x with
      | some st' => some (0, st'.emit (.check true))
      | none => none
    | c => do
      let (v, st) ← cfg.eval st c
      if v = 0 then some (1, st.emit (.check false)) else some (0, st.emit (.check true))
/-- evaluate.cc:413-419 `eval(const block*)` -/
def runAll (cfg : Cfg) : Stmts → St → Option (Int × St)
  | .nil, st => some (0, st)
  | .cons s ss, st => do
    let (r, st1) ← run cfg false s st
    if r ≠ 0 then some (r, st1) else runAll cfg ss st1
end

/-- `evaluate(const stmt&, eval_context&)` (evaluate.cc:960-963) -/
def exec (cfg : Cfg) (s : Stmt) (st : St) : Option (Int × St) := run cfg false s st

/-! ## `block::make` -/

/-- expr_stmt.cc:469-481 `flatten_blocks`: blocks are replaced by their statements; the statements that are inserted are not visited. -/
def flattenBlocks : List Stmt → List Stmt
  | [] => []
  | .block ss :: rest => ss.toList ++ flattenBlocks rest
  | s :: rest => s :: flattenBlocks rest

/-- `stmt::defined` -/
def Stmt.defined : Stmt → Bool
  | .undef => false
  | _ => true

/-- expr_stmt.cc:484-492 `erase_undefs` -/
def eraseUndefs (ss : List Stmt) : List Stmt := ss.filter Stmt.defined

/-- expr_stmt.cc:496-508 `block::make(std::vector<stmt>)` -/
def blockMake (ss : List Stmt) : Stmt :=
  match eraseUndefs (flattenBlocks ss) with
  | [] => .undef
  | [s] => s
  | ss => .block (.ofList ss)

/-- expr_stmt.cc:510-514 `block::make(stmt, stmt)` -/
def blockMake2 (a b : Stmt) : Stmt :=
  if !a.defined then b else if !b.defined then a else blockMake [a, b]

/-- expr_stmt.cc:516-519 `block::make(std::vector<stmt>, stmt)` -/
def blockMakeTail (ss : List Stmt) (t : Stmt) : Stmt := blockMake (ss ++ [t])

end Slinky
