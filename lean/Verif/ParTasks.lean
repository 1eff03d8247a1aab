import Verif.EarlyFreeRuns

/-!
# Model of `parallelize_tasks` (builder/optimizations.cc:1887-2184)

`parallelize_tasks` replaces the statements of a block by tasks that run at the same time, where the sets of buffers that the statements produce
and consume allow it. The model is `parallelizeTasks`. The specification is about what can happen when statements run: a statement unrolls to a
process of actions (calls, copies, checks and allocations) that are in a sequence or in parallel (`TWorld.Unr`), and an execution of a process is
an interleaving of its actions that can also stop early (`TProc.Run`).
-/

namespace Slinky
namespace PT

/-! ## What is visited in expressions -/

mutual
/-- optimizations.cc:2097-2104: the symbols of the variables with a field (shadowing by lets is ignored) -/
def fieldSyms : Expr → List Nat
  | .undef => []
  | .var x f _ => if f = .none then [] else [x]
  | .const _ => []
  | .lets bs b => fieldSymsB bs ++ fieldSyms b
  | .bin _ a b => fieldSyms a ++ fieldSyms b
  | .not a => fieldSyms a
  | .select c t f => fieldSyms c ++ fieldSyms t ++ fieldSyms f
  | .call _ as => fieldSymsA as
/-- See `fieldSyms`. -/
def fieldSymsA : Exprs → List Nat
  | .nil => []
  | .cons e es => fieldSyms e ++ fieldSymsA es
/-- See `fieldSyms`. -/
def fieldSymsB : Binds → List Nat
  | .nil => []
  | .cons _ e bs => fieldSyms e ++ fieldSymsB bs
end

/-- optimizations.cc:2118-2122: `as_variable(op->args[0])`. The code reads the optional without a check; here nothing is recorded if the argument
is not a variable. -/
def argSym : Exprs → List Nat
  | .cons (.var x .none _) _ => [x]
  | _ => []

mutual
/-- optimizations.cc:2115-2125: the buffers in `buffer_at` -/
def atSyms : Expr → List Nat
  | .undef => []
  | .var _ _ _ => []
  | .const _ => []
  | .lets bs b => atSymsB bs ++ atSyms b
  | .bin _ a b => atSyms a ++ atSyms b
  | .not a => atSyms a
  | .select c t f => atSyms c ++ atSyms t ++ atSyms f
  | .call fn as => (if fn = .bufferAt then argSym as else []) ++ atSymsA as
/-- See `atSyms`. -/
def atSymsA : Exprs → List Nat
  | .nil => []
  | .cons e es => atSyms e ++ atSymsA es
/-- See `atSyms`. -/
def atSymsB : Binds → List Nat
  | .nil => []
  | .cons _ e bs => atSyms e ++ atSymsB bs
end

/-- optimizations.cc:2106-2113 `is_barrier` -/
def isBarrier (fn : Fn) : Bool := fn == .semInit || fn == .semWait || fn == .semSignal

mutual
/-- optimizations.cc:2124: is there a call that is a barrier? -/
def hasBarrier : Expr → Bool
  | .undef => false
  | .var _ _ _ => false
  | .const _ => false
  | .lets bs b => hasBarrierB bs || hasBarrier b
  | .bin _ a b => hasBarrier a || hasBarrier b
  | .not a => hasBarrier a
  | .select c t f => hasBarrier c || hasBarrier t || hasBarrier f
  | .call fn as => isBarrier fn || hasBarrierA as
/-- See `hasBarrier`. -/
def hasBarrierA : Exprs → Bool
  | .nil => false
  | .cons e es => hasBarrier e || hasBarrierA es
/-- See `hasBarrier`. -/
def hasBarrierB : Binds → Bool
  | .nil => false
  | .cons _ e bs => hasBarrier e || hasBarrierB bs
end

/-- The values of lets. -/
def bindVals : Binds → List Expr
  | .nil => []
  | .cons _ e bs => e :: bindVals bs

/-- The expressions of an interval. -/
def intervalExprs (i : Interval) : List Expr := [i.min, i.maxEnd]

/-- The expressions of dimensions. -/
def dimExprs (ds : List DimE) : List Expr := ds.flatMap fun d => intervalExprs d.bounds ++ [d.stride, d.fold]

/-! ## The state of the mutator -/

/-- optimizations.cc:1890-1891: `consumed`, `produced` (the sets, as lists) and `barrier` -/
structure Sets where
  consumed : List Nat
  produced : List Nat
  barrier : Bool

/-- optimizations.cc:1892 `aliases` -/
abbrev Aliases := Nat → Option Nat

/-- optimizations.cc:1894-1897 `lookup_alias` -/
def look (A : Aliases) (x : Nat) : Nat := (A x).getD x

/-- A new alias. -/
def setAlias (A : Aliases) (x y : Nat) : Aliases := fun z => if z = x then some y else A z

/-- optimizations.cc:2097-2125: visit of an expression; `chk` is `in_check` -/
def visitE (A : Aliases) (chk : Bool) (st : Sets) (e : Expr) : Sets :=
  ⟨(atSyms e).map (look A) ++ st.consumed, (if chk then (fieldSyms e).map (look A) else []) ++ (atSyms e).map (look A) ++ st.produced,
    st.barrier || hasBarrier e⟩

/-- Visits of expressions. -/
def visitEs (A : Aliases) (st : Sets) (es : List Expr) : Sets := es.foldl (visitE A false) st

/-- optimizations.cc:1899-1903 `remove_from_set` -/
def rm (l : List Nat) (x : Nat) : List Nat := l.filter (· ≠ x)

/-- optimizations.cc:2140-2146: `op->sym` is removed from the sets -/
def hide (x : Nat) (st : Sets) : Sets := ⟨rm st.consumed x, rm st.produced x, st.barrier⟩

/-- optimizations.cc:2150-2162: the state of `op->sym` is restored -/
def restore (x : Nat) (old st : Sets) : Sets :=
  ⟨(if x ∈ old.consumed then [x] else []) ++ rm st.consumed x, (if x ∈ old.produced then [x] else []) ++ rm st.produced x, st.barrier⟩

/-- depends_on.cc:410-428 `find_buffer_data_dependency` -/
def dataDep (e : Expr) : Option Nat :=
  match (((depsE true [] e).filter fun p => p.2 == .base).map Prod.fst).dedup with
  | [x] => some x
  | _ => none

/-! ## The graph of the stages -/

mutual
/-- optimizations.cc:1905-1917 `should_async` -/
def shouldAsync : Stmt → Bool
  | .block ss => shouldAsyncs ss
  | .check _ => false
  | _ => true
/-- See `shouldAsync`. -/
def shouldAsyncs : Stmts → Bool
  | .nil => false
  | .cons s ss => shouldAsync s || shouldAsyncs ss
end

/-- optimizations.cc:1919-1926, 2007: the bodies of the stages, the edges, and `produced` in `visit(const block*)`. A stage is identified by its
index. `consumers` and `producers` are sets of pointers; here they are lists without repetitions. -/
structure Dag where
  body : Nat → Stmt
  cons : Nat → List Nat
  prod : Nat → List Nat
  done : List Nat

/-- A new value at one index. -/
def put {α : Type} (f : Nat → α) (i : Nat) (a : α) : Nat → α := fun j => if j = i then a else f j

/-- optimizations.cc:1929-1948 `stage::fuse`: the producer `p` becomes a part of the consumer `c`. (`produced.insert(&p)` in line 2024 is here too.) -/
def Dag.fuse (d : Dag) (c p : Nat) : Dag :=
  let prod1 : Nat → List Nat := fun i => if i ∈ d.cons p then (rm (d.prod i) p).insert c else d.prod i
  let cons1 : Nat → List Nat := fun i => if i ∈ prod1 p then (rm (d.cons i) p).insert c else d.cons i
  ⟨put d.body c (blockMake2 (d.body p) (d.body c)), put cons1 c (rm (rm (cons1 c ∪ cons1 p) c) p), put prod1 c (rm (rm (prod1 c ∪ prod1 p) c) p), p :: d.done⟩

/-- optimizations.cc:2016-2027: `p` is fused into its consumer, if it has only one and that has only one producer. -/
def Dag.tryFuse (d : Dag) (p : Nat) : Dag :=
  match d.cons p with
  | [c] => if (d.prod c).length = 1 then d.fuse c p else d
  | _ => d

/-- optimizations.cc:2007-2013 `produce` -/
def Dag.produce (d : Dag) (s : Nat) : Dag :=
  { d with cons := fun j => if j ∈ d.prod s then rm (d.cons j) s else d.cons j, done := s :: d.done }

/-- The state of the loop in lines 2035-2052: the graph, `synchronous`, and `to_produce` (the last stage is the first) -/
structure Scan where
  dag : Dag
  sync : List Stmt
  todo : List Nat

/-- optimizations.cc:2039-2052: one stage -/
def Scan.step (k : Scan) (i : Nat) : Scan :=
  if i ∈ k.dag.done then k
  else if (k.dag.cons i).isEmpty then
    if shouldAsync (k.dag.body i) then { k with todo := i :: k.todo }
    else ⟨k.dag.produce i, k.sync ++ [k.dag.body i], k.todo⟩
  else k

/-- optimizations.cc:2035-2072: one group of tasks: the new graph and the statement for the group, or `none` if there are no stages left -/
def Dag.level (d : Dag) (n : Nat) : Option (Dag × Stmt) :=
  let k := (List.range n).foldl Scan.step ⟨d, [], []⟩
  match k.todo with
  | [] => if k.sync.isEmpty then none else some (k.dag, blockMake k.sync)
  | i :: rest =>
    some (rest.foldl (fun r j => (r.1.produce j, Stmt.async none (k.dag.body j) r.2)) (k.dag.produce i, blockMake (k.sync ++ [k.dag.body i])))

/-- optimizations.cc:2033-2074: the loop that builds the result. The argument bounds the number of groups, which is less than the number of
stages. -/
def Dag.build (n : Nat) : Nat → Dag → Stmt → Dag × Stmt
  | 0, d, r => (d, r)
  | m + 1, d, r =>
    match d.level n with
    | none => (d, r)
    | some (d', t) => Dag.build n m d' (blockMake2 t r)

/-- optimizations.cc:1919-1926, 1951-1958: a stage after it was mutated -/
structure Stage where
  body : Stmt
  changed : Bool
  consumed : List Nat
  produced : List Nat

/-- optimizations.cc:1972-1974: the later stage `b` has to wait for `a` -/
def conflict (a b : Stage) : Bool :=
  a.produced.any (b.consumed.contains ·) || a.produced.any (b.produced.contains ·) || a.consumed.any (b.produced.contains ·)

/-- optimizations.cc:1962-1980: the graph before anything is fused -/
def mkDag (L : List Stage) : Dag :=
  let st (i : Nat) : Stage := L.getD i ⟨.undef, false, [], []⟩
  ⟨fun i => (st i).body, fun i => (List.range L.length).filter fun j => i < j && conflict (st i) (st j),
    fun j => (List.range L.length).filter fun i => i < j && conflict (st i) (st j), []⟩

/-- optimizations.cc:2006-2076: the new statement for the block -/
def schedule (L : List Stage) : Stmt :=
  (Dag.build L.length (L.length + 1) ((List.range L.length).foldl Dag.tryFuse (mkDag L)) .undef).2

/-! ## The mutator -/

/-- The result of a mutation: the statement, whether it is not the same object, and the new state -/
structure Res where
  s : Stmt
  changed : Bool
  st : Sets

/-- The sets of a block (optimizations.cc:1982-1988) -/
def unionSets (L : List Stage) (barrier : Bool) : Sets := ⟨L.flatMap (·.consumed), L.flatMap (·.produced), barrier⟩

mutual
/-- optimizations.cc:1889-2177 `task_parallelizer`; nodes without a handler are visited by `node_mutator` (node_mutator.cc:144-330). -/
def visit (A : Aliases) (st : Sets) : Stmt → Res
  | .undef => ⟨.undef, false, st⟩
  -- optimizations.cc:2079-2087
  | .call t i o xs => ⟨.call t i o xs, false, ⟨i.map (look A) ++ st.consumed, o.map (look A) ++ st.produced, st.barrier⟩⟩
  -- optimizations.cc:2089-2093
  | .copy t src xs dst ys pad => ⟨.copy t src xs dst ys pad, false, ⟨look A src :: st.consumed, look A dst :: st.produced, st.barrier⟩⟩
  -- optimizations.cc:2127-2131
  | .check c => ⟨.check c, false, visitE A true st c⟩
  | .lets bs s cl =>
    let r := visit A (visitEs A st (bindVals bs)) s
    ⟨.lets bs r.s cl, r.changed, r.st⟩
  | .loop x wk b step s =>
    let r := visit A (visitEs A st (intervalExprs b ++ [step, wk])) s
    ⟨.loop x wk b step r.s, r.changed, r.st⟩
  -- optimizations.cc:1961-2077
  | .block ss =>
    let q := visits A st.barrier ss
    let st' := unionSets q.1 q.2
    if q.2 then
      if q.1.any (·.changed) then ⟨blockMake (q.1.map (·.body)), true, st'⟩ else ⟨.block ss, false, st'⟩
    else ⟨schedule q.1, true, st'⟩
  -- optimizations.cc:2133-2164, 2166-2167
  | .allocate x k e ds s =>
    let r := visit A (visitEs A (hide x st) (e :: dimExprs ds)) s
    ⟨.allocate x k e ds r.s, r.changed, restore x st r.st⟩
  | .constantBuffer x b s =>
    let r := visit A (hide x st) s
    ⟨.constantBuffer x b r.s, r.changed, restore x st r.st⟩
  -- optimizations.cc:2168
  | .makeBuffer x base e ds s =>
    match dataDep base with
    | some y =>
      let r := visit (setAlias A x (look A y)) (visitEs (setAlias A x (look A y)) st (base :: e :: dimExprs ds)) s
      ⟨.makeBuffer x base e ds r.s, r.changed, r.st⟩
    | none =>
      let r := visit A (visitEs A (hide x st) (base :: e :: dimExprs ds)) s
      ⟨.makeBuffer x base e ds r.s, r.changed, restore x st r.st⟩
  -- optimizations.cc:2169-2174
  | .cloneBuffer x y s =>
    let r := visit (setAlias A x (look A y)) st s
    ⟨.cloneBuffer x y r.s, r.changed, r.st⟩
  | .cropBuffer x y bs s =>
    let r := visit (setAlias A x (look A y)) (visitEs (setAlias A x (look A y)) st (bs.flatMap intervalExprs)) s
    ⟨.cropBuffer x y bs r.s, r.changed, r.st⟩
  | .cropDim x y d b s =>
    let r := visit (setAlias A x (look A y)) (visitEs (setAlias A x (look A y)) st (intervalExprs b)) s
    ⟨.cropDim x y d b r.s, r.changed, r.st⟩
  | .sliceBuffer x y es s =>
    let r := visit (setAlias A x (look A y)) (visitEs (setAlias A x (look A y)) st es) s
    ⟨.sliceBuffer x y es r.s, r.changed, r.st⟩
  | .sliceDim x y d e s =>
    let r := visit (setAlias A x (look A y)) (visitEs (setAlias A x (look A y)) st [e]) s
    ⟨.sliceDim x y d e r.s, r.changed, r.st⟩
  | .transpose x y ds s =>
    let r := visit (setAlias A x (look A y)) st s
    ⟨.transpose x y ds r.s, r.changed, r.st⟩
  -- node_mutator.cc:133-143
  | .async x t s =>
    let r := visit A st t
    let q := visit A r.st s
    ⟨.async x r.s q.s, r.changed || q.changed, q.st⟩
/-- optimizations.cc:1951-1958, 1967-1969: the stages of a block, and `barrier` -/
def visits (A : Aliases) (barrier : Bool) : Stmts → List Stage × Bool
  | .nil => ([], barrier)
  | .cons s ss =>
    let r := visit A ⟨[], [], barrier⟩ s
    let q := visits A r.st.barrier ss
    (⟨r.s, r.changed, r.st.consumed, r.st.produced⟩ :: q.1, q.2)
end

end PT

/-- optimizations.cc:2181-2184 `parallelize_tasks` -/
def parallelizeTasks (s : Stmt) : Stmt := (PT.visit (fun _ => none) ⟨[], [], false⟩ s).s

/-! ## Specification -/

/-- What happens: a call, copy or check is done with the values of the symbols at that point, or the memory of a new buffer is allocated. -/
inductive TAct (V : Type)
  | leaf (s : Stmt) (ρ : Nat → V)
  | alloc (h : Nat)

/-- What a statement does: actions in a sequence or in parallel. -/
inductive TProc (V : Type)
  | skip
  | act (a : TAct V)
  | seq (p q : TProc V)
  | par (p q : TProc V)

/-- How expressions are evaluated, for values in `V` (integers and buffers). `mem v` is the memory that can be reached by a buffer. -/
structure TWorld (V : Type) where
  mem : V → Nat → Prop
  value : Expr → (Nat → V) → V
  iters : Expr → Interval → Expr → (Nat → V) → List V
  serial : Expr → (Nat → V) → Bool
  alloc : Nat → Storage → Expr → List DimE → (Nat → V) → Nat → V
  const : Buf → V
  view : HBnd → (Nat → V) → V
  handle : V

mutual
/-- All symbols in an expression. -/
def Expr.occurs : Expr → List Nat
  | .undef => []
  | .var x _ _ => [x]
  | .const _ => []
  | .lets bs b => bs.occurs ++ b.occurs
  | .bin _ a b => a.occurs ++ b.occurs
  | .not a => a.occurs
  | .select c t f => c.occurs ++ t.occurs ++ f.occurs
  | .call _ as => as.occurs
/-- See `Expr.occurs`. -/
def Exprs.occurs : Exprs → List Nat
  | .nil => []
  | .cons e es => e.occurs ++ es.occurs
/-- See `Expr.occurs`. -/
def Binds.occurs : Binds → List Nat
  | .nil => []
  | .cons _ e bs => e.occurs ++ bs.occurs
end

mutual
/-- The symbols that are used themselves, and not only by their fields. -/
def Expr.plain : Expr → List Nat
  | .undef => []
  | .var x f _ => if f = .none then [x] else []
  | .const _ => []
  | .lets bs b => bs.plain ++ b.plain
  | .bin _ a b => a.plain ++ b.plain
  | .not a => a.plain
  | .select c t f => c.plain ++ t.plain ++ f.plain
  | .call _ as => as.plain
/-- See `Expr.plain`. -/
def Exprs.plain : Exprs → List Nat
  | .nil => []
  | .cons e es => e.plain ++ es.plain
/-- See `Expr.plain`. -/
def Binds.plain : Binds → List Nat
  | .nil => []
  | .cons _ e bs => e.plain ++ bs.plain
end

namespace TWorld

variable {V : Type} (W : TWorld V)

/-- A new value for a symbol. -/
def _root_.Slinky.TWorld.set (ρ : Nat → V) (x : Nat) (v : V) : Nat → V := fun y => if y = x then v else ρ y

/-- The values of lets, which are evaluated in order. -/
def binds : Binds → (Nat → V) → (Nat → V)
  | .nil, ρ => ρ
  | .cons x e bs, ρ => binds bs (set ρ x (W.value e ρ))

/-- Memory that an action reads: the inputs of calls, and the source and the padding of copies. -/
def Reads : TAct V → Nat → Prop
  | .leaf (.call _ i _ _) ρ, h => ∃ x ∈ i, W.mem (ρ x) h
  | .leaf (.copy _ src _ _ _ pad) ρ, h => W.mem (ρ src) h ∨ ∃ x, pad = some x ∧ W.mem (ρ x) h
  | _, _ => False

/-- Memory that an action writes: the outputs of calls, the destination of copies, and new memory. A check counts as a write of the buffers in it,
because it has to stay in its place with respect to everything that uses them. -/
def Writes : TAct V → Nat → Prop
  | .leaf (.call _ _ o _) ρ, h => ∃ x ∈ o, W.mem (ρ x) h
  | .leaf (.copy _ _ _ dst _ _) ρ, h => W.mem (ρ dst) h
  | .leaf (.check c) ρ, h => ∃ x ∈ c.occurs, W.mem (ρ x) h
  | .alloc k, h => h = k
  | _, _ => False

/-- Two actions whose order does not matter: neither of them writes memory that the other one reads or writes. -/
def Indep (a b : TAct V) : Prop :=
  ∀ h, ¬ (W.Writes a h ∧ (W.Reads b h ∨ W.Writes b h)) ∧ ¬ (W.Reads a h ∧ W.Writes b h)

/-- Processes in a sequence. -/
def seqs : List (TProc V) → TProc V
  | [] => .skip
  | p :: ps => .seq p (seqs ps)

/-- Processes in parallel. -/
def pars : List (TProc V) → TProc V
  | [] => .skip
  | p :: ps => .par p (pars ps)

mutual
/-- evaluate.cc:390-760: what a statement does. The memory of an allocation is any `h`. -/
def Unr : Stmt → (Nat → V) → TProc V → Prop
  | .undef, _, p => p = .skip
  | .call t i o xs, ρ, p => p = .act (.leaf (.call t i o xs) ρ)
  | .copy t src xs dst ys pad, ρ, p => p = .act (.leaf (.copy t src xs dst ys pad) ρ)
  | .check c, ρ, p => p = .act (.leaf (.check c) ρ)
  | .lets bs s _, ρ, p => Unr s (W.binds bs ρ) p
  | .block ss, ρ, p => UnrL ss ρ p
  | .loop x wk b step s, ρ, p => ∃ ps, List.Forall₂ (fun v q => Unr s (set ρ x v) q) (W.iters wk b step ρ) ps ∧
      p = if W.serial wk ρ then seqs ps else pars ps
  | .allocate x k e ds s, ρ, p => ∃ h q, Unr s (set ρ x (W.alloc x k e ds ρ h)) q ∧ p = .seq (.act (.alloc h)) q
  | .constantBuffer x b s, ρ, p => Unr s (set ρ x (W.const b)) p
  | .makeBuffer x base e ds s, ρ, p => Unr s (set ρ x (W.view (.make x base e ds) ρ)) p
  | .cloneBuffer x y s, ρ, p => Unr s (set ρ x (W.view (.clone x y) ρ)) p
  | .cropBuffer x y bs s, ρ, p => Unr s (set ρ x (W.view (.crop x y bs) ρ)) p
  | .cropDim x y d b s, ρ, p => Unr s (set ρ x (W.view (.cropD x y d b) ρ)) p
  | .sliceBuffer x y es s, ρ, p => Unr s (set ρ x (W.view (.slice x y es) ρ)) p
  | .sliceDim x y d e s, ρ, p => Unr s (set ρ x (W.view (.sliceD x y d e) ρ)) p
  | .transpose x y ds s, ρ, p => Unr s (set ρ x (W.view (.trans x y ds) ρ)) p
  | .async x t s, ρ, p => ∃ a b, Unr t (match x with | some y => set ρ y W.handle | none => ρ) a ∧
      Unr s (match x with | some y => set ρ y W.handle | none => ρ) b ∧ p = .par a b
/-- The statements of a block. -/
def UnrL : Stmts → (Nat → V) → TProc V → Prop
  | .nil, _, p => p = .skip
  | .cons s ss, ρ, p => ∃ a b, Unr s ρ a ∧ UnrL ss ρ b ∧ p = .seq a b
end

/-- The symbols whose memory a buffer can refer to. -/
def _root_.Slinky.HBnd.srcs : HBnd → List Nat
  | .make _ base _ _ => base.plain
  | .clone _ y => [y]
  | .crop _ y _ => [y]
  | .cropD _ y _ _ => [y]
  | .slice _ y _ => [y]
  | .sliceD _ y _ _ => [y]
  | .trans _ y _ => [y]

/-- What is known about memory: a new buffer has only the new memory, a constant has none that is ever written, a crop (or slice, transpose, clone)
has only memory of the original buffer, a value computed by an expression can only be a pointer to memory of a symbol that is used itself (not only
by a field, which is an integer), and the value of a loop variable is an integer. -/
structure OK : Prop where
  alloc : ∀ x k e ds ρ h m, W.mem (W.alloc x k e ds ρ h) m → m = h
  const : ∀ b m, ¬ W.mem (W.const b) m
  view : ∀ b ρ m, W.mem (W.view b ρ) m → ∃ y ∈ b.srcs, W.mem (ρ y) m
  value : ∀ e ρ m, W.mem (W.value e ρ) m → ∃ y ∈ e.plain, W.mem (ρ y) m
  iters : ∀ wk b st ρ v, v ∈ W.iters wk b st ρ → ∀ m, ¬ W.mem v m

end TWorld

namespace TProc

variable {V : Type}

/-- The actions, in the order of an execution in which nothing runs at the same time. -/
def serial : TProc V → List (TAct V)
  | .skip => []
  | .act a => [a]
  | .seq p q => p.serial ++ q.serial
  | .par p q => p.serial ++ q.serial

/-- The allocations. -/
def allocs (p : TProc V) : List Nat := p.serial.filterMap fun a => match a with | .alloc h => some h | _ => none

/-- Actions that can happen at the same time are independent. -/
def RaceFree (W : TWorld V) : TProc V → Prop
  | .skip => True
  | .act _ => True
  | .seq p q => p.RaceFree W ∧ q.RaceFree W
  | .par p q => p.RaceFree W ∧ q.RaceFree W ∧ ∀ a ∈ p.serial, ∀ b ∈ q.serial, W.Indep a b

/-- The actions of two threads, in any order between the threads. -/
inductive Merge {α : Type} : List α → List α → List α → Prop
  | nil : Merge [] [] []
  | left (e : α) {a b c : List α} : Merge a b c → Merge (e :: a) b (e :: c)
  | right (e : α) {a b c : List α} : Merge a b c → Merge a (e :: b) (e :: c)

/-- Executions: the actions that were done and whether each of them succeeded, and whether all of the process succeeded. An execution can stop at
any point (because of an error in another thread). -/
inductive Run : TProc V → List (TAct V × Bool) → Bool → Prop
  | stop (p : TProc V) : Run p [] false
  | skip : Run .skip [] true
  | act (a : TAct V) (ok : Bool) : Run (.act a) [(a, ok)] ok
  | fail {p q : TProc V} {t : List (TAct V × Bool)} : Run p t false → Run (.seq p q) t false
  | seq {p q : TProc V} {t u : List (TAct V × Bool)} {ok : Bool} : Run p t true → Run q u ok → Run (.seq p q) (t ++ u) ok
  | par {p q : TProc V} {t u w : List (TAct V × Bool)} {a b : Bool} : Run p t a → Run q u b → Merge t u w → Run (.par p q) w (a && b)

end TProc

/-- The same actions, where only the order of independent actions differs. -/
inductive TWorld.Same {V : Type} (W : TWorld V) : List (TAct V) → List (TAct V) → Prop
  | refl (t : List (TAct V)) : Same W t t
  | swap (u : List (TAct V)) (a b : TAct V) (v : List (TAct V)) : W.Indep a b → Same W (u ++ a :: b :: v) (u ++ b :: a :: v)
  | trans {t u v : List (TAct V)} : Same W t u → Same W u v → Same W t v

/-- `t` is a legal execution of the actions `r`, where `ok` is whether it succeeded: it can be continued to all of `r`, up to the order of
independent actions. So an action is done only after all actions that come before it in `r` and that it is not independent of. If it succeeded,
every action was done and succeeded. Actions after one that failed are independent of that one. -/
def TWorld.Legal {V : Type} (W : TWorld V) (r : List (TAct V)) (t : List (TAct V × Bool)) (ok : Bool) : Prop :=
  (∃ rest, W.Same (t.map Prod.fst ++ rest) r ∧ (ok = true → rest = [])) ∧ (ok = true → ∀ x ∈ t, x.2 = true) ∧
    t.Pairwise fun x y => x.2 = false → W.Indep x.1 y.1

/-- Every allocation is new memory. -/
def TWorld.Fresh {V : Type} (W : TWorld V) (ρ : Nat → V) (p : TProc V) : Prop :=
  p.allocs.Nodup ∧ ∀ h ∈ p.allocs, ∀ x, ¬ W.mem (ρ x) h

/-! ## Conditions on the statement -/

/-- The values of lets are not buffers, or the name stays the same. `Γ` is the symbols of buffers. -/
def Binds.TaskOK (Γ : List Nat) : Binds → Prop
  | .nil => True
  | .cons x e bs => ((∃ d, e = .var x .none d) ∨ ∀ y ∈ e.plain, y ∉ Γ) ∧ bs.TaskOK Γ

mutual
/-- `Γ` is the symbols in scope that are buffers and `K` is the ones that are constants. (1) The padding of copies is constant, (2) checks use
buffers only by fields and not by `free` or other calls, (3) lets do not rename buffers, (4) an allocation (or a constant, or a buffer that is made
from an unknown pointer) does not shadow a buffer, (5) a buffer that is made from a pointer is made from at most one buffer, and (6) there are no
tasks yet. See `ParTasksEx.lean` for what happens without each of them. -/
def Stmt.TaskOK : List Nat → List Nat → Stmt → Prop
  | _, _, .undef => True
  | _, _, .call .. => True
  | _, K, .copy _ _ _ _ _ pad => ∀ x, pad = some x → x ∈ K
  | Γ, _, .check c => ∀ x ∈ c.plain, x ∉ Γ ∨ x ∈ PT.atSyms c
  | Γ, K, .lets bs s _ => bs.TaskOK Γ ∧ s.TaskOK Γ (K.filter (· ∉ bs.syms))
  | Γ, K, .block ss => ss.TaskOK Γ K
  | Γ, K, .loop x _ _ _ s => s.TaskOK Γ (K.filter (· ≠ x))
  | Γ, K, .allocate x _ _ _ s => x ∉ Γ ∧ s.TaskOK (x :: Γ) (K.filter (· ≠ x))
  | Γ, K, .constantBuffer x _ s => x ∉ Γ ∧ s.TaskOK Γ (x :: K)
  | Γ, K, .makeBuffer x base _ _ s =>
    (∀ y ∈ base.plain, y ∈ Γ → PT.dataDep base = some y) ∧ (PT.dataDep base = none → x ∉ Γ) ∧ s.TaskOK (x :: Γ) (K.filter (· ≠ x))
  | Γ, K, .cloneBuffer x _ s => s.TaskOK (x :: Γ) (K.filter (· ≠ x))
  | Γ, K, .cropBuffer x _ _ s => s.TaskOK (x :: Γ) (K.filter (· ≠ x))
  | Γ, K, .cropDim x _ _ _ s => s.TaskOK (x :: Γ) (K.filter (· ≠ x))
  | Γ, K, .sliceBuffer x _ _ s => s.TaskOK (x :: Γ) (K.filter (· ≠ x))
  | Γ, K, .sliceDim x _ _ _ s => s.TaskOK (x :: Γ) (K.filter (· ≠ x))
  | Γ, K, .transpose x _ _ s => s.TaskOK (x :: Γ) (K.filter (· ≠ x))
  | _, _, .async .. => False
/-- See `Stmt.TaskOK`. -/
def Stmts.TaskOK : List Nat → List Nat → Stmts → Prop
  | _, _, .nil => True
  | Γ, K, .cons s ss => s.TaskOK Γ K ∧ ss.TaskOK Γ K
end

end Slinky
