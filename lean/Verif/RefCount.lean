import Mathlib.Data.Fintype.Basic
import Mathlib.Algebra.BigOperators.Group.Finset.Basic
import Mathlib.Logic.Function.Basic

/-!
# Reference counting

Model of `slinky/base/ref_count.h` as a transition system in which any number of threads operate on
any number of `ref_count<T>` handles.  A handle (`Slot`) is either a local variable or a member of a
reference counted object (`owner`); destroying an object runs the destructors of its member handles.

Only the two operations on the atomic counter (`fetch_add`, `fetch_sub`) synchronise, so these, and
the steps of running destructors, are separate, interleaved steps.  The accesses of one operation
to its (plain) handles are one step; that is justified by the rule (`Legal`, `Writable`) that the
client program has no data race on the handles: while an operation is reading a handle no other
operation writes it.  Nothing is assumed about the life time of objects: that no object is
destroyed while it is in use is what is proved.

Not modelled: `int` overflow of the counter (more than 2^31 references), memory orderings weaker
than sequential consistency, `operator ref_count<U>` (it is the constructor from a pointer), copying
the *object* (`ref_counted(const ref_counted&)` leaves the counter of the new object at 0, as `new`
does).
-/

namespace Slinky.RC

/-- The life of an object: not allocated yet, allocated and owned, its destructor is running
(`T::destroy` has been called), freed. -/
inductive Status where
  | unborn | live | dying | freed
deriving DecidableEq

/-- The rest of an operation that a thread still has to execute.
`addRef dst o locks`: `value->add_ref()` (ref_count.h:30, called at 50 and 61) for the handle `dst`
which already holds `o`; `locks` are the other handles the operation uses.
`release o`: `o->release()` (ref_count.h:31-37).
`dtor o rest`: `T::destroy(o)`: the member handles `rest` have not been destroyed yet. -/
inductive Micro (Obj Slot : Type) where
  | addRef (dst : Slot) (o : Obj) (locks : List Slot)
  | release (o : Obj)
  | dtor (o : Obj) (rest : List Slot)
deriving DecidableEq

/-- The member handles of the objects: a static fact about the type of each object. -/
structure Layout (Obj Slot : Type) where
  owner : Slot → Option Obj
  fields : Obj → List Slot
  mem_fields : ∀ o s, s ∈ fields o ↔ owner s = some o

/-- The state of the program.  `val` is `ref_count::value` (ref_count.h:45), `cnt` is
`ref_counted::ref_count_` (ref_count.h:14), `raw` are the pointers returned by `take()` and not
yet given to `assume`.  `mid` and `destroyed` are ghost: the handle is being assigned and its
`add_ref` has not happened; the number of calls of `T::destroy`. -/
structure State (Obj Slot Tid : Type) where
  val : Slot → Option Obj
  cnt : Obj → Int
  status : Obj → Status
  destroyed : Obj → Nat
  raw : List Obj
  mid : Slot → Bool
  pc : Tid → List (Micro Obj Slot)

variable {Obj Slot Tid : Type} [DecidableEq Obj] [DecidableEq Slot] [DecidableEq Tid]

/-- Function update (one memory cell is written). -/
def upd {A B : Type} [DecidableEq A] (f : A → B) (a : A) (b : B) : A → B :=
  fun x => if x = a then b else f x

/-- Nothing allocated, all handles null, all threads idle. -/
def init : State Obj Slot Tid where
  val _ := none
  cnt _ := 0
  status _ := .unborn
  destroyed _ := 0
  raw := []
  mid _ := false
  pc _ := []

/-- `if (v) v->release();` -/
def releaseOf (v : Option Obj) : List (Micro Obj Slot) :=
  match v with
  | none => []
  | some o => [.release o]

/-- `if (value) value->add_ref();` -/
def addRefOf (dst : Slot) (v : Option Obj) (locks : List Slot) : List (Micro Obj Slot) :=
  match v with
  | none => []
  | some o => [.addRef dst o locks]

/-- The handles that the operation a thread is executing is still relying on. -/
def locks : List (Micro Obj Slot) → List Slot
  | .addRef _ _ L :: _ => L
  | _ => []

/-- The handles `U` may be accessed: nobody is in the middle of assigning one of them, and a handle
which is a member of an object is reached through a handle in `U` that points to that object. -/
def Legal (ly : Layout Obj Slot) (σ : State Obj Slot Tid) (U : List Slot) : Prop :=
  ∀ s ∈ U, σ.mid s = false ∧ ∀ p, ly.owner s = some p → ∃ s' ∈ U, σ.val s' = some p

/-- The handle `d` may be written: no other operation in progress is using it. -/
def Writable (σ : State Obj Slot Tid) (d : Slot) : Prop := ∀ t, d ∉ locks (σ.pc t)

/-- `ref_count(T* v)` / `operator=(T* v)` with `v` a new object `o`, and `make_...(new T)`:
ref_count.h:49-51, 58-65.  Allocation and the first `add_ref` are one step, as no other thread has
the pointer. -/
def mkNew (σ : State Obj Slot Tid) (t : Tid) (d : Slot) (o : Obj) : State Obj Slot Tid :=
  { σ with val := upd σ.val d (some o), cnt := upd σ.cnt o 1, status := upd σ.status o .live,
           pc := upd σ.pc t (releaseOf (σ.val d)) }

/-- `ref_count(const ref_count& other) : ref_count(other.value)`: ref_count.h:49-52. -/
def copyCtor (σ : State Obj Slot Tid) (t : Tid) (d src : Slot) (U : List Slot) :
    State Obj Slot Tid :=
  { σ with val := upd σ.val d (σ.val src), mid := upd σ.mid d (σ.val src).isSome,
           pc := upd σ.pc t (addRefOf d (σ.val src) (U.filter (· ≠ d))) }

/-- `operator=(const ref_count& other)` and `operator=(T* v)`: ref_count.h:58-67. -/
def assign (σ : State Obj Slot Tid) (t : Tid) (d src : Slot) (U : List Slot) :
    State Obj Slot Tid :=
  if σ.val d ≠ σ.val src then
    { σ with val := upd σ.val d (σ.val src), mid := upd σ.mid d (σ.val src).isSome,
             pc := upd σ.pc t (addRefOf d (σ.val src) (U.filter (· ≠ d)) ++ releaseOf (σ.val d)) }
  else σ

/-- `operator=(nullptr)`: ref_count.h:58-65 with `v = nullptr`; also the destructor of a handle,
ref_count.h:54-56. -/
def reset (σ : State Obj Slot Tid) (t : Tid) (d : Slot) : State Obj Slot Tid :=
  { σ with val := upd σ.val d none, pc := upd σ.pc t (releaseOf (σ.val d)) }

/-- `ref_count(ref_count&& other)`: ref_count.h:53. -/
def moveCtor (σ : State Obj Slot Tid) (d src : Slot) : State Obj Slot Tid :=
  { σ with val := upd (upd σ.val d (σ.val src)) src none }

/-- `operator=(ref_count&& other)`: ref_count.h:69-73: `swap(value, other.value)`, then
`other = nullptr`. -/
def moveAssign (σ : State Obj Slot Tid) (t : Tid) (d src : Slot) : State Obj Slot Tid :=
  let swapped : State Obj Slot Tid := { σ with val := upd (upd σ.val d (σ.val src)) src (σ.val d) }
  reset swapped t src

/-- `take()`: ref_count.h:88-92. -/
def take (σ : State Obj Slot Tid) (d : Slot) (o : Obj) : State Obj Slot Tid :=
  { σ with val := upd σ.val d none, raw := o :: σ.raw }

/-- `assume(T* value)`: ref_count.h:94-98. -/
def assume (σ : State Obj Slot Tid) (d : Slot) (o : Obj) : State Obj Slot Tid :=
  { σ with val := upd σ.val d (some o), raw := σ.raw.erase o }

/-- `fetch_add(1)`: ref_count.h:30. -/
def doAddRef (σ : State Obj Slot Tid) (t : Tid) (dst : Slot) (o : Obj)
    (rest : List (Micro Obj Slot)) : State Obj Slot Tid :=
  { σ with cnt := upd σ.cnt o (σ.cnt o + 1), mid := upd σ.mid dst false, pc := upd σ.pc t rest }

/-- `release()`: `if (fetch_sub(1) == 1) T::destroy(this)`: ref_count.h:31-37. -/
def doRelease (ly : Layout Obj Slot) (σ : State Obj Slot Tid) (t : Tid) (o : Obj)
    (rest : List (Micro Obj Slot)) : State Obj Slot Tid :=
  if σ.cnt o = 1 then
    { σ with cnt := upd σ.cnt o (σ.cnt o - 1), status := upd σ.status o .dying,
             destroyed := upd σ.destroyed o (σ.destroyed o + 1),
             pc := upd σ.pc t (.dtor o (ly.fields o) :: rest) }
  else
    { σ with cnt := upd σ.cnt o (σ.cnt o - 1), pc := upd σ.pc t rest }

/-- The destructor of an object destroys the next member handle: ref_count.h:54-56. -/
def doField (σ : State Obj Slot Tid) (t : Tid) (o : Obj) (s : Slot) (ss : List Slot)
    (rest : List (Micro Obj Slot)) : State Obj Slot Tid :=
  { σ with val := upd σ.val s none, pc := upd σ.pc t (releaseOf (σ.val s) ++ .dtor o ss :: rest) }

/-- The destructor returns and the memory is freed. -/
def doFree (σ : State Obj Slot Tid) (t : Tid) (o : Obj) (rest : List (Micro Obj Slot)) :
    State Obj Slot Tid :=
  { σ with status := upd σ.status o .freed, pc := upd σ.pc t rest }

/-- A step of the implementation: a thread continues the operation it is in. -/
inductive Micro.Step (ly : Layout Obj Slot) : State Obj Slot Tid → State Obj Slot Tid → Prop
  | addRef {σ} (t d o L rest) : σ.pc t = .addRef d o L :: rest → Micro.Step ly σ (doAddRef σ t d o rest)
  | release {σ} (t o rest) : σ.pc t = .release o :: rest → Micro.Step ly σ (doRelease ly σ t o rest)
  | field {σ} (t o s ss rest) :
      σ.pc t = .dtor o (s :: ss) :: rest → Micro.Step ly σ (doField σ t o s ss rest)
  | free {σ} (t o rest) : σ.pc t = .dtor o [] :: rest → Micro.Step ly σ (doFree σ t o rest)

/-- A step of the client program: an idle thread `t` starts an operation on handles `U` it may
access. -/
inductive Client.Step (ly : Layout Obj Slot) : State Obj Slot Tid → State Obj Slot Tid → Prop
  | mkNew {σ} (t d o U) : σ.pc t = [] → Legal ly σ U → d ∈ U → Writable σ d →
      σ.status o = .unborn → Client.Step ly σ (mkNew σ t d o)
  | copyCtor {σ} (t d src U) : σ.pc t = [] → Legal ly σ U → d ∈ U → src ∈ U → Writable σ d →
      d ≠ src → σ.val d = none → Client.Step ly σ (copyCtor σ t d src U)
  | assign {σ} (t d src U) : σ.pc t = [] → Legal ly σ U → d ∈ U → src ∈ U → Writable σ d →
      Client.Step ly σ (assign σ t d src U)
  | reset {σ} (t d U) : σ.pc t = [] → Legal ly σ U → d ∈ U → Writable σ d →
      Client.Step ly σ (reset σ t d)
  | moveCtor {σ} (t d src U) : σ.pc t = [] → Legal ly σ U → d ∈ U → src ∈ U → Writable σ d →
      Writable σ src → d ≠ src → σ.val d = none → Client.Step ly σ (moveCtor σ d src)
  | moveAssign {σ} (t d src U) : σ.pc t = [] → Legal ly σ U → d ∈ U → src ∈ U → Writable σ d →
      Writable σ src → Client.Step ly σ (moveAssign σ t d src)
  | take {σ} (t d o U) : σ.pc t = [] → Legal ly σ U → d ∈ U → Writable σ d →
      σ.val d = some o → Client.Step ly σ (take σ d o)
  | assume {σ} (t d o U) : σ.pc t = [] → Legal ly σ U → d ∈ U → Writable σ d →
      σ.val d = none → o ∈ σ.raw → Client.Step ly σ (assume σ d o)

/-- Any interleaving. -/
inductive Reachable (ly : Layout Obj Slot) : State Obj Slot Tid → Prop
  | init : Reachable ly init
  | client {σ σ'} : Reachable ly σ → Client.Step ly σ σ' → Reachable ly σ'
  | micro {σ σ'} : Reachable ly σ → Micro.Step ly σ σ' → Reachable ly σ'

/-- No thread is in the middle of an operation. -/
def Quiescent (σ : State Obj Slot Tid) : Prop := ∀ t, σ.pc t = []

end Slinky.RC
