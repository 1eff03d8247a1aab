import Verif.SemStmt

/-!
# Running a pipeline (`slinky/runtime/pipeline.h`, `pipeline.cc`)

Simplification: the code asserts that there are as many values as symbols; here, values (or symbols) without a partner are ignored.
-/

namespace Slinky.PE

open Slinky

/-! ## The code -/

/-- pipeline.h:14-22 `pipeline` -/
structure Pipe where
  args : List Nat
  inputs : List Nat
  outputs : List Nat
  body : Stmt

/-- pipeline.h:21-22 what is passed to a pipeline: numbers, and addresses of buffer objects. -/
structure Req where
  args : List Int
  inputs : List Nat
  outputs : List Nat

/-- pipeline.cc:15-17, 18-20, 21-23: a loop over symbols and values. -/
def setZip : List Nat → List Int → St → St
  | x :: xs, v :: vs, st => setZip xs vs (st.set x v)
  | _, _, st => st

/-- pipeline.cc:10-24 `pipeline::setup` -/
def Pipe.setup (P : Pipe) (q : Req) (st : St) : St :=
  setZip P.outputs (q.outputs.map Int.ofNat) (setZip P.inputs (q.inputs.map Int.ofNat) (setZip P.args q.args st))

/-- pipeline.cc:28 `pipeline::evaluate(eval_context&)` -/
def Pipe.run (P : Pipe) (cfg : Cfg) (st : St) : Option (Int × St) := exec cfg P.body st

/-- pipeline.cc:30-38 `pipeline::evaluate(scalars, buffers, buffers, eval_context&)` -/
def Pipe.evaluate (P : Pipe) (cfg : Cfg) (q : Req) (st : St) : Option (Int × St) := P.run cfg (P.setup q st)

/-- pipeline.cc:40-48: with a context of its own, in which nothing is set (`garbage`). The context of the caller is not changed. -/
def Pipe.evaluateNew (P : Pipe) (cfg : Cfg) (garbage : Env) (q : Req) (st : St) : Option (Int × St) :=
  (P.evaluate cfg q { st with ctx := garbage }).map fun r => (r.1, { r.2 with ctx := st.ctx })

/-- A user that runs pipelines, one after the other, in one context. The results. -/
def session (cfg : Cfg) : List (Pipe × Req) → St → Option (List Int × St)
  | [], st => some ([], st)
  | (P, q) :: rs, st => (P.evaluate cfg q st).bind fun r => (session cfg rs r.2).map fun r' => (r.1 :: r'.1, r'.2)

/-- A pipeline that is set up once, and run `n` times. -/
def again (cfg : Cfg) (P : Pipe) : Nat → St → Option (List Int × St)
  | 0, st => some ([], st)
  | n + 1, st => (P.run cfg st).bind fun r => (again cfg P n r.2).map fun r' => (r.1 :: r'.1, r'.2)

/-! ## Specification -/

/-- The values of symbols, from two lists. -/
def named : List Nat → List Val → SEnv → SEnv
  | x :: xs, v :: vs, ρ => named xs vs (ρ.set x v)
  | _, _, ρ => ρ

/-- The buffer at an address. -/
def bufAt (objs : Nat → Option Obj) (a : Nat) : Buf := ((objs a).map Obj.buf).getD ⟨none, 0, []⟩

/-- All that a pipeline sees: the arguments, and the buffers that are passed. Nothing else has a value. -/
def Pipe.env (P : Pipe) (q : Req) (objs : Nat → Option Obj) : SEnv :=
  named P.outputs (q.outputs.map fun a => .buf (bufAt objs a))
    (named P.inputs (q.inputs.map fun a => .buf (bufAt objs a)) (named P.args (q.args.map .int) fun _ => .undef))

/-- The buffers exist, and are different objects. -/
structure Req.Ok (q : Req) (objs : Nat → Option Obj) : Prop where
  exist : ∀ a ∈ q.inputs ++ q.outputs, ∃ o, objs a = some o ∧ o.rank = o.buf.dims.length
  distinct : (q.inputs ++ q.outputs).Nodup

/-- What a session does: each run sees only what is passed to it (and the world, that remembers the log). -/
def sessionSem (w : World) (objs : Nat → Option Obj) : List (Pipe × Req) → List Ev → Option (List Int × List Ev)
  | [], l => some ([], l)
  | (P, q) :: rs, l => (sem w false P.body (P.env q objs) l).bind fun r => (sessionSem w objs rs r.2).map fun r' => (r.1 :: r'.1, r'.2)

end Slinky.PE
