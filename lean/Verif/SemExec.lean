import Verif.Sem
import Verif.StmtProps

/-!
# The evaluator does what the specification says

`Sem.lean` gives statements a meaning without mutation. This file proves that `exec` (the model of the evaluator) computes it (`exec_sem`): in
any state that represents the environment, the result is the same, the world sees the same events in the same order, and the state after is
the state before (but for the log, and symbols that are not in scope).
-/

namespace Slinky

/-- An event without the name of the symbol. -/
def Ev.anon : Ev → Ev
  | .alloc _ h => .alloc 0 h
  | .free _ h => .free 0 h
  | .failed _ => .failed 0
  | e => e

/-- The log, without the names of symbols. -/
def St.alog (st : St) : List Ev := st.log.map Ev.anon

/-- What an expression can read in a state. -/
def World.mem (w : World) (st : St) : Mem where
  field p f d := match st.obj? p with
    | some o => o.field f d
    | none => 0
  call fn xs := match fn, xs with
    | .bufferAt, some p :: xs => match st.obj? p with
      | some o => (bufferAt o.base o.buf.dims xs).getD 0
      | none => 0
    | .validateBuffer, [some p] => match st.obj? p with
      | some o => if o.buf.validate then 1 else 0
      | none => 0
    | fn, xs => w.host fn xs st.alog
  undef := 0

/-- The buffer that a symbol points to. -/
def St.bufOf (st : St) (x : Nat) : Buf := ((st.obj? (st.ctx x)).map Obj.buf).getD ⟨none, 0, []⟩

/-- The world as the evaluator sees it. -/
def cfgOf (w : World) (garbage : Env) : Cfg where
  call t ins outs scs st := w.call t (ins.map st.bufOf) (outs.map st.bufOf)
    (scs.map fun e => ((evalM (w.mem st) st.ctx e).map Prod.fst).getD 0) st.alog
  host fn xs st := w.host fn xs st.alog
  allocate _ o st := (o.setBuf (w.allocate o.buf st.alog).1, (w.allocate o.buf st.alog).2)
  stackAddr st := w.stackAddr st.alog
  strideAlign := w.strideAlign
  autoStack := w.autoStack
  pool := w.pool
  sched st n := w.sched st.alog n
  taskFirst st := w.taskFirst st.alog
  taskLate st := w.taskLate st.alog
  taskHandle st := w.taskHandle st.alog
  garbage := garbage

theorem cfgOf_mem (w : World) (g : Env) (st : St) : (cfgOf w g).mem st = w.mem st := rfl

/-- A pointer to a buffer object. -/
def IsPtr (objs : Nat → Option Obj) (p : Int) (b : Buf) : Prop :=
  ∃ a : Nat, ∃ o : Obj, p = a ∧ objs a = some o ∧ o.buf = b ∧ o.rank = b.dims.length

/-- The number that represents a value. -/
def VRel (objs : Nat → Option Obj) (p : Int) : Val → Prop
  | .undef => True
  | .int i => p = i
  | .buf b => IsPtr objs p b

/-- The context represents the environment. -/
def ERel (objs : Nat → Option Obj) (ctx : Env) (ρ : SEnv) : Prop := ∀ x, VRel objs (ctx x) (ρ x)

theorem SEnv.set_get (ρ : SEnv) (x : Nat) (v : Val) (y : Nat) : ρ.set x v y = if y = x then v else ρ y := rfl

theorem ERel.set {objs : Nat → Option Obj} {ctx : Env} {ρ : SEnv} (h : ERel objs ctx ρ) (x : Nat) {p : Int} {v : Val} (hv : VRel objs p v) :
    ERel objs (ctx.set x p) (ρ.set x v) := by
  intro y
  rw [SEnv.set_get, Env.set_get]
  split
  · exact hv
  · exact h y

theorem IsPtr.obj? {st : St} {p : Int} {b : Buf} (h : IsPtr st.objs p b) :
    ∃ o, st.obj? p = some o ∧ o.buf = b ∧ o.rank = b.dims.length ∧ st.objs p.toNat = some o := by
  obtain ⟨a, o, rfl, h1, h2, h3⟩ := h
  refine ⟨o, ?_, h2, h3, ?_⟩
  · unfold St.obj?
    rw [if_neg (by omega), Int.toNat_natCast, h1]
  · rw [Int.toNat_natCast, h1]

theorem Obj.field_ofBuf {o : Obj} {b : Buf} (h1 : o.buf = b) (h2 : o.rank = b.dims.length) (f : Field) (d : Int) :
    o.field f d = (Obj.ofBuf b).field f d := by
  have : (Obj.ofBuf b).buf = b := by simp [Obj.ofBuf, Obj.buf]
  cases f <;> simp only [Obj.field, h1, this]
  · rw [h2]; rfl
  · rw [← h1]; rfl

/-! ## Expressions -/

theorem int?_some {v : Val} {i : Int} (h : v.int? = some i) : v = .int i := by
  cases v <;> simp [Val.int?] at h; rw [h]

theorem intArgs_rel {objs : Nat → Option Obj} : ∀ {vs : List (Option Val)} {ps xs : List (Option Int)}, intArgs vs = some xs →
    List.Forall₂ (fun p v => match p, v with
      | some p, some v => VRel objs p v
      | none, none => True
      | _, _ => False) ps vs → ps = xs
  | [], ps, xs, h, hr => by
    cases hr
    simp [intArgs] at h
    rw [h]
  | none :: vs, ps, xs, h, hr => by
    cases hr with
    | @cons p _ ps _ h1 h2 =>
      cases p with
      | some p => exact h1.elim
      | none =>
        simp only [intArgs, Option.map_eq_some_iff] at h
        obtain ⟨ys, h3, rfl⟩ := h
        rw [intArgs_rel h3 h2]
  | some (.int i) :: vs, ps, xs, h, hr => by
    cases hr with
    | @cons p _ ps _ h1 h2 =>
      cases p with
      | none => exact h1.elim
      | some p =>
        simp only [intArgs, Option.map_eq_some_iff] at h
        obtain ⟨ys, h3, rfl⟩ := h
        have : p = i := h1
        rw [intArgs_rel h3 h2, this]
  | some .undef :: vs, ps, xs, h, hr => by simp [intArgs] at h
  | some (.buf _) :: vs, ps, xs, h, hr => by simp [intArgs] at h

theorem callS_rel {w : World} {st : St} {fn : Fn} {vs : List (Option Val)} {ps : List (Option Int)} {i : Int} (h : callS w st.alog fn vs = some i)
    (hr : List.Forall₂ (fun p v => match p, v with
      | some p, some v => VRel st.objs p v
      | none, none => True
      | _, _ => False) ps vs) : (w.mem st).call fn ps = i := by
  have gen : ∀ fn, fn ≠ .bufferAt → fn ≠ .validateBuffer → (intArgs vs).map (fun xs => w.host fn xs st.alog) = some i →
      (w.mem st).call fn ps = i := by
    intro fn h1 h2 h
    simp only [Option.map_eq_some_iff] at h
    obtain ⟨xs, h3, h4⟩ := h
    have := intArgs_rel h3 hr
    subst this
    unfold World.mem
    simp only
    split
    · exact absurd rfl h1
    · exact absurd rfl h2
    · exact h4
  cases fn with
  | bufferAt =>
    cases hr with
    | nil => simp [callS] at h
    | @cons p v ps vs h1 h2 =>
      cases v with
      | none => simp [callS] at h
      | some v =>
        cases v with
        | undef => simp [callS] at h
        | int _ => simp [callS] at h
        | buf b =>
          cases p with
          | none => exact h1.elim
          | some p =>
            simp only [callS, Option.map_eq_some_iff] at h
            obtain ⟨xs, h3, rfl⟩ := h
            have := intArgs_rel h3 h2
            subst this
            obtain ⟨o, e1, e2, e3, _⟩ := IsPtr.obj? h1
            simp only [World.mem, e1, e2]
            rw [← e2]; rfl
  | validateBuffer =>
    cases hr with
    | nil => simp [callS] at h
    | @cons p v ps vs h1 h2 =>
      cases v with
      | none => simp [callS] at h
      | some v =>
        cases v with
        | undef => simp [callS] at h
        | int _ => simp [callS] at h
        | buf b =>
          cases p with
          | none => exact h1.elim
          | some p =>
            cases h2 with
            | cons _ _ => simp [callS] at h
            | nil =>
              simp only [callS, Option.some.injEq] at h
              obtain ⟨o, e1, e2, e3, _⟩ := IsPtr.obj? h1
              simp only [World.mem, e1, e2]
              exact h
  | _ => exact gen _ (by simp) (by simp) (by simpa only [callS] using h)

theorem bindable_buf {x : Nat} {e : Expr} {b : Buf} (h : bindable x e (.buf b) = true) : ∃ d, e = .var x .none d := by
  unfold bindable at h
  simp only at h
  split at h
  · rename_i y d
    exact ⟨d, by rw [of_decide_eq_true h]⟩
  · cases h

theorem evalM_abs {m : Mem} {ctx : Env} {e : Expr} {p y : Int} (h1 : evalM m ctx e = some (p, ctx)) (h2 : chk 64 (p.natAbs : Int) = some y) :
    evalM m ctx (.call .abs (.cons e .nil)) = some (y, ctx) := by
  have : evalM m ctx (.call .abs (.cons e .nil)) = (evalM m ctx e).bind fun q => (chk 64 (q.1.natAbs : Int)).bind fun v => some (v, q.2) := by
    simp only [evalM, Option.bind_eq_bind]
  rw [this, h1, Option.bind_some, h2, Option.bind_some]

mutual
theorem evalS_rel {w : World} {st : St} : ∀ {e : Expr} {ctx : Env} {ρ : SEnv} {v : Val}, e.WF → ERel st.objs ctx ρ → evalS w st.alog ρ e = some v →
    ∃ p, evalM (w.mem st) ctx e = some (p, ctx) ∧ VRel st.objs p v ∧ v ≠ .undef
  | .undef, ctx, ρ, v, _, _, h => by simp [evalS] at h
  | .var x f d, ctx, ρ, v, hw, hr, h => by
    cases f with
    | none =>
      simp only [evalS] at h
      split at h
      · cases h
      · rename_i hv
        simp only [Option.some.injEq] at h
        refine ⟨ctx x, by simp [evalM], ?_, ?_⟩
        · rw [← h]; exact hr x
        · rw [← h]; exact hv
    | _ =>
      simp only [evalS] at h
      split at h
      · rename_i b hb
        simp only [Option.some.injEq] at h
        have := hr x
        rw [hb] at this
        obtain ⟨o, e1, e2, e3, _⟩ := IsPtr.obj? this
        subst h
        exact ⟨_, by simp only [evalM, World.mem, e1, Obj.field_ofBuf e2 e3], (rfl : VRel st.objs _ (.int _)), by simp⟩
      · cases h
  | .const c, ctx, ρ, v, hw, hr, h => by
    simp only [evalS, Option.some.injEq] at h
    exact ⟨c, by simp [evalM], by rw [← h]; rfl, by rw [← h]; simp⟩
  | .lets bs b, ctx, ρ, v, hw, hr, h => by
    simp only [Expr.WF] at hw
    simp only [evalS, Option.bind_eq_some_iff] at h
    obtain ⟨ρ1, h1, h2⟩ := h
    obtain ⟨olds, ctx1, h3, h4⟩ := evalBindsS_rel hw.2.1 hr h1
    obtain ⟨p, h5, h6, h7⟩ := evalS_rel hw.2.2 h4 h2
    refine ⟨p, ?_, h6, h7⟩
    simp only [evalM, h3, h5, Option.bind_eq_bind, Option.bind_some]
    rw [(evalBindsM_restores _ _ _ hw.2.1 hw.1 _ _ h3).1]
  | .bin op a b, ctx, ρ, v, hw, hr, h => by
    simp only [Expr.WF] at hw
    simp only [evalS, Option.bind_eq_some_iff, Option.map_eq_some_iff] at h
    obtain ⟨x, ⟨va, h1, h2⟩, y, ⟨vb, h3, h4⟩, z, h5, rfl⟩ := h
    have := int?_some h2; subst this
    have := int?_some h4; subst this
    obtain ⟨p, e1, e2, _⟩ := evalS_rel hw.1 hr h1
    obtain ⟨q, f1, f2, _⟩ := evalS_rel hw.2 hr h3
    have e2 : p = x := e2
    have f2 : q = y := f2
    subst e2 f2
    exact ⟨z, by simp only [evalM, e1, f1, h5, Option.bind_eq_bind, Option.bind_some], rfl, by simp⟩
  | .not a, ctx, ρ, v, hw, hr, h => by
    simp only [Expr.WF] at hw
    simp only [evalS, Option.bind_eq_some_iff, Option.map_eq_some_iff] at h
    obtain ⟨x, ⟨va, h1, h2⟩, rfl⟩ := h
    have := int?_some h2; subst this
    obtain ⟨p, e1, e2, _⟩ := evalS_rel hw hr h1
    have e2 : p = x := e2
    subst e2
    exact ⟨_, by simp only [evalM, e1, Option.bind_eq_bind, Option.bind_some], rfl, by simp⟩
  | .select c t f, ctx, ρ, v, hw, hr, h => by
    simp only [Expr.WF] at hw
    simp only [evalS, Option.bind_eq_some_iff] at h
    obtain ⟨x, ⟨va, h1, h2⟩, h3⟩ := h
    have := int?_some h2; subst this
    obtain ⟨p, e1, e2, _⟩ := evalS_rel hw.1 hr h1
    have e2 : p = x := e2
    subst e2
    simp only [evalM, e1, Option.bind_eq_bind, Option.bind_some]
    split at h3
    · rename_i hx; rw [if_pos hx]; exact evalS_rel hw.2.1 hr h3
    · rename_i hx; rw [if_neg hx]; exact evalS_rel hw.2.2 hr h3
  | .call fn as, ctx, ρ, v, hw, hr, h => by
    simp only [Expr.WF] at hw
    cases fn with
    | andThen =>
      simp only [evalS, Option.map_eq_some_iff] at h
      obtain ⟨i, h1, rfl⟩ := h
      exact ⟨i, by simp only [evalM]; exact evalShortS_rel hw hr h1, rfl, by simp⟩
    | orElse =>
      simp only [evalS, Option.map_eq_some_iff] at h
      obtain ⟨i, h1, rfl⟩ := h
      exact ⟨i, by simp only [evalM]; exact evalShortS_rel hw hr h1, rfl, by simp⟩
    | abs =>
      cases as with
      | nil => simp [evalS] at h
      | cons e es =>
        cases es with
        | cons _ _ => simp [evalS] at h
        | nil =>
          simp only [Exprs.WF] at hw
          simp only [evalS, Option.bind_eq_some_iff, Option.map_eq_some_iff] at h
          obtain ⟨x, ⟨va, h1, h2⟩, y, h3, rfl⟩ := h
          have := int?_some h2; subst this
          obtain ⟨p, e1, e2, _⟩ := evalS_rel hw.1 hr h1
          have e2 : p = x := e2
          subst e2
          refine ⟨y, ?_, rfl, by simp⟩
          exact evalM_abs e1 h3
    | _ =>
      simp only [evalS] at h
      split at h
      · rename_i hh
        simp only [Option.bind_eq_some_iff, Option.map_eq_some_iff] at h
        obtain ⟨vs, h1, i, h2, j, h3, rfl⟩ := h
        obtain ⟨ps, e1, e2⟩ := evalArgsS_rel hw hr h1
        have e3 := callS_rel h2 e2
        refine ⟨j, ?_, rfl, by simp⟩
        simp only [evalM, hh, if_true, e1, Option.bind_eq_bind, Option.bind_some, e3, h3]
      · cases h
theorem evalShortS_rel {w : World} {st : St} {isAnd : Bool} : ∀ {es : Exprs} {ctx : Env} {ρ : SEnv} {i : Int}, es.WF → ERel st.objs ctx ρ →
    evalShortS w st.alog isAnd ρ es = some i → evalShortM (w.mem st) isAnd ctx es = some (i, ctx)
  | .nil, ctx, ρ, i, _, _, h => by simpa [evalShortS, evalShortM] using h
  | .cons e es, ctx, ρ, i, hw, hr, h => by
    simp only [Exprs.WF] at hw
    simp only [evalShortS, Option.bind_eq_some_iff] at h
    obtain ⟨x, ⟨va, h1, h2⟩, h3⟩ := h
    have := int?_some h2; subst this
    obtain ⟨p, e1, e2, _⟩ := evalS_rel hw.1 hr h1
    have e2 : p = x := e2
    subst e2
    simp only [evalShortM, e1, Option.bind_eq_bind, Option.bind_some]
    split at h3
    · rename_i hx; rw [if_pos hx]; simpa using h3
    · rename_i hx
      rw [if_neg hx]
      split at h3
      · rename_i hx; rw [if_pos hx]; simpa using h3
      · rename_i hx; rw [if_neg hx]; exact evalShortS_rel hw.2 hr h3
theorem evalArgsS_rel {w : World} {st : St} : ∀ {es : Exprs} {ctx : Env} {ρ : SEnv} {vs : List (Option Val)}, es.WF → ERel st.objs ctx ρ →
    evalArgsS w st.alog ρ es = some vs → ∃ ps, evalArgsM (w.mem st) ctx es = some (ps, ctx) ∧ List.Forall₂ (fun p v => match p, v with
      | some p, some v => VRel st.objs p v
      | none, none => True
      | _, _ => False) ps vs
  | .nil, ctx, ρ, vs, _, _, h => by
    simp only [evalArgsS, Option.some.injEq] at h
    subst h
    exact ⟨[], by simp [evalArgsM], .nil⟩
  | .cons e es, ctx, ρ, vs, hw, hr, h => by
    simp only [Exprs.WF] at hw
    simp only [evalArgsS] at h
    split at h
    · rename_i hd
      simp only [Option.bind_eq_some_iff, Option.map_eq_some_iff] at h
      obtain ⟨v, h1, vs, h2, rfl⟩ := h
      obtain ⟨p, e1, e2, _⟩ := evalS_rel hw.1 hr h1
      obtain ⟨ps, f1, f2⟩ := evalArgsS_rel hw.2 hr h2
      exact ⟨some p :: ps, by simp only [evalArgsM, hd, if_true, e1, f1, Option.bind_eq_bind, Option.bind_some], .cons e2 f2⟩
    · rename_i hd
      simp only [Option.map_eq_some_iff] at h
      obtain ⟨vs, h2, rfl⟩ := h
      obtain ⟨ps, f1, f2⟩ := evalArgsS_rel hw.2 hr h2
      exact ⟨none :: ps, by simp only [evalArgsM, hd, f1, Option.bind_eq_bind, Option.bind_some]; simp, .cons trivial f2⟩
theorem evalBindsS_rel {w : World} {st : St} : ∀ {bs : Binds} {ctx : Env} {ρ ρ' : SEnv}, bs.WF → ERel st.objs ctx ρ →
    evalBindsS w st.alog ρ bs = some ρ' → ∃ olds ctx', evalBindsM (w.mem st) ctx bs = some (olds, ctx') ∧ ERel st.objs ctx' ρ'
  | .nil, ctx, ρ, ρ', _, hr, h => by
    simp only [evalBindsS, Option.some.injEq] at h
    subst h
    exact ⟨[], ctx, by simp [evalBindsM], hr⟩
  | .cons x e bs, ctx, ρ, ρ', hw, hr, h => by
    simp only [Binds.WF] at hw
    simp only [evalBindsS, Option.bind_eq_some_iff] at h
    obtain ⟨v, h1, h2⟩ := h
    split at h2
    · obtain ⟨p, e1, e2, _⟩ := evalS_rel hw.1 hr h1
      obtain ⟨olds, ctx', f1, f2⟩ := evalBindsS_rel hw.2 (hr.set x e2) h2
      exact ⟨(x, ctx x) :: olds, ctx', by simp only [evalBindsM, e1, f1, Option.bind_eq_bind, Option.bind_some], f2⟩
    · cases h2
end

/-! ## States -/

/-- The state represents the environment. -/
structure StRel (st : St) (ρ : SEnv) : Prop where
  fresh : st.Fresh
  vals : ERel st.objs st.ctx ρ
  inj : ∀ x y b c, ρ x = .buf b → ρ y = .buf c → st.ctx x = st.ctx y → x = y

theorem StRel.congr {st st' : St} {ρ : SEnv} (h : StRel st ρ) (h1 : st'.objs = st.objs) (h2 : st.next ≤ st'.next)
    (h3 : ∀ x, ρ x ≠ .undef → st'.ctx x = st.ctx x) : StRel st' ρ := by
  refine ⟨?_, ?_, ?_⟩
  · intro a ha; rw [h1]; exact h.fresh a (by omega)
  · intro x
    by_cases hx : ρ x = .undef
    · rw [hx]; trivial
    · rw [h1, h3 x hx]; exact h.vals x
  · intro x y b c hx hy
    rw [h3 x (by rw [hx]; simp), h3 y (by rw [hy]; simp)]
    exact h.inj x y b c hx hy

theorem StRel.set {st : St} {ρ : SEnv} (h : StRel st ρ) (x : Nat) (v : Int) : StRel (st.set x v) (ρ.set x (.int v)) := by
  refine ⟨h.fresh, h.vals.set x rfl, ?_⟩
  intro y z b c hy hz
  rw [SEnv.set_get] at hy hz
  split at hy
  · cases hy
  · rename_i e1
    split at hz
    · cases hz
    · rename_i e2
      simp only [St.set, Env.set_get, if_neg e1, if_neg e2]
      exact h.inj y z b c hy hz

theorem IsPtr.lt {st : St} {p : Int} {b : Buf} (hf : st.Fresh) (h : IsPtr st.objs p b) : 0 ≤ p ∧ p < st.next := by
  obtain ⟨a, o, rfl, h1, _⟩ := h
  constructor
  · omega
  · by_contra hn
    rw [hf a (by omega)] at h1
    cases h1

theorem StRel.push {st : St} {ρ : SEnv} (h : StRel st ρ) (x : Nat) {o : Obj} {b : Buf} (h1 : o.buf = b) (h2 : o.rank = b.dims.length) :
    StRel (st.push x o) (ρ.set x (.buf b)) := by
  refine ⟨Fresh.push h.fresh x o, ?_, ?_⟩
  · intro y
    rw [SEnv.set_get]
    split
    · rename_i e
      subst e
      exact ⟨st.next, o, by simp [St.push, St.set, Env.set_get], by simp [St.push, St.set, St.setObj], h1, h2⟩
    · rename_i e
      have hy := h.vals y
      have e2 : (st.push x o).ctx y = st.ctx y := by simp [St.push, St.set, Env.set_get, e, St.setObj]
      rw [e2]
      cases hv : ρ y with
      | undef => trivial
      | int i => rw [hv] at hy; exact hy
      | buf c =>
        rw [hv] at hy
        have hlt := IsPtr.lt h.fresh hy
        obtain ⟨a, o', e3, e4, e5⟩ := hy
        refine ⟨a, o', e3, ?_, e5⟩
        have : a ≠ st.next := by omega
        simp [St.push, St.set, St.setObj, this, e4]
  · intro y z c d hy hz
    rw [SEnv.set_get] at hy hz
    have lt : ∀ y c, ρ y = .buf c → st.ctx y ≠ st.next := by
      intro y c hy
      have := h.vals y
      rw [hy] at this
      have := IsPtr.lt h.fresh this
      omega
    simp only [St.push, St.set, Env.set_get, St.setObj]
    split at hy
    · split at hz
      · rename_i e1 e2; intros; rw [e1, e2]
      · rename_i e1 e2
        rw [if_pos e1, if_neg e2]
        intro hh; exact absurd hh.symm (lt z d hz)
    · split at hz
      · rename_i e1 e2
        rw [if_neg e1, if_pos e2]
        intro hh; exact absurd hh (lt y c hy)
      · rename_i e1 e2
        rw [if_neg e1, if_neg e2]
        exact h.inj y z c d hy hz

/-- A buffer object is modified in place. -/
theorem StRel.inPlace {st : St} {ρ : SEnv} (h : StRel st ρ) {x : Nat} {b b1 : Buf} (hx : ρ x = .buf b) {o1 : Obj} (h1 : o1.buf = b1)
    (h2 : o1.rank = b1.dims.length) : StRel (st.setObj (st.ctx x).toNat (some o1)) (ρ.set x (.buf b1)) := by
  have hp := h.vals x
  rw [hx] at hp
  have hlt := IsPtr.lt h.fresh hp
  refine ⟨?_, ?_, ?_⟩
  · intro a ha
    simp only [St.setObj] at ha ⊢
    rw [if_neg (by omega)]
    exact h.fresh a ha
  · intro y
    rw [SEnv.set_get]
    split
    · rename_i e
      subst e
      exact ⟨(st.ctx y).toNat, o1, by simp [St.setObj]; omega, by simp [St.setObj], h1, h2⟩
    · rename_i e
      have hy := h.vals y
      simp only [St.setObj]
      cases hv : ρ y with
      | undef => trivial
      | int i => rw [hv] at hy; exact hy
      | buf c =>
        rw [hv] at hy
        obtain ⟨a, o', e3, e4, e5⟩ := hy
        refine ⟨a, o', e3, ?_, e5⟩
        have : a ≠ (st.ctx x).toNat := by
          intro hh
          exact e (h.inj y x c b hv hx (by omega))
        simp [this, e4]
  · intro y z c d hy hz
    rw [SEnv.set_get] at hy hz
    have key : ∀ y c, (if y = x then Val.buf b1 else ρ y) = .buf c → ∃ c', ρ y = .buf c' := by
      intro y c hy
      split at hy
      · rename_i e; exact ⟨b, e ▸ hx⟩
      · exact ⟨c, hy⟩
    obtain ⟨c', hy⟩ := key y c hy
    obtain ⟨d', hz⟩ := key z d hz
    exact h.inj y z c' d' hy hz

/-! ## Expressions in a state -/

section
variable {w : World} {g : Env} {st : St} {ρ : SEnv}

theorem StRel.evalS (h : StRel st ρ) {e : Expr} (hw : e.WF) {v : Val} (he : evalS w st.alog ρ e = some v) :
    ∃ p, (cfgOf w g).eval st e = some (p, st) ∧ VRel st.objs p v := by
  obtain ⟨p, h1, h2, _⟩ := evalS_rel hw h.vals he
  exact ⟨p, by simp only [Cfg.eval, cfgOf_mem, h1], h2⟩

theorem StRel.evalI (h : StRel st ρ) {e : Expr} (hw : e.WF) {i : Int} (he : evalI w st.alog ρ e = some i) :
    (cfgOf w g).eval st e = some (i, st) := by
  simp only [Slinky.evalI, Option.bind_eq_some_iff] at he
  obtain ⟨v, h1, h2⟩ := he
  have := int?_some h2
  subst this
  obtain ⟨p, h3, h4⟩ := h.evalS (g := g) hw h1
  have : p = i := h4
  rw [h3, this]

theorem StRel.evalDef (h : StRel st ρ) {e : Expr} (hw : e.WF) {i d : Int} (he : evalDefS w st.alog ρ e d = some i) :
    (cfgOf w g).evalDef st e d = some (i, st) := by
  unfold evalDefS at he
  unfold Cfg.evalDef
  split at he
  · rename_i hd; rw [if_pos hd]; exact h.evalI hw he
  · rename_i hd; rw [if_neg hd]; simpa using he

theorem StRel.evalIv (h : StRel st ρ) {i : Interval} (hw : i.EndsWF) {v : Int × Int} (he : evalIvS w st.alog ρ i = some v) :
    (cfgOf w g).evalIv st i = some (v, st) := by
  simp only [evalIvS, Option.bind_eq_bind, Option.bind_eq_some_iff] at he
  obtain ⟨a, h1, h2⟩ := he
  simp only [Cfg.evalIv, h.evalI (g := g) hw.1 h1, Option.bind_eq_bind, Option.bind_some]
  split at h2
  · rename_i hp; rw [if_pos hp]; simpa using h2
  · rename_i hp
    rw [if_neg hp]
    simp only [Option.bind_eq_some_iff] at h2
    obtain ⟨b, h3, h4⟩ := h2
    simp only [h.evalI (g := g) hw.2 h3, Option.bind_some]
    simpa using h4

theorem StRel.evalIvDef (h : StRel st ρ) {i : Interval} (hw : i.EndsWF) {v : Int × Int} {a b : Int} (he : evalIvDefS w st.alog ρ i a b = some v) :
    (cfgOf w g).evalIvDef st i a b = some (v, st) := by
  unfold evalIvDefS at he
  unfold Cfg.evalIvDef
  split at he
  · rename_i hp
    rw [if_pos hp]
    simp only [Option.bind_eq_bind, Option.bind_eq_some_iff] at he
    obtain ⟨a, h1, h2⟩ := he
    simp only [h.evalI (g := g) hw.1 h1, Option.bind_eq_bind, Option.bind_some]
    simpa using h2
  · rename_i hp
    rw [if_neg hp]
    simp only [Option.bind_eq_bind, Option.bind_eq_some_iff] at he
    obtain ⟨a, h1, b, h2, h3⟩ := he
    simp only [h.evalDef (g := g) hw.1 h1, h.evalDef (g := g) hw.2 h2, Option.bind_eq_bind, Option.bind_some]
    simpa using h3

theorem StRel.evalDims (h : StRel st ρ) {ds : Option Int} : ∀ {l : List DimE} {r : List Dim}, (∀ d ∈ l, d.WF) →
    evalDimsS w st.alog ρ ds l = some r → (cfgOf w g).evalDims ds st l = some (r, st)
  | [], r, _, he => by
    simp only [evalDimsS, Option.some.injEq] at he
    subst he; rfl
  | d :: l, r, hw, he => by
    have hd := hw d (by simp)
    cases ds with
    | none =>
      simp only [evalDimsS, Option.bind_eq_bind, Option.bind_eq_some_iff] at he
      obtain ⟨r1, h1, b, h2, s, h3, f, h4, h5⟩ := he
      have e1 := StRel.evalDims h (fun x hx => hw x (by simp [hx])) h1
      have e2 := h.evalIv (g := g) hd.1 h2
      have e4 := h.evalDef (g := g) hd.2.2 h4
      have e3 := h.evalI (g := g) hd.2.1 h3
      simp only [Cfg.evalDims, e1, e2, e3, e4, Option.bind_eq_bind, Option.bind_some]
      simpa using h5
    | some x =>
      simp only [evalDimsS, Option.bind_eq_bind, Option.bind_eq_some_iff] at he
      obtain ⟨r1, h1, b, h2, s, h3, f, h4, h5⟩ := he
      have e1 := StRel.evalDims h (fun x hx => hw x (by simp [hx])) h1
      have e2 := h.evalIv (g := g) hd.1 h2
      have e4 := h.evalDef (g := g) hd.2.2 h4
      have e3 := h.evalDef (g := g) hd.2.1 h3
      simp only [Cfg.evalDims, e1, e2, e3, e4, Option.bind_eq_bind, Option.bind_some]
      simpa using h5

theorem StRel.cropCopy (h : StRel st ρ) : ∀ {l : List Interval} {d : Nat} {b b' : Buf}, (∀ i ∈ l, i.EndsWF) →
    cropS w st.alog ρ d l b = some b' → (cfgOf w g).cropCopy d l b st = some (b', st)
  | [], d, b, b', _, he => by
    simp only [cropS, Option.some.injEq] at he
    subst he; rfl
  | i :: l, d, b, b', hw, he => by
    simp only [cropS] at he
    simp only [Cfg.cropCopy]
    split at he
    · rename_i hd
      rw [if_pos hd]
      simp only [Option.bind_eq_bind, Option.bind_eq_some_iff] at he
      obtain ⟨x, h1, h2⟩ := he
      simp only [h.evalIvDef (g := g) (hw i (by simp)) h1, Option.bind_eq_bind, Option.bind_some]
      exact StRel.cropCopy h (fun x hx => hw x (by simp [hx])) h2
    · rename_i hd
      rw [if_neg hd]
      simpa using he

theorem StRel.sliceAll (h : StRel st ρ) : ∀ {ds : List Dim} {es : List Expr} {p : Option Int} {r : Option Int × List Dim}, (∀ e ∈ es, e.WF) →
    sliceS w st.alog ρ es ds p = some r → (cfgOf w g).sliceAll es ds p st = some (r, st)
  | [], es, p, r, _, he => by
    cases es <;> (simp only [sliceS, Option.some.injEq] at he; subst he; simp [Cfg.sliceAll])
  | d :: ds, [], p, r, hw, he => by
    simp only [sliceS, Option.map_eq_some_iff] at he
    obtain ⟨r1, h1, rfl⟩ := he
    simp only [Cfg.sliceAll, StRel.sliceAll h hw h1, Option.bind_eq_bind, Option.bind_some]
  | d :: ds, e :: es, p, r, hw, he => by
    have hw2 : ∀ x ∈ es, x.WF := fun x hx => hw x (by simp [hx])
    unfold sliceS at he
    unfold Cfg.sliceAll
    split at he
    · rename_i hd
      rw [if_pos hd]
      cases p with
      | none => exact StRel.sliceAll h hw2 he
      | some q =>
        simp only [Option.bind_eq_bind, Option.bind_eq_some_iff] at he
        obtain ⟨x, h1, h2⟩ := he
        simp only [h.evalI (g := g) (hw e (by simp)) h1, Option.bind_eq_bind, Option.bind_some]
        exact StRel.sliceAll h hw2 h2
    · rename_i hd
      rw [if_neg hd]
      simp only [Option.map_eq_some_iff] at he
      obtain ⟨r1, h1, rfl⟩ := he
      simp only [StRel.sliceAll h hw2 h1, Option.bind_eq_bind, Option.bind_some]

theorem StRel.evalBinds : ∀ {bs : Binds} {st : St} {ρ ρ' : SEnv}, StRel st ρ → bs.WF → evalBindsS w st.alog ρ bs = some ρ' →
    ∃ olds ctx', (cfgOf w g).evalBinds st bs = some (olds, { st with ctx := ctx' }) ∧ StRel { st with ctx := ctx' } ρ'
  | .nil, st, ρ, ρ', h, _, he => by
    simp only [evalBindsS, Option.some.injEq] at he
    subst he
    exact ⟨[], st.ctx, rfl, h⟩
  | .cons x e bs, st, ρ, ρ', h, hw, he => by
    simp only [Binds.WF] at hw
    simp only [evalBindsS, Option.bind_eq_some_iff] at he
    obtain ⟨v, h1, h2⟩ := he
    split at h2
    · rename_i hb
      obtain ⟨p, e1, e2⟩ := h.evalS (g := g) hw.1 h1
      have hr : StRel (st.set x p) (ρ.set x v) := by
        cases v with
        | undef => cases hb
        | int i =>
          have : p = i := e2
          subst this
          exact h.set x p
        | buf b =>
          obtain ⟨d, rfl⟩ := bindable_buf hb
          simp only [Slinky.evalS] at h1
          have hx : ρ x = .buf b := by
            cases hv : ρ x <;> rw [hv] at h1 <;> simp at h1 <;> simp [h1]
          have hp : p = st.ctx x := by
            simp [Cfg.eval, evalM] at e1
            exact e1.symm
          have s1 : ρ.set x (.buf b) = ρ := by
            funext y; rw [SEnv.set_get]; split
            · rename_i e; rw [e, hx]
            · rfl
          have s2 : st.set x p = st := by
            rw [hp]; simp only [St.set, Env.set_self]
          rw [s1, s2]
          exact h
      obtain ⟨olds, ctx', f1, f2⟩ := StRel.evalBinds hr hw.2 h2
      exact ⟨(x, st.ctx x) :: olds, ctx', by simp only [Cfg.evalBinds, e1, f1, Option.bind_eq_bind, Option.bind_some]; rfl, f2⟩
    · cases h2

/-- The crop in place. -/
theorem StRel.cropAll {x : Nat} {ρ0 : SEnv} : ∀ {l : List Interval} {d : Nat} {st : St} {b b' : Buf} {o : Obj}, StRel st (ρ0.set x (.buf b)) →
    (∀ i ∈ l, i.EndsWF) → st.objs (st.ctx x).toNat = some o → o.buf = b → o.rank = b.dims.length →
    cropSeqS w st.alog ρ0 x d l b = some b' →
    ∃ o1, (cfgOf w g).cropAll (st.ctx x).toNat d l st = some (st.setObj (st.ctx x).toNat (some o1)) ∧ o1.buf = b' ∧ o1.rank = b'.dims.length
  | [], d, st, b, b', o, h, _, ho, h1, h2, he => by
    simp only [cropSeqS, Option.some.injEq] at he
    subst he
    exact ⟨o, by rw [St.setObj_same ho]; rfl, h1, h2⟩
  | i :: l, d, st, b, b', o, h, hw, ho, h1, h2, he => by
    simp only [cropSeqS] at he
    simp only [Cfg.cropAll, ho, h1]
    have hr : b.rank = o.rank := h2.symm
    rw [hr] at he
    split at he
    · rename_i hd
      rw [if_pos hd]
      simp only [Option.bind_eq_bind, Option.bind_eq_some_iff] at he
      obtain ⟨v, h3, h4⟩ := he
      simp only [h.evalIvDef (g := g) (hw i (by simp)) h3, Option.bind_eq_bind, Option.bind_some]
      have hlen : (b.crop d v.1 v.2).dims.length = b.dims.length := by
        unfold Buf.crop; split
        · rfl
        · simp
      have g1 : (o.setBuf (b.crop d v.1 v.2)).buf = b.crop d v.1 v.2 := by
        simp only [Obj.setBuf, Obj.buf]
        rw [List.take_append_of_le_length (by omega), List.take_of_length_le (by omega)]
      have g2 : (o.setBuf (b.crop d v.1 v.2)).rank = (b.crop d v.1 v.2).dims.length := by
        rw [hlen, ← h2]; rfl
      have hx : (ρ0.set x (.buf b)) x = .buf b := by rw [SEnv.set_get, if_pos rfl]
      have hR := h.inPlace hx g1 g2
      have s1 : (ρ0.set x (.buf b)).set x (.buf (b.crop d v.1 v.2)) = ρ0.set x (.buf (b.crop d v.1 v.2)) := by
        funext y; simp only [SEnv.set_get]; split <;> rfl
      rw [s1] at hR
      obtain ⟨o1, e1, e2, e3⟩ := StRel.cropAll (d := d + 1) (b' := b') hR (fun x hx => hw x (by simp [hx])) (St.setObj_get _ _ _) g1 g2 h4
      refine ⟨o1, ?_, e2, e3⟩
      have s2 : (st.setObj (st.ctx x).toNat (some (o.setBuf (b.crop d v.1 v.2)))).ctx = st.ctx := rfl
      rw [s2, St.setObj_setObj] at e1
      exact e1
    · rename_i hd
      rw [if_neg hd]
      simp only [Option.some.injEq] at he
      subst he
      exact ⟨o, by rw [St.setObj_same ho], h1, h2⟩

end

end Slinky
