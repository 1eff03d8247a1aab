import Verif.SemExec

/-!
# The mathematical value of an expression that has a value in the specification of statements

`evalS` (`Sem.lean`) has the 64-bit arithmetic of the evaluator, and no value if something overflows or is not in scope. If it has a value, that is
the mathematical value (`eval`, `Expr.lean`), whatever the values of the symbols that are not in scope.
-/

namespace Slinky

/-- The metadata of the buffers of an environment; the address of the buffer of a symbol is the number of the symbol. `host` is the result of the
functions of the world. -/
def memS (host : Fn → List (Option Int) → Int) (σ : SEnv) : Mem where
  field p f d := match σ p.toNat with
    | .buf b => (Obj.ofBuf b).field f d
    | _ => 0
  call fn xs := match fn, xs with
    | .bufferAt, some p :: xs => match σ p.toNat with
      | .buf b => (bufferAt b.base b.dims xs).getD 0
      | _ => 0
    | .validateBuffer, [some p] => match σ p.toNat with
      | .buf b => if b.validate then 1 else 0
      | _ => 0
    | fn, xs => host fn xs
  undef := 0

/-- The metadata of a buffer are 64-bit integers. -/
def Buf.InRange64 (b : Buf) : Prop := ∀ f d, InRange 64 ((Obj.ofBuf b).field f d)

/-- The values of the symbols: a number is itself, a buffer is the number of the symbol. Nothing is known about a symbol that is not in scope. -/
def EnvRel (σ ρ : SEnv) (env : Env) : Prop := ∀ x,
  match ρ x with
  | .undef => True
  | .int v => env x = v ∧ InRange 64 v
  | .buf b => env x = (x : Int) ∧ σ x = .buf b ∧ b.InRange64

/-- A value and the number that represents it. -/
def ValRel (σ : SEnv) : Val → Int → Prop
  | .undef, _ => False
  | .int v, i => i = v ∧ InRange 64 v
  | .buf b, i => ∃ x : Nat, i = (x : Int) ∧ σ x = .buf b ∧ b.InRange64

theorem EnvRel.set {σ ρ : SEnv} {env : Env} (h : EnvRel σ ρ env) {x : Nat} {v : Val} {i : Int}
    (hv : match v with | .undef => True | .int v => i = v ∧ InRange 64 v | .buf b => i = (x : Int) ∧ σ x = .buf b ∧ b.InRange64) :
    EnvRel σ (ρ.set x v) (env.set x i) := by
  intro y
  by_cases hy : y = x
  · subst hy; simpa [SEnv.set, Env.set] using hv
  · simpa [SEnv.set, Env.set, hy] using h y

theorem denote_of_machine {op : BinOp} {a b c : Int} (ha : InRange 64 a) (hb : InRange 64 b) (h : op.machine a b = some c) :
    op.denote a b = c ∧ InRange 64 c := by
  classical
  rw [machine_eq op a b ha hb] at h
  split at h
  · next hs =>
    cases h
    exact ⟨rfl, hs.1⟩
  · cases h

theorem chk64_eq {x y : Int} (h : chk 64 x = some y) : x = y ∧ InRange 64 y := by
  unfold chk at h
  split at h
  · cases h; exact ⟨rfl, by assumption⟩
  · cases h

/-- An argument and the number that represents it. -/
def ArgRel (σ : SEnv) : Option Val → Option Int → Prop
  | none, none => True
  | some v, some i => ValRel σ v i
  | _, _ => False

theorem intArgs_eq {σ : SEnv} : ∀ {vs : List (Option Val)} {xs ys : List (Option Int)}, List.Forall₂ (ArgRel σ) vs ys → intArgs vs = some xs → ys = xs
  | [], xs, ys, h, hi => by cases h; simp [intArgs] at hi; simp [hi]
  | none :: vs, xs, _, .cons (b := b) h h', hi => by
    simp only [intArgs, Option.map_eq_some_iff] at hi
    obtain ⟨xs', hi, rfl⟩ := hi
    cases b with
    | none => rw [intArgs_eq h' hi]
    | some b => exact h.elim
  | some (.int i) :: vs, xs, _, .cons (b := b) h h', hi => by
    simp only [intArgs, Option.map_eq_some_iff] at hi
    obtain ⟨xs', hi, rfl⟩ := hi
    cases b with
    | none => exact h.elim
    | some b => rw [intArgs_eq h' hi, h.1]
  | some .undef :: vs, xs, _, _, hi => by simp [intArgs] at hi
  | some (.buf _) :: vs, xs, _, _, hi => by simp [intArgs] at hi

section
variable {w : World} {l : List Ev} {host : Fn → List (Option Int) → Int} {σ : SEnv}

theorem callS_eq (hh : ∀ fn xs, w.host fn xs l = host fn xs) {fn : Fn} {vs : List (Option Val)} {ys : List (Option Int)} {i : Int}
    (hr : List.Forall₂ (ArgRel σ) vs ys) (h : callS w l fn vs = some i) : (memS host σ).call fn ys = i := by
  unfold callS at h
  split at h
  · next b vs =>
    cases hr with
    | cons hb hr =>
      rename_i y ys
      simp only [Option.map_eq_some_iff] at h
      obtain ⟨xs, h1, rfl⟩ := h
      rw [intArgs_eq hr h1]
      cases y with
      | none => exact hb.elim
      | some y =>
        obtain ⟨x, rfl, hx, -⟩ := hb
        simp [memS, hx]
  · cases h
  · next b =>
    cases hr with
    | cons hb hr =>
      rename_i y ys
      cases hr
      cases y with
      | none => exact hb.elim
      | some y =>
        obtain ⟨x, rfl, hx, -⟩ := hb
        simp only [Option.some.injEq] at h
        simp [memS, hx, h]
  · cases h
  · next h1 h2 h3 h4 =>
    simp only [Option.map_eq_some_iff] at h
    obtain ⟨xs, h5, rfl⟩ := h
    rw [intArgs_eq hr h5, hh]
    cases fn <;> first | rfl | exact absurd rfl h1 | exact absurd rfl h2 | exact absurd rfl h3 | (exfalso; simp_all)

mutual
/-- The value of an expression is its mathematical value. -/
theorem evalS_eval (hh : ∀ fn xs, w.host fn xs l = host fn xs) : ∀ (e : Expr) (ρ : SEnv) (env : Env) (v : Val), e.WF → EnvRel σ ρ env →
    evalS w l ρ e = some v → ValRel σ v (eval (memS host σ) env e)
  | .undef, ρ, env, v, _, _, h => by simp [evalS] at h
  | .var x f d, ρ, env, v, _, hr, h => by
    have hx := hr x
    cases f with
    | none =>
      simp only [evalS] at h
      simp only [eval]
      cases hv : ρ x with
      | undef => simp [hv] at h
      | int i => simp only [hv, Option.some.injEq] at h hx; subst h; exact hx
      | buf b => simp only [hv, Option.some.injEq] at h hx; subst h; exact ⟨x, hx⟩
    | _ =>
      simp only [evalS] at h
      simp only [eval]
      cases hv : ρ x with
      | undef => simp [hv] at h
      | int i => simp [hv] at h
      | buf b =>
        simp only [hv, Option.some.injEq] at h hx
        subst h
        refine ⟨?_, hx.2.2 _ _⟩
        simp [memS, hx.1, hx.2.1]
  | .const c, ρ, env, v, hw, hr, h => by
    simp only [evalS, Option.some.injEq] at h
    subst h
    exact ⟨by simp [eval], hw⟩
  | .lets bs b, ρ, env, v, hw, hr, h => by
    simp only [Expr.WF] at hw
    simp only [evalS, Option.bind_eq_some_iff] at h
    obtain ⟨ρ1, h1, h2⟩ := h
    simp only [eval]
    exact evalS_eval hh b ρ1 _ v hw.2.2 (evalBindsS_eval hh bs ρ env ρ1 hw.2.1 hr h1) h2
  | .bin op a b, ρ, env, v, hw, hr, h => by
    simp only [Expr.WF] at hw
    simp only [evalS, Option.bind_eq_some_iff, Option.map_eq_some_iff] at h
    obtain ⟨x, ⟨va, h1, h2⟩, y, ⟨vb, h3, h4⟩, z, h5, rfl⟩ := h
    have := int?_some h2; subst this
    have := int?_some h4; subst this
    obtain ⟨e1, e2⟩ := evalS_eval hh a ρ env _ hw.1 hr h1
    obtain ⟨f1, f2⟩ := evalS_eval hh b ρ env _ hw.2 hr h3
    simp only [eval, e1, f1]
    exact denote_of_machine e2 f2 h5
  | .not a, ρ, env, v, hw, hr, h => by
    simp only [Expr.WF] at hw
    simp only [evalS, Option.bind_eq_some_iff, Option.map_eq_some_iff] at h
    obtain ⟨x, ⟨va, h1, h2⟩, rfl⟩ := h
    have := int?_some h2; subst this
    obtain ⟨e1, e2⟩ := evalS_eval hh a ρ env _ hw hr h1
    simp only [eval, e1]
    exact ⟨rfl, inRange_01 (by split <;> simp)⟩
  | .select c t f, ρ, env, v, hw, hr, h => by
    simp only [Expr.WF] at hw
    simp only [evalS, Option.bind_eq_some_iff] at h
    obtain ⟨x, ⟨va, h1, h2⟩, h3⟩ := h
    have := int?_some h2; subst this
    obtain ⟨e1, -⟩ := evalS_eval hh c ρ env _ hw.1 hr h1
    simp only [eval, e1]
    split at h3
    · next hx => rw [if_pos hx]; exact evalS_eval hh t ρ env v hw.2.1 hr h3
    · next hx => rw [if_neg hx]; exact evalS_eval hh f ρ env v hw.2.2 hr h3
  | .call fn as, ρ, env, v, hw, hr, h => by
    simp only [Expr.WF] at hw
    cases fn with
    | andThen =>
      simp only [evalS, Option.map_eq_some_iff] at h
      obtain ⟨i, h1, rfl⟩ := h
      simp only [eval]
      have := evalShortS_eval hh as true ρ env i hw hr h1
      refine ⟨by simpa [Fn.denote] using this.symm, ?_⟩
      rw [this]; exact inRange_01 (by unfold b2i; simp only [if_true]; split <;> simp)
    | orElse =>
      simp only [evalS, Option.map_eq_some_iff] at h
      obtain ⟨i, h1, rfl⟩ := h
      simp only [eval]
      have := evalShortS_eval hh as false ρ env i hw hr h1
      refine ⟨by simpa [Fn.denote] using this.symm, ?_⟩
      rw [this]; exact inRange_01 (by unfold b2i; simp only [Bool.false_eq_true, if_false]; split <;> simp)
    | abs =>
      cases as with
      | nil => simp [evalS] at h
      | cons e es =>
        cases es with
        | cons _ _ => simp [evalS] at h
        | nil =>
          simp only [Exprs.WF] at hw
          simp only [evalS, Option.bind_eq_some_iff, Option.map_eq_some_iff] at h
          obtain ⟨x, ⟨va, h1, h2⟩, y, h3, rfl⟩ := h
          have := int?_some h2; subst this
          obtain ⟨e1, -⟩ := evalS_eval hh e ρ env _ hw.1 hr h1
          have hd : e.defined = true := by cases e <;> first | rfl | simp [evalS] at h1
          simp only [eval, evalArgs, hd, if_true, e1, Fn.denote]
          exact chk64_eq h3
    | _ =>
      simp only [evalS] at h
      split at h
      · simp only [Option.bind_eq_some_iff, Option.map_eq_some_iff] at h
        obtain ⟨vs, h1, i, h2, j, h3, rfl⟩ := h
        have e3 := callS_eq hh (evalArgsS_eval hh as ρ env vs hw hr h1) h2
        obtain ⟨rfl, h5⟩ := chk64_eq h3
        refine ⟨?_, h5⟩
        simp only [eval, Fn.denote]
        exact e3
      · cases h
theorem evalShortS_eval (hh : ∀ fn xs, w.host fn xs l = host fn xs) : ∀ (es : Exprs) (isAnd : Bool) (ρ : SEnv) (env : Env) (i : Int), es.WF → EnvRel σ ρ env →
    evalShortS w l isAnd ρ es = some i →
    i = if isAnd then b2i (∀ x ∈ evalArgs (memS host σ) env es, x.getD (memS host σ).undef ≠ 0) else b2i (∃ x ∈ evalArgs (memS host σ) env es, x.getD (memS host σ).undef ≠ 0)
  | .nil, isAnd, ρ, env, i, _, _, h => by
    simp only [evalShortS, Option.some.injEq] at h
    subst h
    cases isAnd <;> simp [evalArgs, b2i]
  | .cons e es, isAnd, ρ, env, i, hw, hr, h => by
    simp only [Exprs.WF] at hw
    simp only [evalShortS, Option.bind_eq_some_iff] at h
    obtain ⟨x, ⟨va, h1, h2⟩, h3⟩ := h
    have := int?_some h2; subst this
    obtain ⟨e1, -⟩ := evalS_eval hh e ρ env _ hw.1 hr h1
    have hd : e.defined = true := by cases e <;> first | rfl | simp [evalS] at h1
    simp only [evalArgs, hd, if_true, e1, List.mem_cons, forall_eq_or_imp, exists_eq_or_imp, Option.getD_some]
    cases isAnd with
    | true =>
      by_cases hx : x = 0
      · simp [hx] at h3; simp [hx, b2i, ← h3]
      · simp [hx] at h3
        have := evalShortS_eval hh es true ρ env i hw.2 hr h3
        simpa [hx] using this
    | false =>
      by_cases hx : x = 0
      · simp [hx] at h3
        have := evalShortS_eval hh es false ρ env i hw.2 hr h3
        simpa [hx] using this
      · simp [hx] at h3; simp [hx, b2i, ← h3]
theorem evalArgsS_eval (hh : ∀ fn xs, w.host fn xs l = host fn xs) : ∀ (es : Exprs) (ρ : SEnv) (env : Env) (vs : List (Option Val)), es.WF → EnvRel σ ρ env →
    evalArgsS w l ρ es = some vs → List.Forall₂ (ArgRel σ) vs (evalArgs (memS host σ) env es)
  | .nil, ρ, env, vs, _, _, h => by simp only [evalArgsS, Option.some.injEq] at h; subst h; simp [evalArgs]
  | .cons e es, ρ, env, vs, hw, hr, h => by
    simp only [Exprs.WF] at hw
    simp only [evalArgsS] at h
    simp only [evalArgs]
    split at h
    · next hd =>
      simp only [Option.bind_eq_some_iff, Option.map_eq_some_iff] at h
      obtain ⟨v, h1, vs', h2, rfl⟩ := h
      rw [if_pos hd]
      exact .cons (evalS_eval hh e ρ env v hw.1 hr h1) (evalArgsS_eval hh es ρ env vs' hw.2 hr h2)
    · next hd =>
      simp only [Option.map_eq_some_iff] at h
      obtain ⟨vs', h2, rfl⟩ := h
      rw [if_neg hd]
      exact .cons trivial (evalArgsS_eval hh es ρ env vs' hw.2 hr h2)
theorem evalBindsS_eval (hh : ∀ fn xs, w.host fn xs l = host fn xs) : ∀ (bs : Binds) (ρ : SEnv) (env : Env) (ρ1 : SEnv), bs.WF → EnvRel σ ρ env →
    evalBindsS w l ρ bs = some ρ1 → EnvRel σ ρ1 (evalBinds (memS host σ) env bs)
  | .nil, ρ, env, ρ1, _, hr, h => by simp only [evalBindsS, Option.some.injEq] at h; subst h; simpa [evalBinds] using hr
  | .cons x e bs, ρ, env, ρ1, hw, hr, h => by
    simp only [Binds.WF] at hw
    simp only [evalBindsS, Option.bind_eq_some_iff] at h
    obtain ⟨v, h1, h2⟩ := h
    split at h2
    · next hb =>
      simp only [evalBinds]
      refine evalBindsS_eval hh bs _ _ ρ1 hw.2 (hr.set ?_) h2
      have hv := evalS_eval hh e ρ env v hw.1 hr h1
      cases v with
      | undef => trivial
      | int i => exact hv
      | buf b =>
        simp only [bindable] at hb
        split at hb
        · next y d =>
          have hy : y = x := by simpa using hb
          subst hy
          have := hr y
          simp only [evalS] at h1
          split at h1
          · cases h1
          · simp only [Option.some.injEq] at h1
            rw [h1] at this
            simpa [eval] using this
        · simp at hb
    · cases h2
end

theorem evalI_eval (hh : ∀ fn xs, w.host fn xs l = host fn xs) {e : Expr} {ρ : SEnv} {env : Env} {i : Int} (hw : e.WF) (hr : EnvRel σ ρ env)
    (h : evalI w l ρ e = some i) : eval (memS host σ) env e = i ∧ InRange 64 i := by
  simp only [evalI, Option.bind_eq_some_iff] at h
  obtain ⟨v, h1, h2⟩ := h
  have := int?_some h2; subst this
  exact evalS_eval hh e ρ env _ hw hr h1

end

end Slinky
