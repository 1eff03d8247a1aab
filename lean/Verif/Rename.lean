import Verif.SemStmt
import Verif.Subst

/-!
# Statements that are the same up to the names of symbols

Several passes of the compiler rename symbols: `deshadow`, `optimize_symbols`, `substitute`. This file is a relation between two statements that
differ only by the names of the symbols (and by details that the mutators of the code introduce), and the proof that the two statements have the
same meaning (`Sem.lean`). The relation is a means of proof: what is proved about the passes does not mention it.
-/

namespace Slinky

/-- What is known about the symbols at one place of the two statements. -/
structure Scope where
  /-- the symbols that the first statement may use -/
  D : Nat → Prop
  /-- their names in the second statement -/
  σ : Nat → Nat
  /-- symbols that are not in scope in the second statement -/
  U : Nat → Prop
  /-- symbols that are in scope in the second statement -/
  V : Nat → Prop

/-- The function with another value for one argument. -/
def upd (σ : Nat → Nat) (x x' : Nat) : Nat → Nat := fun y => if y = x then x' else σ y

/-- The scope of the declarations of `x` in the first statement and of `x'` in the second. -/
structure Scope.Decl (sc sc' : Scope) (x x' : Nat) : Prop where
  σ : sc'.σ = upd sc.σ x x'
  D : ∀ y, sc'.D y → y = x ∨ (sc.D y ∧ sc.σ y ≠ x')
  U : ∀ y, sc'.U y → y ≠ x' ∧ sc.U y
  V : ∀ y, sc'.V y → y = x' ∨ sc.V y

/-- The environments of the two statements. -/
structure Scope.Inv (sc : Scope) (ρ ρ' : SEnv) : Prop where
  D : ∀ y, sc.D y → ρ' (sc.σ y) = ρ y
  U : ∀ y, sc.U y → ρ' y = .undef
  V : ∀ y, sc.V y → ρ' y ≠ .undef

theorem Scope.Inv.decl {sc sc' : Scope} {ρ ρ' : SEnv} (h : sc.Inv ρ ρ') {x x' : Nat} (hd : sc.Decl sc' x x') {v : Val} (hv : v ≠ .undef) :
    sc'.Inv (ρ.set x v) (ρ'.set x' v) := by
  refine ⟨fun y hy => ?_, fun y hy => ?_, fun y hy => ?_⟩
  · rw [hd.σ, SEnv.set_get, SEnv.set_get]
    unfold upd
    by_cases e : y = x
    · simp [e]
    · obtain ⟨h1, h2⟩ := (hd.D y hy).resolve_left e
      simp [e, h2, h.D y h1]
  · obtain ⟨h1, h2⟩ := hd.U y hy
    rw [SEnv.set_get, if_neg h1, h.U y h2]
  · rw [SEnv.set_get]
    split
    · exact hv
    · rename_i h1
      exact h.V y ((hd.V y hy).resolve_left h1)

mutual
/-- Two expressions that are the same up to names. -/
def RenE : Scope → Expr → Expr → Prop
  | _, .undef, e' => e' = .undef
  | sc, .var x f d, e' => sc.D x ∧ e' = .var (sc.σ x) f d
  | _, .const c, e' => e' = .const c
  | sc, .lets bs b, e' => ∃ bs' b' sc', RenB sc bs bs' sc' ∧ RenE sc' b b' ∧ e' = .lets bs' b'
  | sc, .bin op a b, e' => ∃ a' b', RenE sc a a' ∧ RenE sc b b' ∧ (e' = .bin op a' b' ∨ (op.comm = true ∧ e' = .bin op b' a'))
  | sc, .not a, e' => ∃ a', RenE sc a a' ∧ e' = .not a'
  | sc, .select c t f, e' => ∃ c' t' f', RenE sc c c' ∧ RenE sc t t' ∧ RenE sc f f' ∧ e' = .select c' t' f'
  | sc, .call fn as, e' => ∃ as', RenA sc as as' ∧
      (e' = .call fn as' ∨ (fn = .bufferAt ∧ ∃ z d es, as' = .cons (.var z .none d) es ∧ e' = .call fn (.cons (.var z .none d) (popUndef es))))
/-- See `RenE`. -/
def RenA : Scope → Exprs → Exprs → Prop
  | _, .nil, es' => es' = .nil
  | sc, .cons e es, es' => ∃ e' es1, RenE sc e e' ∧ RenA sc es es1 ∧ es' = .cons e' es1
/-- See `RenE`. -/
def RenB : Scope → Binds → Binds → Scope → Prop
  | sc, .nil, bs', sc' => bs' = .nil ∧ sc' = sc
  | sc, .cons x e bs, bs', sc' => ∃ x' e' bs1 sc1, RenE sc e e' ∧ (∀ d, e = .var x .none d → sc.σ x = x') ∧ sc.Decl sc1 x x' ∧ RenB sc1 bs bs1 sc' ∧
      bs' = .cons x' e' bs1
end

theorem RenE.defined : ∀ {e e' : Expr} {sc : Scope}, RenE sc e e' → e'.defined = e.defined
  | .undef, _, _, h => by simp only [RenE] at h; rw [h]
  | .var .., _, _, h => by simp only [RenE] at h; rw [h.2]; rfl
  | .const _, _, _, h => by simp only [RenE] at h; rw [h]
  | .lets .., _, _, h => by simp only [RenE] at h; obtain ⟨_, _, _, _, _, rfl⟩ := h; rfl
  | .bin .., _, _, h => by simp only [RenE] at h; obtain ⟨_, _, _, _, rfl | ⟨_, rfl⟩⟩ := h <;> rfl
  | .not _, _, _, h => by simp only [RenE] at h; obtain ⟨_, _, rfl⟩ := h; rfl
  | .select .., _, _, h => by simp only [RenE] at h; obtain ⟨_, _, _, _, _, _, rfl⟩ := h; rfl
  | .call .., _, _, h => by simp only [RenE] at h; obtain ⟨_, _, rfl | ⟨_, _, _, _, _, rfl⟩⟩ := h <;> rfl

/-! ## Arguments that are omitted at the end -/

theorem evalArgsS_popUndef {w : World} {l : List Ev} {ρ : SEnv} : ∀ {es : Exprs} {vs : List (Option Val)}, evalArgsS w l ρ es = some vs →
    ∃ vs' k, evalArgsS w l ρ (popUndef es) = some vs' ∧ vs = vs' ++ List.replicate k none
  | .nil, vs, h => by
    simp only [evalArgsS, Option.some.injEq] at h
    exact ⟨[], 0, by simp [popUndef, evalArgsS], by simp [← h]⟩
  | .cons e es, vs, h => by
    simp only [evalArgsS] at h
    by_cases hd : e.defined = true
    · rw [if_pos hd] at h
      simp only [Option.bind_eq_some_iff, Option.map_eq_some_iff] at h
      obtain ⟨v, h1, vs1, h2, rfl⟩ := h
      obtain ⟨vs', k, h3, rfl⟩ := evalArgsS_popUndef h2
      refine ⟨some v :: vs', k, ?_, rfl⟩
      have : popUndef (.cons e es) = .cons e (popUndef es) := by
        rw [popUndef]
        split
        · rename_i hn; rw [if_pos hd, hn]
        · rfl
      rw [this, evalArgsS, if_pos hd, h1, h3]
      rfl
    · rw [if_neg hd] at h
      simp only [Option.map_eq_some_iff] at h
      obtain ⟨vs1, h2, rfl⟩ := h
      obtain ⟨vs', k, h3, rfl⟩ := evalArgsS_popUndef h2
      cases hp : popUndef es with
      | nil =>
        rw [hp] at h3
        simp only [evalArgsS, Option.some.injEq] at h3
        subst h3
        refine ⟨[], k + 1, ?_, by simp [List.replicate_succ]⟩
        rw [popUndef, hp]
        simp [hd, evalArgsS]
      | cons a as =>
        refine ⟨none :: vs', k, ?_, rfl⟩
        have : popUndef (.cons e es) = .cons e (popUndef es) := by
          rw [popUndef, hp]
        rw [this, evalArgsS, if_neg hd, h3]
        rfl

theorem intArgs_trim : ∀ {vs : List (Option Val)} {k : Nat} {xs : List (Option Int)}, intArgs (vs ++ List.replicate k none) = some xs →
    ∃ xs', intArgs vs = some xs' ∧ xs = xs' ++ List.replicate k none
  | [], k, xs, h => by
    refine ⟨[], rfl, ?_⟩
    simp only [List.nil_append] at h ⊢
    revert xs
    induction k with
    | zero => intro xs h; simpa [intArgs] using h.symm
    | succ k ih =>
      intro xs h
      simp only [List.replicate_succ, intArgs, Option.map_eq_some_iff] at h
      obtain ⟨ys, h1, rfl⟩ := h
      rw [ih ys h1, List.replicate_succ]
  | none :: vs, k, xs, h => by
    simp only [List.cons_append, intArgs, Option.map_eq_some_iff] at h
    obtain ⟨ys, h1, rfl⟩ := h
    obtain ⟨xs', h2, rfl⟩ := intArgs_trim h1
    exact ⟨none :: xs', by simp [intArgs, h2], rfl⟩
  | some (.int i) :: vs, k, xs, h => by
    simp only [List.cons_append, intArgs, Option.map_eq_some_iff] at h
    obtain ⟨ys, h1, rfl⟩ := h
    obtain ⟨xs', h2, rfl⟩ := intArgs_trim h1
    exact ⟨some i :: xs', by simp [intArgs, h2], rfl⟩
  | some .undef :: vs, k, xs, h => by simp [intArgs] at h
  | some (.buf b) :: vs, k, xs, h => by simp [intArgs] at h

theorem bufferAt_trim (k : Nat) : ∀ (ds : List Dim) (p : Option Int) (xs : List (Option Int)),
    bufferAt p ds (xs ++ List.replicate k none) = bufferAt p ds xs
  | ds, p, [] => by
    simp only [List.nil_append]
    induction ds generalizing k with
    | nil => simp [bufferAt]
    | cons d ds ih =>
      cases k with
      | zero => rfl
      | succ k => simp only [List.replicate_succ, bufferAt, ih]
  | [], p, _ :: _ => by simp [bufferAt]
  | d :: ds, p, none :: xs => by simp only [List.cons_append, bufferAt, bufferAt_trim k ds]
  | d :: ds, p, some x :: xs => by simp only [List.cons_append, bufferAt, bufferAt_trim k ds]

theorem BinOp.machine_comm {op : BinOp} (h : op.comm = true) (x y : Int) : op.machine x y = op.machine y x := by
  cases op <;> simp [BinOp.comm] at h <;>
    simp [BinOp.machine, Int.add_comm, Int.mul_comm, eq_comm, Bool.and_comm, Bool.or_comm, and_comm, or_comm]
  · split <;> split <;> omega
  · split <;> split <;> omega

/-! ## Expressions -/

variable {w : World} {l : List Ev}

theorem evalS_abs {ρ : SEnv} {e : Expr} : evalS w l ρ (.call .abs (.cons e .nil)) =
    ((evalS w l ρ e).bind Val.int?).bind fun x => (chk 64 (x.natAbs : Int)).map .int := by
  rw [evalS]

mutual
theorem evalS_ren : ∀ {e e' : Expr} {sc : Scope} {ρ ρ' : SEnv} {v : Val}, RenE sc e e' → sc.Inv ρ ρ' → evalS w l ρ e = some v →
    evalS w l ρ' e' = some v
  | .undef, _, _, _, _, _, _, _, h => by simp [evalS] at h
  | .var x f d, e', sc, ρ, ρ', v, hr, hi, h => by
    simp only [RenE] at hr
    obtain ⟨h1, rfl⟩ := hr
    have := hi.D x h1
    cases f <;> simp only [evalS] at h ⊢ <;> rw [this] <;> exact h
  | .const c, e', sc, ρ, ρ', v, hr, hi, h => by
    simp only [RenE] at hr
    subst hr
    simpa [evalS] using h
  | .lets bs b, e', sc, ρ, ρ', v, hr, hi, h => by
    simp only [RenE] at hr
    obtain ⟨bs', b', sc', h1, h2, rfl⟩ := hr
    simp only [evalS, Option.bind_eq_some_iff] at h ⊢
    obtain ⟨ρ1, h3, h4⟩ := h
    obtain ⟨ρ1', h5, h6⟩ := evalBindsS_ren h1 hi h3
    exact ⟨ρ1', h5, evalS_ren h2 h6 h4⟩
  | .bin op a b, e', sc, ρ, ρ', v, hr, hi, h => by
    simp only [RenE] at hr
    obtain ⟨a', b', h1, h2, h3⟩ := hr
    simp only [evalS, Option.bind_eq_some_iff, Option.map_eq_some_iff] at h
    obtain ⟨x, ⟨x1, h4, h4'⟩, y, ⟨y1, h5, h5'⟩, r, h6, rfl⟩ := h
    have g1 := evalS_ren h1 hi h4
    have g2 := evalS_ren h2 hi h5
    rcases h3 with rfl | ⟨hc, rfl⟩
    · simp only [evalS, g1, g2, Option.bind_some, h4', h5', h6, Option.map_some]
    · simp only [evalS, g1, g2, Option.bind_some, h4', h5', BinOp.machine_comm hc y x, h6, Option.map_some]
  | .not a, e', sc, ρ, ρ', v, hr, hi, h => by
    simp only [RenE] at hr
    obtain ⟨a', h1, rfl⟩ := hr
    simp only [evalS, Option.map_eq_some_iff, Option.bind_eq_some_iff] at h
    obtain ⟨x, ⟨x1, h4, h4'⟩, rfl⟩ := h
    simp only [evalS, evalS_ren h1 hi h4, Option.bind_some, h4', Option.map_some]
  | .select c t f, e', sc, ρ, ρ', v, hr, hi, h => by
    simp only [RenE] at hr
    obtain ⟨c', t', f', h1, h2, h3, rfl⟩ := hr
    simp only [evalS, Option.bind_eq_some_iff] at h
    obtain ⟨x, ⟨x1, h4, h4'⟩, h5⟩ := h
    simp only [evalS, evalS_ren h1 hi h4, Option.bind_some, h4']
    split at h5
    · rename_i hx; rw [if_pos hx]; exact evalS_ren h2 hi h5
    · rename_i hx; rw [if_neg hx]; exact evalS_ren h3 hi h5
  | .call fn as, e', sc, ρ, ρ', v, hr, hi, h => by
    simp only [RenE] at hr
    obtain ⟨as', h1, h2⟩ := hr
    have key : ∀ vs, evalArgsS w l ρ as = some vs → evalArgsS w l ρ' as' = some vs := fun vs hv => evalArgsS_ren h1 hi hv
    cases fn with
    | andThen =>
      have he : e' = .call .andThen as' := h2.resolve_right (by rintro ⟨h, _⟩; cases h)
      subst he
      simp only [evalS, Option.map_eq_some_iff] at h ⊢
      obtain ⟨i, h3, rfl⟩ := h
      exact ⟨i, evalShortS_ren h1 hi h3, rfl⟩
    | orElse =>
      have he : e' = .call .orElse as' := h2.resolve_right (by rintro ⟨h, _⟩; cases h)
      subst he
      simp only [evalS, Option.map_eq_some_iff] at h ⊢
      obtain ⟨i, h3, rfl⟩ := h
      exact ⟨i, evalShortS_ren h1 hi h3, rfl⟩
    | abs =>
      have he : e' = .call .abs as' := h2.resolve_right (by rintro ⟨h, _⟩; cases h)
      subst he
      match as, h1, h with
      | .nil, _, h => simp [evalS] at h
      | .cons e (.cons _ _), _, h => simp [evalS] at h
      | .cons e .nil, h1, h =>
        simp only [RenA] at h1
        obtain ⟨e1, es1, g1, rfl, rfl⟩ := h1
        rw [evalS_abs] at h ⊢
        cases he : evalS w l ρ e with
        | none => rw [he] at h; cases h
        | some u => rw [he] at h; rw [evalS_ren g1 hi he]; exact h
    | bufferAt =>
      simp only [evalS] at h
      rw [if_pos (by rfl)] at h
      simp only [Option.bind_eq_some_iff, Option.map_eq_some_iff] at h
      obtain ⟨vs, h3, i, h4, r, h5, rfl⟩ := h
      have h3' := key vs h3
      rcases h2 with rfl | ⟨_, z, d, es, rfl, rfl⟩
      · simp only [evalS]
        rw [if_pos (by rfl), h3', Option.bind_some, h4, Option.bind_some, h5]
        rfl
      · simp only [evalArgsS, Expr.defined] at h3'
        simp only [if_true, Option.bind_eq_some_iff, Option.map_eq_some_iff] at h3'
        obtain ⟨u, g1, us, g2, rfl⟩ := h3'
        obtain ⟨us', k, g3, rfl⟩ := evalArgsS_popUndef g2
        simp only [evalS]
        rw [if_pos (by rfl)]
        simp only [evalArgsS, Expr.defined, if_true, g3, Option.map_some]
        rw [g1, Option.bind_some, Option.bind_some]
        have : callS w l .bufferAt (some u :: us') = some i := by
          cases u with
          | undef => simp [callS] at h4
          | int _ => simp [callS] at h4
          | buf b =>
            simp only [callS, Option.map_eq_some_iff] at h4 ⊢
            obtain ⟨xs, k1, k2⟩ := h4
            obtain ⟨xs', k3, rfl⟩ := intArgs_trim k1
            exact ⟨xs', k3, by rw [← k2, bufferAt_trim]⟩
        rw [this, Option.bind_some, h5]
        rfl
    | _ =>
      have he : e' = .call _ as' := h2.resolve_right (by rintro ⟨h, _⟩; cases h)
      subst he
      simp only [evalS] at h ⊢
      split at h
      · rename_i hh
        rw [if_pos hh]
        simp only [Option.bind_eq_some_iff] at h ⊢
        obtain ⟨vs, h3, h4⟩ := h
        exact ⟨vs, key vs h3, h4⟩
      · cases h
termination_by structural e => e
theorem evalShortS_ren {isAnd : Bool} : ∀ {es es' : Exprs} {sc : Scope} {ρ ρ' : SEnv} {i : Int}, RenA sc es es' → sc.Inv ρ ρ' →
    evalShortS w l isAnd ρ es = some i → evalShortS w l isAnd ρ' es' = some i
  | .nil, _, _, _, _, _, hr, _, h => by
    simp only [RenA] at hr
    subst hr
    simpa [evalShortS] using h
  | .cons e es, es', sc, ρ, ρ', i, hr, hi, h => by
    simp only [RenA] at hr
    obtain ⟨e1, es1, h1, h2, rfl⟩ := hr
    simp only [evalShortS, Option.bind_eq_some_iff] at h ⊢
    obtain ⟨x, ⟨x1, h3, h3'⟩, h4⟩ := h
    refine ⟨x, ⟨x1, evalS_ren h1 hi h3, h3'⟩, ?_⟩
    by_cases c1 : x = 0 ∧ isAnd = true
    · rw [if_pos c1] at h4 ⊢; exact h4
    · rw [if_neg c1] at h4 ⊢
      by_cases c2 : x ≠ 0 ∧ ¬ isAnd = true
      · rw [if_pos c2] at h4 ⊢; exact h4
      · rw [if_neg c2] at h4 ⊢; exact evalShortS_ren h2 hi h4
termination_by structural e => e
theorem evalArgsS_ren : ∀ {es es' : Exprs} {sc : Scope} {ρ ρ' : SEnv} {vs : List (Option Val)}, RenA sc es es' → sc.Inv ρ ρ' →
    evalArgsS w l ρ es = some vs → evalArgsS w l ρ' es' = some vs
  | .nil, _, _, _, _, _, hr, _, h => by
    simp only [RenA] at hr
    subst hr
    simpa [evalArgsS] using h
  | .cons e es, es', sc, ρ, ρ', i, hr, hi, h => by
    simp only [RenA] at hr
    obtain ⟨e1, es1, h1, h2, rfl⟩ := hr
    simp only [evalArgsS] at h ⊢
    rw [h1.defined]
    split at h
    · rename_i hd
      rw [if_pos hd]
      simp only [Option.bind_eq_some_iff, Option.map_eq_some_iff] at h ⊢
      obtain ⟨v, h3, vs, h4, h5⟩ := h
      exact ⟨v, evalS_ren h1 hi h3, vs, evalArgsS_ren h2 hi h4, h5⟩
    · rename_i hd
      rw [if_neg hd]
      simp only [Option.map_eq_some_iff] at h ⊢
      obtain ⟨vs, h4, h5⟩ := h
      exact ⟨vs, evalArgsS_ren h2 hi h4, h5⟩
termination_by structural e => e
theorem evalBindsS_ren : ∀ {bs bs' : Binds} {sc sc' : Scope} {ρ ρ' ρ1 : SEnv}, RenB sc bs bs' sc' → sc.Inv ρ ρ' →
    evalBindsS w l ρ bs = some ρ1 → ∃ ρ1', evalBindsS w l ρ' bs' = some ρ1' ∧ sc'.Inv ρ1 ρ1'
  | .nil, _, _, _, _, ρ', _, hr, hi, h => by
    simp only [RenB] at hr
    obtain ⟨rfl, rfl⟩ := hr
    simp only [evalBindsS, Option.some.injEq] at h
    subst h
    exact ⟨ρ', rfl, hi⟩
  | .cons x e bs, bs', sc, sc', ρ, ρ', ρ1, hr, hi, h => by
    simp only [RenB] at hr
    obtain ⟨x', e', bs1, sc1, h1, h2, h3, h4, rfl⟩ := hr
    simp only [evalBindsS, Option.bind_eq_some_iff] at h
    obtain ⟨v, h5, h6⟩ := h
    split at h6
    · rename_i hb
      have hv : v ≠ .undef := by rintro rfl; simp [bindable] at hb
      have hb' : bindable x' e' v = true := by
        cases v with
        | undef => exact absurd rfl hv
        | int _ => rfl
        | buf b =>
          obtain ⟨d, rfl⟩ := bindable_buf hb
          simp only [RenE] at h1
          obtain ⟨_, rfl⟩ := h1
          simp [bindable, h2 d rfl]
      obtain ⟨ρ1', g1, g2⟩ := evalBindsS_ren h4 (hi.decl h3 hv) h6
      refine ⟨ρ1', ?_, g2⟩
      simp only [evalBindsS, evalS_ren h1 hi h5, Option.bind_some, hb', if_true, g1]
    · cases h6
termination_by structural e => e
end

end Slinky
