import Verif.Expr
import Verif.ArithProps

/-!
# C07: machine evaluation equals mathematical evaluation

`evalM` is the transcription of the evaluator (64-bit arithmetic, context mutated by lets). The specification is `eval`
(exact integers, pure environments) and `Safe` ("no operation that is actually evaluated overflows").
-/

namespace Slinky

/-! ### Specification -/

/-- The operation can be performed in 64 bits. (`INT64_MIN % -1` is undefined behaviour although its value is 0.) -/
def OpSafe (op : BinOp) (a b : Int) : Prop :=
  InRange 64 (op.denote a b) ∧ ¬ (op = .mod ∧ a = minOf 64 ∧ b = -1)

mutual
/-- No operation that the evaluation of the expression performs overflows, and no undefined expression or infinity is
evaluated. Only the selected branch of a `select`, and only the arguments of `and_then`, `or_else` up to the first that
decides the result, are evaluated. -/
def Safe (m : Mem) (ρ : Env) : Expr → Prop
  | .undef => False
  | .var _ _ _ => True
  | .const _ => True
  | .lets bs b => SafeBinds m ρ bs ∧ Safe m (evalBinds m ρ bs) b
  | .bin op a b => Safe m ρ a ∧ Safe m ρ b ∧ OpSafe op (eval m ρ a) (eval m ρ b)
  | .not a => Safe m ρ a
  | .select c t f => Safe m ρ c ∧ (eval m ρ c ≠ 0 → Safe m ρ t) ∧ (eval m ρ c = 0 → Safe m ρ f)
  | .call fn as =>
    match fn with
    | .andThen => SafeShort m ρ (fun x => x = 0) as
    | .orElse => SafeShort m ρ (fun x => x ≠ 0) as
    | .abs => as.length = 1 ∧ SafeShort m ρ (fun _ => False) as ∧ InRange 64 (Fn.abs.denote m (evalArgs m ρ as))
    | fn => fn.isHost = true ∧ SafeArgs m ρ as ∧ InRange 64 (m.call fn (evalArgs m ρ as))
/-- Short-circuit evaluation: arguments after the first that satisfies `stop` are not evaluated. -/
def SafeShort (m : Mem) (ρ : Env) (stop : Int → Prop) : Exprs → Prop
  | .nil => True
  | .cons e es => Safe m ρ e ∧ (¬ stop (eval m ρ e) → SafeShort m ρ stop es)
/-- All defined arguments are evaluated. -/
def SafeArgs (m : Mem) (ρ : Env) : Exprs → Prop
  | .nil => True
  | .cons e es => (e.defined = true → Safe m ρ e) ∧ SafeArgs m ρ es
/-- All let values are evaluated. -/
def SafeBinds (m : Mem) (ρ : Env) : Binds → Prop
  | .nil => True
  | .cons x e bs => Safe m ρ e ∧ SafeBinds m (ρ.set x (eval m ρ e)) bs
end

mutual
/-- Constants are 64-bit integers, and no list of lets binds a symbol twice. -/
def Expr.WF : Expr → Prop
  | .undef => True
  | .var _ _ _ => True
  | .const c => InRange 64 c
  | .lets bs b => bs.syms.Nodup ∧ bs.WF ∧ b.WF
  | .bin _ a b => a.WF ∧ b.WF
  | .not a => a.WF
  | .select c t f => c.WF ∧ t.WF ∧ f.WF
  | .call _ as => as.WF
/-- See `Expr.WF`. -/
def Exprs.WF : Exprs → Prop
  | .nil => True
  | .cons e es => e.WF ∧ es.WF
/-- See `Expr.WF`. -/
def Binds.WF : Binds → Prop
  | .nil => True
  | .cons _ e bs => e.WF ∧ bs.WF
end

/-- The values of variables are 64-bit integers. -/
def EnvOK (ρ : Env) : Prop := ∀ x, InRange 64 (ρ x)
/-- Buffer metadata are 64-bit integers. -/
def MemOK (m : Mem) : Prop := ∀ p f d, InRange 64 (m.field p f d)

/-! ### Proofs -/

theorem EnvOK.set {ρ : Env} (h : EnvOK ρ) (x : Nat) {v : Int} (hv : InRange 64 v) : EnvOK (ρ.set x v) := by
  intro y; unfold Env.set; split <;> [exact hv; exact h y]

theorem Env.set_self (ρ : Env) (x : Nat) : ρ.set x (ρ x) = ρ := by
  funext y; unfold Env.set; split <;> simp_all
theorem Env.set_set (ρ : Env) (x : Nat) (v w : Int) : (ρ.set x v).set x w = ρ.set x w := by
  funext y; unfold Env.set; split <;> simp_all
theorem Env.set_comm (ρ : Env) {x y : Nat} (h : x ≠ y) (v w : Int) : (ρ.set x v).set y w = (ρ.set y w).set x v := by
  funext z; unfold Env.set; split <;> split <;> simp_all
@[simp] theorem Env.set_same (ρ : Env) (x : Nat) (v : Int) : (ρ.set x v) x = v := by simp [Env.set]
theorem Env.set_other (ρ : Env) {x y : Nat} (h : y ≠ x) (v : Int) : (ρ.set x v) y = ρ y := by simp [Env.set, h]

theorem inRange_01 {x : Int} (h : x = 0 ∨ x = 1) : InRange 64 x := by
  unfold InRange; rcases h with rfl | rfl <;> norm_num

theorem machine_eq (op : BinOp) (a b : Int) (ha : InRange 64 a) (hb : InRange 64 b) [Decidable (OpSafe op a b)] :
    op.machine a b = if OpSafe op a b then some (op.denote a b) else none := by
  have hmm : ∀ p : Prop, ∀ [Decidable p], InRange 64 (b2i p) := fun p _ => inRange_01 (by unfold b2i; split <;> simp)
  have pos : ∀ x, op.machine a b = some x → op.denote a b = x → InRange 64 x → op ≠ .mod →
      op.machine a b = if OpSafe op a b then some (op.denote a b) else none := by
    intro x h1 h2 h3 h4
    rw [if_pos ⟨h2 ▸ h3, fun h => h4 h.1⟩, h1, h2]
  cases op
  case add =>
    simp only [BinOp.machine, BinOp.denote, OpSafe, chk, reduceCtorEq, false_and, not_false_eq_true, and_true]
  case sub =>
    simp only [BinOp.machine, BinOp.denote, OpSafe, chk, reduceCtorEq, false_and, not_false_eq_true, and_true]
  case mul =>
    simp only [BinOp.machine, BinOp.denote, OpSafe, chk, reduceCtorEq, false_and, not_false_eq_true, and_true]
  case div =>
    by_cases h : a = minOf 64 ∧ b = -1
    · obtain ⟨rfl, rfl⟩ := h
      rw [if_neg]
      · exact euclideanDiv_overflow 64
      · rintro ⟨h, -⟩
        revert h
        unfold BinOp.denote ediv minOf InRange; norm_num
    · exact pos (a / b) (euclideanDiv_spec 64 a b ha hb h) rfl (inRange_ediv ha hb h) (by decide)
  case mod =>
    by_cases h : a = minOf 64 ∧ b = -1
    · obtain ⟨rfl, rfl⟩ := h
      rw [if_neg (by simp [OpSafe])]
      have : (minOf 64).tdiv (-1) = (2 : Int) ^ 63 := by simp [minOf]
      unfold BinOp.machine euclideanMod
      simp only []
      rw [if_neg (by norm_num), this]
      have h2 : chk 64 ((2 : Int) ^ 63) = none := by unfold chk InRange; norm_num
      rw [h2]; rfl
    · rw [if_pos]
      · exact euclideanMod_spec 64 a b ha hb h
      · refine ⟨?_, fun hh => h hh.2⟩
        unfold BinOp.denote emod; simp only []; split
        · exact inRange_01 (by simp)
        · next hb0 =>
          have h1 := Int.emod_nonneg a hb0
          have h2 := Int.emod_lt_abs a hb0
          unfold InRange at *
          have : |b| ≤ 2 ^ (64 - 1) := abs_le.mpr ⟨hb.1, by linarith [hb.2]⟩
          constructor <;> [(norm_num at *; linarith); linarith]
  case min =>
    refine pos _ rfl ?_ ?_ (by decide)
    · unfold BinOp.denote; simp only []; rw [min_def]; split <;> split <;> omega
    · split <;> assumption
  case max =>
    refine pos _ rfl ?_ ?_ (by decide)
    · unfold BinOp.denote; simp only []; rw [max_def]; split <;> split <;> omega
    · split <;> assumption
  all_goals
    refine pos _ rfl rfl ?_ (by decide)
    split <;> first | exact inRange_01 (Or.inl rfl) | exact inRange_01 (Or.inr rfl)

open Classical in
theorem foldl_restore_other (l : List (Nat × Int)) (ρ : Env) (x : Nat) (v : Int) (h : x ∉ l.map Prod.fst) :
    l.foldl (fun ρ p => ρ.set p.1 p.2) (ρ.set x v) = (l.foldl (fun ρ p => ρ.set p.1 p.2) ρ).set x v := by
  induction l generalizing ρ with
  | nil => rfl
  | cons p l ih =>
    simp only [List.map_cons, List.mem_cons, not_or] at h
    simp only [List.foldl_cons]
    rw [Env.set_comm ρ h.1, ih _ h.2]

/-- The old values saved by the let loop, mathematically. -/
def oldVals (m : Mem) (ρ : Env) : Binds → List (Nat × Int)
  | .nil => []
  | .cons x e bs => (x, ρ x) :: oldVals m (ρ.set x (eval m ρ e)) bs

theorem oldVals_syms (m : Mem) (ρ : Env) : ∀ bs : Binds, (oldVals m ρ bs).map Prod.fst = bs.syms
  | .nil => rfl
  | .cons x e bs => by simp [oldVals, Binds.syms, oldVals_syms m _ bs]

theorem evalBinds_restore (m : Mem) (ρ : Env) : ∀ bs : Binds, bs.syms.Nodup →
    (oldVals m ρ bs).foldl (fun ρ p => ρ.set p.1 p.2) (evalBinds m ρ bs) = ρ
  | .nil, _ => by simp [oldVals, evalBinds]
  | .cons x e bs, hnd => by
    simp only [Binds.syms, List.nodup_cons] at hnd
    simp only [oldVals, evalBinds, List.foldl_cons]
    rw [foldl_restore_other _ _ _ _ (by rw [oldVals_syms]; exact hnd.1), evalBinds_restore m _ bs hnd.2, Env.set_set,
      Env.set_self]

theorem inRange_b2i (p : Prop) [Decidable p] : InRange 64 (b2i p) := inRange_01 (by unfold b2i; split <;> simp)

open Classical in
mutual
theorem evalM_main (m : Mem) (hm : MemOK m) (ρ : Env) (hρ : EnvOK ρ) : ∀ e : Expr, e.WF →
    evalM m ρ e = (if Safe m ρ e then some (eval m ρ e, ρ) else none) ∧ (Safe m ρ e → InRange 64 (eval m ρ e))
  | .undef, _ => by simp [evalM, Safe]
  | .var x f d, _ => by
    cases f <;> simp [evalM, Safe, eval, hρ x, hm _ _ _]
  | .const c, h => by simp only [Expr.WF] at h; simp [evalM, Safe, eval, h]
  | .lets bs b, h => by
    simp only [Expr.WF] at h
    obtain ⟨hb1, hb2⟩ := evalBindsM_main m hm ρ hρ bs h.2.1
    simp only [evalM, Safe, eval]
    rw [hb1]
    by_cases hs : SafeBinds m ρ bs
    · obtain ⟨ih1, ih2⟩ := evalM_main m hm (evalBinds m ρ bs) (hb2 hs) b h.2.2
      simp only [hs, if_true, Option.bind_eq_bind, Option.bind_some, true_and]
      rw [ih1]
      refine ⟨?_, ih2⟩
      split
      · simp only [Option.bind_some]
        rw [evalBinds_restore m ρ bs h.1]
      · rfl
    · simp [hs]
  | .bin op a b, h => by
    simp only [Expr.WF] at h
    obtain ⟨a1, a2⟩ := evalM_main m hm ρ hρ a h.1
    obtain ⟨b1, b2⟩ := evalM_main m hm ρ hρ b h.2
    simp only [evalM, Safe, eval]
    refine ⟨?_, fun hs => hs.2.2.1⟩
    rw [a1]
    by_cases ha : Safe m ρ a
    · simp only [ha, if_true, Option.bind_eq_bind, Option.bind_some, true_and]
      rw [b1]
      by_cases hb : Safe m ρ b
      · simp only [hb, if_true, Option.bind_some, true_and]
        rw [machine_eq op _ _ (a2 ha) (b2 hb)]
        split <;> rfl
      · simp [hb]
    · simp [ha]
  | .not a, h => by
    simp only [Expr.WF] at h
    obtain ⟨a1, a2⟩ := evalM_main m hm ρ hρ a h
    simp only [evalM, Safe, eval, b2i]
    refine ⟨?_, fun _ => by split <;> exact inRange_01 (by simp)⟩
    rw [a1]
    by_cases ha : Safe m ρ a <;> simp [ha]
  | .select c t f, h => by
    simp only [Expr.WF] at h
    obtain ⟨c1, c2⟩ := evalM_main m hm ρ hρ c h.1
    obtain ⟨t1, t2⟩ := evalM_main m hm ρ hρ t h.2.1
    obtain ⟨f1, f2⟩ := evalM_main m hm ρ hρ f h.2.2
    simp only [evalM, Safe, eval]
    rw [c1]
    by_cases hc : Safe m ρ c
    · by_cases hv : eval m ρ c = 0
      · simp [hc, hv, f1]; exact f2
      · simp [hc, hv, t1]; exact t2
    · simp [hc]
  | .call fn as, h => by
    simp only [Expr.WF] at h
    have hargs := evalArgsM_main m hm ρ hρ as h
    have hand := evalShortM_main m hm ρ hρ true as h
    have hor := evalShortM_main m hm ρ hρ false as h
    have hhost : (if fn.isHost then (do
        let (xs, ρ1) ← evalArgsM m ρ as
        let v ← chk 64 (m.call fn xs)
        some (v, ρ1)) else none) =
        (if (fn.isHost = true ∧ SafeArgs m ρ as ∧ InRange 64 (m.call fn (evalArgs m ρ as))) then
          some (m.call fn (evalArgs m ρ as), ρ) else none) := by
      rw [hargs]
      by_cases hf : fn.isHost = true
      · by_cases hs : SafeArgs m ρ as
        · simp only [hf, hs, if_true, true_and, chk]
          split <;> simp_all
        · simp [hs]
      · simp [hf]
    cases fn
    case andThen =>
      simp only [evalM, Safe, eval]
      refine ⟨?_, fun _ => inRange_b2i _⟩
      rw [hand]
      by_cases hs : SafeShort m ρ (fun x => x = 0) as <;> simp [hs]
    case orElse =>
      simp only [evalM, Safe, eval]
      refine ⟨?_, fun _ => inRange_b2i _⟩
      rw [hor]
      by_cases hs : SafeShort m ρ (fun x => x ≠ 0) as <;> simp [hs]
    case abs =>
      simp only [Safe, eval]
      refine ⟨?_, fun hs => hs.2.2⟩
      match as, h with
      | .nil, _ => simp [evalM, Exprs.length]
      | .cons e (.cons _ _), _ => simp [evalM, Exprs.length]
      | .cons e .nil, h =>
        simp only [Exprs.WF] at h
        obtain ⟨e1, e2⟩ := evalM_main m hm ρ hρ e h.1
        simp only [evalM, Exprs.length, SafeShort, evalArgs]
        rw [e1]
        by_cases he : Safe m ρ e
        · have hd : e.defined = true := by cases e <;> first | rfl | simp [Safe] at he
          simp only [he, hd, if_true, true_and, Fn.denote, chk, not_false_eq_true, true_implies]
          split <;> simp_all
        · simp [he]
    all_goals
      split
      · next hs =>
        simp only [Safe] at hs
        rw [if_pos hs] at hhost
        refine ⟨?_, fun _ => hs.2.2⟩
        simp only [evalM, eval, Fn.denote]
        exact hhost
      · next hs =>
        refine ⟨?_, fun h => absurd h hs⟩
        simp only [Safe] at hs
        rw [if_neg hs] at hhost
        simp only [evalM]
        exact hhost
theorem evalShortM_main (m : Mem) (hm : MemOK m) (ρ : Env) (hρ : EnvOK ρ) (isAnd : Bool) : ∀ es : Exprs, es.WF →
    evalShortM m isAnd ρ es =
      (if SafeShort m ρ (fun x => if isAnd then x = 0 else x ≠ 0) es then
        some (if isAnd then Fn.andThen.denote m (evalArgs m ρ es) else Fn.orElse.denote m (evalArgs m ρ es), ρ)
      else none)
  | .nil, _ => by
    cases isAnd <;> simp [evalShortM, SafeShort, evalArgs, Fn.denote, b2i]
  | .cons e es, h => by
    simp only [Exprs.WF] at h
    obtain ⟨e1, _⟩ := evalM_main m hm ρ hρ e h.1
    have ih := evalShortM_main m hm ρ hρ isAnd es h.2
    simp only [evalShortM, SafeShort]
    rw [e1]
    by_cases he : Safe m ρ e
    · have hd : e.defined = true := by cases e <;> first | rfl | simp [Safe] at he
      by_cases hv : eval m ρ e = 0 <;> cases isAnd <;> simp [he, hd, hv, evalArgs, Fn.denote, b2i] <;>
        simp [ih, Fn.denote, b2i]
    · simp [he]
theorem evalArgsM_main (m : Mem) (hm : MemOK m) (ρ : Env) (hρ : EnvOK ρ) : ∀ es : Exprs, es.WF →
    evalArgsM m ρ es = (if SafeArgs m ρ es then some (evalArgs m ρ es, ρ) else none)
  | .nil, _ => by simp [evalArgsM, SafeArgs, evalArgs]
  | .cons e es, h => by
    simp only [Exprs.WF] at h
    obtain ⟨e1, _⟩ := evalM_main m hm ρ hρ e h.1
    have ih := evalArgsM_main m hm ρ hρ es h.2
    simp only [evalArgsM, SafeArgs, evalArgs]
    by_cases hd : e.defined = true
    · rw [e1, ih]
      by_cases he : Safe m ρ e <;> by_cases hs : SafeArgs m ρ es <;> simp [hd, he, hs, ih]
    · simp only [hd, ih]
      by_cases hs : SafeArgs m ρ es <;> simp [hs]
theorem evalBindsM_main (m : Mem) (hm : MemOK m) (ρ : Env) (hρ : EnvOK ρ) : ∀ bs : Binds, bs.WF →
    evalBindsM m ρ bs = (if SafeBinds m ρ bs then some (oldVals m ρ bs, evalBinds m ρ bs) else none) ∧
      (SafeBinds m ρ bs → EnvOK (evalBinds m ρ bs))
  | .nil, _ => by simp [evalBindsM, SafeBinds, evalBinds, oldVals, hρ]
  | .cons x e bs, h => by
    simp only [Binds.WF] at h
    obtain ⟨e1, e2⟩ := evalM_main m hm ρ hρ e h.1
    simp only [evalBindsM, SafeBinds, evalBinds, oldVals]
    rw [e1]
    by_cases he : Safe m ρ e
    · obtain ⟨b1, b2⟩ := evalBindsM_main m hm (ρ.set x (eval m ρ e)) (hρ.set x (e2 he)) bs h.2
      by_cases hs : SafeBinds m (ρ.set x (eval m ρ e)) bs
      · simp [he, hs, b1]; exact b2 hs
      · simp [he, hs, b1]
    · simp [he]
end

/-! ### Properties -/

/-- C07. On a well-formed expression, with variables and buffer metadata that are 64-bit integers, the evaluator
succeeds exactly when no operation it performs overflows (and nothing undefined is evaluated); it then returns the
mathematical value, and leaves the context unchanged. -/
theorem evaluate_correct (m : Mem) (hm : MemOK m) (ρ : Env) (hρ : EnvOK ρ) (e : Expr) (he : e.WF) :
    (Safe m ρ e → evalM m ρ e = some (eval m ρ e, ρ)) ∧ (¬ Safe m ρ e → evalM m ρ e = none) := by
  classical
  have h := (evalM_main m hm ρ hρ e he).1
  exact ⟨fun hs => by rw [h, if_pos hs], fun hs => by rw [h, if_neg hs]⟩

/-- C07, corollary: any value that the evaluator returns is the mathematical value, and the context is restored. -/
theorem evaluate_sound (m : Mem) (hm : MemOK m) (ρ : Env) (hρ : EnvOK ρ) (e : Expr) (he : e.WF) (v : Int) (ρ' : Env)
    (h : evalM m ρ e = some (v, ρ')) : v = eval m ρ e ∧ ρ' = ρ ∧ InRange 64 v := by
  classical
  obtain ⟨h1, h2⟩ := evalM_main m hm ρ hρ e he
  rw [h1] at h
  split at h
  · next hs => simp only [Option.some.injEq, Prod.mk.injEq] at h; exact ⟨h.1.symm, h.2.symm, h.1 ▸ h2 hs⟩
  · cases h

/-- A memory for examples. -/
def Mem.zero : Mem := ⟨fun _ _ _ => 0, fun _ _ => 0, 0⟩

/-- C07: the hypothesis that no list of lets binds a symbol twice is needed: the old values are restored in forward
order, so after `let x = 1, x = 2 in x` the variable `x` is left equal to 1 instead of its old value, and
`(let x = 1, x = 2 in x) + x` evaluates to 3 when `x = 0` (its mathematical value is 2). -/
theorem evaluate_let_duplicate_counterexample :
    let l : Expr := .lets (.cons 0 (.const 1) (.cons 0 (.const 2) .nil)) (.v 0)
    ∃ ρ : Env, (∃ ρ', evalM Mem.zero ρ l = some (2, ρ') ∧ ρ' ≠ ρ) ∧
      eval Mem.zero ρ (.bin .add l (.v 0)) = 2 ∧ ∃ ρ', evalM Mem.zero ρ (.bin .add l (.v 0)) = some (3, ρ') := by
  refine ⟨fun _ => 0, ⟨_, rfl, fun h => ?_⟩, ?_, ?_⟩
  · have := congrFun h 0
    simp [Env.set] at this
  · simp [eval, evalBinds, BinOp.denote, Env.set, Expr.v]
  · simp [evalM, evalBindsM, Expr.v, Env.set, BinOp.machine, chk, InRange]

/-- The hypotheses of `evaluate_correct` are met by a non-trivial expression: `let y = x / 2 in select(y < 3, y, 1)`. -/
example : let e : Expr := .lets (.cons 1 (.bin .div (.v 0) (.const 2)) .nil) (.select (.bin .lt (.v 1) (.const 3)) (.v 1) (.const 1))
    MemOK Mem.zero ∧ EnvOK (fun _ => 5) ∧ e.WF ∧ Safe Mem.zero (fun _ => 5) e ∧ eval Mem.zero (fun _ => 5) e = 2 := by
  refine ⟨fun _ _ _ => inRange_01 (by simp [Mem.zero]), fun _ => by unfold InRange; norm_num, ?_, ?_, ?_⟩
  · simp [Expr.WF, Binds.WF, Binds.syms, Expr.v, InRange]
  · simp [Safe, SafeBinds, OpSafe, eval, evalBinds, Expr.v, BinOp.denote, ediv, Env.set, b2i, InRange]
  · simp [eval, evalBinds, Expr.v, BinOp.denote, ediv, Env.set, b2i]

end Slinky
