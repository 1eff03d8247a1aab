import Verif.RewriteTables
import Verif.Buffer

/-!
# Model of the simplifiers of single nodes (slinky/builder/simplify_exprs.cc)

These build a node from operands that are already simplified: operands of commutative operators are put in order, constants
are folded, and then the rules of simplify_rules.h are tried once.

`g` is the guard of the rules with a side condition (see `applyRules`): `gTrue` is the C++.

Simplification: "is this the same node as the one we started from" (`op && a.same_as(op->a) && ..`) only avoids building
a new node that is equal to the original one, and is not modelled.
-/

namespace Slinky

/-- simplify_rules.h: the rules of an operator. (`not_equal` and `less_equal` have none: they are rewritten to the negation
of `equal` and `less`.) -/
def rulesOf : BinOp → List Rule
  | .add => Rules.addRules
  | .sub => Rules.subRules
  | .mul => Rules.mulRules
  | .div => Rules.divRules
  | .mod => Rules.modRules
  | .min => Rules.minRules
  | .max => Rules.maxRules
  | .eq => Rules.equalRules
  | .lt => Rules.lessRules
  | .and => Rules.andRules
  | .or => Rules.orRules
  | .ne | .le => []

/-- Constant folding: simplify_exprs.cc:22-26, 46-50, 71-75 (only if there is no overflow), 97-100, 126-130, 150-154,
170-174, 187-191, 221-225, 256-263, 282-289. Division is exact here; the C++ overflows for `INT64_MIN / -1`. -/
def foldConsts (op : BinOp) (a b : Expr) : Option Expr :=
  match asConst a, asConst b with
  | some ca, some cb =>
    if binaryOverflows op ca cb then none else some (.const (op.denote ca cb))
  | none, some cb =>
    match op with
    | .and => some (if cb ≠ 0 then boolean a else .const 0)
    | .or => some (if cb ≠ 0 then .const 1 else boolean a)
    | _ => none
  | _, _ => none

/-- simplify_exprs.cc:28-29, 52-53, 77-81, 106-110, 132-136, 156-158: infinities and indeterminate operands. -/
def foldInf (op : BinOp) (a b : Expr) : Option Expr :=
  match op with
  | .min | .max => if isIndeterminate a then some a else if isIndeterminate b then some b else none
  | .add =>
    if isIndeterminate a then some a else if isIndeterminate b then some b
    else if isInfinity a ≠ 0 ∧ isInfinity b ≠ 0 then
      some (if isInfinity a = isInfinity b then a else .call .indeterminate .nil) else none
  | .sub =>
    if isIndeterminate a then some a else if isIndeterminate b then some b
    else if isInfinity a ≠ 0 ∧ isInfinity b ≠ 0 then
      some (if isInfinity a = isInfinity b then .call .indeterminate .nil else a) else none
  | .mul =>
    if isIndeterminate a then some a else if isIndeterminate b then some b
    else if isInfinity a ≠ 0 ∧ isInfinity b ≠ 0 then
      some (.call (if isInfinity a * isInfinity b < 0 then .negInf else .posInf) .nil) else none
  | .div =>
    if isIndeterminate a then some a else if isIndeterminate b then some b
    else if isInfinity a ≠ 0 ∧ isInfinity b ≠ 0 then some (.call .indeterminate .nil) else none
  | _ => none

/-- simplify_exprs.cc:17-295, the part that is common to the binary operators. -/
def simplifyBase (g : Rule → MCtx → Bool) (op : BinOp) (a b : Expr) : Expr :=
  let p := if op.comm && shouldCommute a b then (b, a) else (a, b)
  match foldConsts op p.1 p.2 with
  | some e => e
  | none =>
    match foldInf op p.1 p.2 with
    | some e => e
    | none => (applyRules g (rulesOf op) (.bin op p.1 p.2)).getD (mkBin op p.1 p.2)

/-- simplify_exprs.cc:297-311 `simplify(const logical_not*, ..)` -/
def simplifyNot (g : Rule → MCtx → Bool) (a : Expr) : Expr :=
  match asConst a with
  | some c => .const (if c = 0 then 1 else 0)
  | none => (applyRules g Rules.notRules (.not a)).getD (.not a)

/-- simplify_exprs.cc:17-295 `simplify(const T*, expr a, expr b)` for the binary operators. -/
def simplifyBin (g : Rule → MCtx → Bool) (op : BinOp) (a b : Expr) : Expr :=
  match op with
  -- simplify_exprs.cc:203-216
  | .le => simplifyNot g (simplifyBase g .lt b a)
  -- simplify_exprs.cc:237-250
  | .ne => simplifyNot g (simplifyBase g .eq a b)
  -- simplify_exprs.cc:94-104: subtraction of a constant becomes addition
  | .sub =>
    match asConst a, asConst b with
    | some ca, some cb =>
      if InRange 64 (ca - cb) then .const (ca - cb)
      else if InRange 64 (0 - cb) then simplifyBase g .add a (.const (-cb)) else simplifyBase g .sub a b
    | none, some cb => if InRange 64 (0 - cb) then simplifyBase g .add a (.const (-cb)) else simplifyBase g .sub a b
    | _, none => simplifyBase g .sub a b
  | op => simplifyBase g op a b

/-- simplify_exprs.cc:313-330 `simplify(const select*, ..)` -/
def simplifySelect (g : Rule → MCtx → Bool) (c t f : Expr) : Expr :=
  if isTrue c then t
  else if isFalse c then f
  else (applyRules g Rules.selectRules (.select c t f)).getD (.select c t f)

/-- simplify_exprs.cc:340-350: remove the pairs of an undefined semaphore and a count. (The C++ asserts that the number of
arguments is even.) -/
def dropSems : Exprs → Exprs
  | .cons a (.cons b es) => if a.defined then .cons a (.cons b (dropSems es)) else dropSems es
  | es => es

/-- The values of the arguments, if they are all constants. -/
def constArgs : Exprs → Option (List Int)
  | .nil => some []
  | .cons e es => do
    let c ← asConst e
    let cs ← constArgs es
    some (c :: cs)

/-- simplify.cc:2779-2786 `can_evaluate` -/
def canEvaluate : Fn → Bool
  | .negInf | .posInf | .indeterminate => false
  | _ => true

/-- `evaluate(call)` (evaluate.cc:319-352) of a call with constant arguments; `ev` computes the functions of the host. -/
def evalConstCall (ev : Fn → List (Option Int) → Int) (fn : Fn) (cs : List Int) : Int :=
  fn.denote ⟨fun _ _ _ => 0, ev, 0⟩ (cs.map some)

/-- Is it an operation on semaphores? -/
def Fn.isSem : Fn → Bool
  | .semInit | .semWait | .semSignal => true
  | _ => false

/-- simplify_exprs.cc:378-389: build the call, evaluate it if it is constant, or apply the rules. `orig` are the original
arguments. -/
def finishCall (ev : Fn → List (Option Int) → Int) (g : Rule → MCtx → Bool) (fn : Fn) (orig args : Exprs) : Expr :=
  match constArgs orig, canEvaluate fn with
  | some cs, true => .const (evalConstCall ev fn cs)
  | _, _ => (applyRules g Rules.callRules (.call fn args)).getD (.call fn args)

/-- simplify_exprs.cc:332-390 `simplify(const call*, ..)` -/
def simplifyCall (ev : Fn → List (Option Int) → Int) (g : Rule → MCtx → Bool) (fn : Fn) (args : Exprs) : Expr :=
  if fn.isSem then
    match dropSems args with
    | .nil => .undef
    | args' => finishCall ev g fn args args'
  else
    match fn, args with
    | .bufferAt, args => finishCall ev g .bufferAt args (fixBufferAt (fun _ => 0) (fun _ _ => .undef) .bufferAt args)
    | .abs, .cons a .nil =>
      if isNonNegative a then a
      else if isNonPositive a then simplifyBin g .sub (.const 0) a
      else finishCall ev g .abs args args
    | fn, args => finishCall ev g fn args args

/-! ### Soundness (C14) -/

section
variable (m : Mem) (ρ : Env) {g : Rule → MCtx → Bool} (hg : GuardOK g m ρ)

include hg in
theorem applyRules_getD_sound {rs} (hrs : rs ∈ allTables) {e e0 : Expr} (he : e.ok = true)
    (h0 : eval m ρ e0 = eval m ρ e ∧ e0.ok = true) :
    eval m ρ ((applyRules g rs e).getD e0) = eval m ρ e ∧ ((applyRules g rs e).getD e0).ok = true := by
  cases h : applyRules g rs e with
  | none => simpa using h0
  | some e' => simpa using rewrite_correct_partial m ρ hg hrs he h

theorem rulesOf_mem {op : BinOp} (h1 : op ≠ .ne) (h2 : op ≠ .le) : rulesOf op ∈ allTables := by
  cases op <;> simp [rulesOf, allTables] at h1 h2 ⊢

theorem denote_comm {op : BinOp} (h : op.comm = true) (x y : Int) : op.denote x y = op.denote y x := by
  cases op <;> simp [BinOp.comm] at h
  · exact Int.add_comm ..
  · exact Int.mul_comm ..
  · exact Int.min_comm ..
  · exact Int.max_comm ..
  · simp [BinOp.denote, eq_comm]
  · simp [BinOp.denote, eq_comm]
  · simp [BinOp.denote, and_comm]
  · simp [BinOp.denote, or_comm]

theorem foldConsts_sound {op : BinOp} {a b e : Expr} (ha : a.ok = true) (h : foldConsts op a b = some e) :
    eval m ρ e = op.denote (eval m ρ a) (eval m ρ b) ∧ e.ok = true := by
  unfold foldConsts at h
  cases hca : asConst a with
  | some ca =>
    have := asConst_eq hca; subst this
    cases hcb : asConst b with
    | some cb =>
      have := asConst_eq hcb; subst this
      simp only [asConst] at h
      split at h
      · simp at h
      · cases h; simp [eval]
    | none => simp [hcb] at h
  | none =>
    cases hcb : asConst b with
    | none => simp [hca, hcb] at h
    | some cb =>
      have := asConst_eq hcb; subst this
      have hd := ok_defined ha
      rw [hca] at h
      cases op <;> dsimp only [asConst] at h <;> try (cases h; done)
      · cases h
        split
        · next hc =>
          refine ⟨?_, ok_boolean ha⟩
          rw [boolean_correct m ρ a hd]
          simp [eval, BinOp.denote, b2i, hc]
        · next hc =>
          have : cb = 0 := by simpa using hc
          simp [eval, BinOp.denote, b2i, this]
      · cases h
        split
        · next hc => simp [eval, BinOp.denote, b2i, hc]
        · next hc =>
          refine ⟨?_, ok_boolean ha⟩
          have : cb = 0 := by simpa using hc
          rw [boolean_correct m ρ a hd]
          simp [eval, BinOp.denote, b2i, this]

theorem foldInf_none {op : BinOp} {a b : Expr} (ha : a.ok = true) (hb : b.ok = true) : foldInf op a b = none := by
  obtain ⟨h1, h2, h3⟩ := ok_isPosInf ha
  obtain ⟨h4, h5, h6⟩ := ok_isPosInf hb
  cases op <;> simp [foldInf, isInfinity, h1, h2, h3, h4, h5, h6]

include hg in
theorem simplifyBase_sound {op : BinOp} (h1 : op ≠ .ne) (h2 : op ≠ .le) {a b : Expr} (ha : a.ok = true) (hb : b.ok = true) :
    eval m ρ (simplifyBase g op a b) = op.denote (eval m ρ a) (eval m ρ b) ∧ (simplifyBase g op a b).ok = true := by
  have key : ∀ a b : Expr, a.ok = true → b.ok = true → ∀ e,
      e = (match foldConsts op a b with
        | some e => e
        | none =>
          match foldInf op a b with
          | some e => e
          | none => (applyRules g (rulesOf op) (.bin op a b)).getD (mkBin op a b)) →
      eval m ρ e = op.denote (eval m ρ a) (eval m ρ b) ∧ e.ok = true := by
    intro a b ha hb e he
    split at he
    · next h => rw [he]; exact foldConsts_sound m ρ ha h
    · rw [foldInf_none ha hb] at he
      rw [he]
      have := applyRules_getD_sound m ρ hg (rulesOf_mem h1 h2) (e := .bin op a b) (e0 := mkBin op a b) (by simp [ha, hb])
        ⟨by rw [eval_mkBin]; simp [eval], by simp [ha, hb]⟩
      simpa [eval] using this
  by_cases hc : (op.comm && shouldCommute a b) = true
  · have := key b a hb ha (simplifyBase g op a b) (by unfold simplifyBase; rw [if_pos hc])
    rw [this.1, denote_comm (by simp at hc; exact hc.1)]
    exact ⟨rfl, this.2⟩
  · exact key a b ha hb (simplifyBase g op a b) (by unfold simplifyBase; rw [if_neg hc])

include hg in
/-- C14: simplifying `!a`. -/
theorem simplifyNot_sound {a : Expr} (ha : a.ok = true) :
    eval m ρ (simplifyNot g a) = eval m ρ (.not a) ∧ (simplifyNot g a).ok = true := by
  unfold simplifyNot
  split
  · next c hc =>
    have := asConst_eq hc; subst this
    by_cases h0 : c = 0 <;> simp [eval, b2i, h0]
  · exact applyRules_getD_sound m ρ hg (by simp [allTables]) (by simpa [Expr.ok] using ha) ⟨rfl, by simpa [Expr.ok] using ha⟩

include hg in
/-- C14, _partial only because of the guard `g` (11 rules have a side condition that the C++ does not check, see
`rewrite_correct_partial`): the simplified node has the value of the operator applied to the values of the operands. -/
theorem simplifyBin_sound_partial (op : BinOp) {a b : Expr} (ha : a.ok = true) (hb : b.ok = true) :
    eval m ρ (simplifyBin g op a b) = op.denote (eval m ρ a) (eval m ρ b) ∧ (simplifyBin g op a b).ok = true := by
  unfold simplifyBin
  split
  · have h := simplifyBase_sound m ρ hg (op := .lt) (by simp) (by simp) hb ha
    have h2 := simplifyNot_sound m ρ hg h.2
    refine ⟨?_, h2.2⟩
    rw [h2.1]
    simp only [eval, h.1, BinOp.denote, b2i]
    split <;> split <;> simp_all <;> omega
  · have h := simplifyBase_sound m ρ hg (op := .eq) (by simp) (by simp) ha hb
    have h2 := simplifyNot_sound m ρ hg h.2
    refine ⟨?_, h2.2⟩
    rw [h2.1]
    simp only [eval, h.1, BinOp.denote, b2i]
    split <;> simp_all
  · have hsub := simplifyBase_sound m ρ hg (op := .sub) (by simp) (by simp) ha hb
    split
    · next ca cb hca hcb =>
      have := asConst_eq hca; subst this
      have := asConst_eq hcb; subst this
      split
      · simp [eval, BinOp.denote]
      · split
        · have := simplifyBase_sound m ρ hg (op := .add) (by simp) (by simp) ha (b := .const (-cb)) (by simp)
          refine ⟨?_, this.2⟩
          rw [this.1]; simp [eval, BinOp.denote]; omega
        · exact hsub
    · next cb hca hcb =>
      have := asConst_eq hcb; subst this
      split
      · have := simplifyBase_sound m ρ hg (op := .add) (by simp) (by simp) ha (b := .const (-cb)) (by simp)
        refine ⟨?_, this.2⟩
        rw [this.1]; simp [eval, BinOp.denote]; omega
      · exact hsub
    · exact hsub
  · next h1 h2 _ => exact simplifyBase_sound m ρ hg (by simpa using h2) (by simpa using h1) ha hb

include hg in
/-- C14: simplifying a select. -/
theorem simplifySelect_sound_partial {c t f : Expr} (hc : c.ok = true) (ht : t.ok = true) (hf : f.ok = true) :
    eval m ρ (simplifySelect g c t f) = eval m ρ (.select c t f) ∧ (simplifySelect g c t f).ok = true := by
  unfold simplifySelect
  split
  · next h => exact ⟨by simp only [eval]; rw [if_pos ((isTrue_sound m ρ c).1 h)], ht⟩
  · split
    · next h => exact ⟨by simp only [eval]; rw [if_neg (by simp [(isTrue_sound m ρ c).2.1 h])], hf⟩
    · exact applyRules_getD_sound m ρ hg (by simp [allTables]) (by simp [Expr.ok, hc, ht, hf]) ⟨rfl, by simp [Expr.ok, hc, ht, hf]⟩

theorem constArgs_eval {as : Exprs} {cs : List Int} (h : constArgs as = some cs) : evalArgs m ρ as = cs.map some := by
  induction cs generalizing as with
  | nil =>
    cases as with
    | nil => rfl
    | cons e es =>
      simp only [constArgs, Option.bind_eq_bind, Option.bind_eq_some_iff] at h
      obtain ⟨c', hc', cs', hcs', h⟩ := h
      simp at h
  | cons c cs ih =>
    cases as with
    | nil => simp [constArgs] at h
    | cons e es =>
      simp only [constArgs, Option.bind_eq_bind, Option.bind_eq_some_iff] at h
      obtain ⟨c', hc', cs', hcs', h⟩ := h
      have := asConst_eq hc'; subst this
      cases h
      simp [evalArgs, Expr.defined, eval, ih hcs']

theorem denote_some (m m' : Mem) (hc : m.call = m'.call) (fn : Fn) (cs : List Int) :
    fn.denote m (cs.map some) = fn.denote m' (cs.map some) := by
  unfold Fn.denote
  split
  · rfl
  · simp
  · simp
  · rw [hc]

/-- The calls of semaphore operations have an even, non-zero, number of arguments, and the semaphores are defined. (The
evaluator asserts this, evaluate.cc:226-273.) -/
def SemArgs : Exprs → Prop
  | .nil => False
  | .cons a (.cons _ .nil) => a.defined = true
  | .cons a (.cons _ es) => a.defined = true ∧ SemArgs es
  | _ => False

theorem dropSems_id : ∀ {es : Exprs}, SemArgs es → dropSems es = es ∧ es ≠ .nil
  | .nil, h => by simp [SemArgs] at h
  | .cons a .nil, h => by simp [SemArgs] at h
  | .cons a (.cons b .nil), h => by
    have h : a.defined = true := by simpa [SemArgs] using h
    simp [dropSems, h]
  | .cons a (.cons b (.cons c es)), h => by
    have h : a.defined = true ∧ SemArgs (.cons c es) := by simpa [SemArgs] using h
    simp [dropSems, h.1, (dropSems_id h.2).1]

include hg in
theorem finishCall_sound {ev} (hev : m.call = ev) {fn : Fn} {orig args : Exprs} (hok : (Expr.call fn args).ok = true)
    (he : eval m ρ (.call fn args) = eval m ρ (.call fn orig)) :
    eval m ρ (finishCall ev g fn orig args) = eval m ρ (.call fn orig) ∧ (finishCall ev g fn orig args).ok = true := by
  unfold finishCall
  split
  · next cs hcs _ =>
    refine ⟨?_, by simp⟩
    simp only [eval, constArgs_eval m ρ hcs, evalConstCall]
    exact denote_some _ _ hev.symm fn cs
  · rw [← he]
    exact applyRules_getD_sound m ρ hg (by simp [allTables]) hok ⟨rfl, hok⟩

theorem ok_popUndef : ∀ {es : Exprs}, es.ok false = true → (popUndef es).ok false = true
  | .nil, _ => by simp [popUndef, Exprs.ok]
  | .cons e es, h => by
    simp only [Exprs.ok, Bool.and_eq_true] at h
    have ih := ok_popUndef h.2
    unfold popUndef
    split
    · split
      · next hd => simp [Exprs.ok]; simpa [hd] using h.1
      · simp [Exprs.ok]
    ·
      simp only [Exprs.ok, Bool.and_eq_true]
      exact ⟨h.1, ih⟩

theorem ok_bufAtArgs (z : Nat) : ∀ (d : Nat) {es : Exprs}, es.ok false = true →
    (bufAtArgs (fun _ => .undef) z d es).ok false = true
  | _, .nil, _ => by simp [bufAtArgs, Exprs.ok]
  | d, .cons e es, h => by
    simp only [Exprs.ok, Bool.and_eq_true] at h
    have ih := ok_bufAtArgs z (d + 1) h.2
    simp only [bufAtArgs, Exprs.ok, Bool.and_eq_true]
    refine ⟨?_, ih⟩
    split
    · simp [Expr.defined]
    · split
      · simp [Expr.defined]
      · exact h.1

theorem ok_padZero : ∀ {es : Exprs}, padArgs 0 es = es := by intro es; cases es <;> rfl

include hg in
/-- C14: simplifying a call. `ev` is the host's implementation of the functions, which is only used for calls with constant
arguments. -/
theorem simplifyCall_sound_partial (hm : BufferAtMin m) {ev} (hev : m.call = ev) {fn : Fn} {args : Exprs}
    (hok : (Expr.call fn args).ok = true) (hs : fn.isSem = true → SemArgs args) :
    eval m ρ (simplifyCall ev g fn args) = eval m ρ (.call fn args) ∧ (simplifyCall ev g fn args).ok = true := by
  unfold simplifyCall
  split
  · next hsem =>
    obtain ⟨h1, h2⟩ := dropSems_id (hs hsem)
    rw [h1]
    split
    · exact absurd rfl h2
    · exact finishCall_sound m ρ hg hev hok rfl
  · split
    · refine finishCall_sound m ρ hg hev ?_ ?_
      · unfold fixBufferAt
        split
        · next z i es =>
          simp only [Expr.ok, Exprs.ok, Fn.strict, Bool.and_eq_true] at hok ⊢
          refine ⟨⟨hok.1.1, by simp, ?_⟩, by simp⟩
          rw [ok_padZero]
          exact ok_popUndef (ok_bufAtArgs _ _ hok.1.2.2)
        · exact hok
      · simp only [eval]
        exact fixBufferAt_ok hm ρ _ _ (by simp [Expr.defined]) .bufferAt args
    · next a _ =>
      have ha : a.ok = true := by simp [Expr.ok, Exprs.ok, Fn.strict] at hok; exact hok.1.2
      have hd := ok_defined ha
      split
      · next h =>
        have := isNonNegative_ok m ρ ha h
        refine ⟨?_, ha⟩
        simp only [eval, evalArgs, hd, if_true, Fn.denote]; omega
      · split
        · next h =>
          have := isNonPositive_ok m ρ ha h
          have hsub := simplifyBin_sound_partial m ρ hg .sub (a := .const 0) (by simp) ha
          refine ⟨?_, hsub.2⟩
          rw [hsub.1]
          simp only [eval, evalArgs, hd, if_true, Fn.denote, BinOp.denote]; omega
        · exact finishCall_sound m ρ hg hev hok rfl
    · exact finishCall_sound m ρ hg hev hok rfl

end

/-! ### Without guard, for the rules without side conditions -/

/-- The guard that refuses the 11 rules with a side condition. -/
def gSafe : Rule → MCtx → Bool := fun r _ => sideFree r

theorem gSafe_ok (m : Mem) (ρ : Env) : GuardOK gSafe m ρ := by
  intro r c hr
  have : r.side = .none := by simpa [gSafe, sideFree] using hr
  rw [this]
  exact ⟨trivial, fun h => by cases h⟩

/-- C14: with the 468 rules that have no side condition, simplifying a binary operator never changes the value. -/
theorem simplifyBin_sound (m : Mem) (ρ : Env) (op : BinOp) {a b : Expr} (ha : a.ok = true) (hb : b.ok = true) :
    eval m ρ (simplifyBin gSafe op a b) = eval m ρ (.bin op a b) := by
  simpa [eval] using (simplifyBin_sound_partial m ρ (gSafe_ok m ρ) op ha hb).1

/-- C14: with the rules that have no side condition, simplifying a select never changes the value. -/
theorem simplifySelect_sound (m : Mem) (ρ : Env) {c t f : Expr} (hc : c.ok = true) (ht : t.ok = true) (hf : f.ok = true) :
    eval m ρ (simplifySelect gSafe c t f) = eval m ρ (.select c t f) :=
  (simplifySelect_sound_partial m ρ (gSafe_ok m ρ) hc ht hf).1

/-- C14: with the rules that have no side condition, simplifying a negation never changes the value. -/
theorem simplifyNot_sound' (m : Mem) (ρ : Env) {a : Expr} (ha : a.ok = true) :
    eval m ρ (simplifyNot gSafe a) = eval m ρ (.not a) :=
  (simplifyNot_sound m ρ (gSafe_ok m ρ) ha).1

/-- C14: with the rules that have no side condition, simplifying a call never changes the value. -/
theorem simplifyCall_sound (m : Mem) (ρ : Env) (hm : BufferAtMin m) {fn : Fn} {args : Exprs}
    (hok : (Expr.call fn args).ok = true) (hs : fn.isSem = true → SemArgs args) :
    eval m ρ (simplifyCall m.call gSafe fn args) = eval m ρ (.call fn args) :=
  (simplifyCall_sound_partial m ρ (gSafe_ok m ρ) hm rfl hok hs).1

/-! ### Finding: `buffer_at(b, buffer_min(b, d))` of a folded buffer -/

/-- evaluate.cc:207-224 `eval_buffer_at`: the loop over the dimensions; `r` is the address so far, 0 is the null pointer. -/
def bufferAtLoop : Int → List Dim → List (Option Int) → Int
  | r, d :: ds, some x :: xs => bufferAtLoop (if r ≠ 0 ∧ d.contains x = true then r + d.flatOffset x else 0) ds xs
  | r, _ :: ds, none :: xs => bufferAtLoop r ds xs
  | r, _, _ => r

/-- A memory where every pointer points to a buffer with base address 1000 and one dimension: the indices 1 and 2, folded
with a factor of 2. -/
def foldedMem : Mem :=
  ⟨fun _ f d => match f, d with
    | .rank, _ => 1
    | .min, 0 => 1
    | .max, 0 => 2
    | .stride, 0 => 4
    | .foldFactor, 0 => 2
    | _, _ => 0,
   fun f xs => match f with
    | .bufferAt => bufferAtLoop 1000 [⟨1, 2, 4, 2⟩] xs.tail
    | _ => 0, 0⟩

/-- C14 finding: simplify_exprs.cc:356-362 drops the argument of `buffer_at(b, buffer_min(b, 0))`. The comment says that this
is equivalent, but if the dimension is folded and its min is not a multiple of the fold factor, the two addresses are
different. (simplify.cc:1162-1169 does check that the dimension is not folded.) -/
theorem simplifyCall_folded_counterexample : ∃ args, (Expr.call .bufferAt args).ok = true ∧
    ∀ ρ, eval foldedMem ρ (.call .bufferAt args) = 1004 ∧
      eval foldedMem ρ (simplifyCall foldedMem.call gTrue .bufferAt args) = 1000 := by
  refine ⟨.cons (.v 0) (.cons (.var 0 .min 0) .nil), by decide, fun ρ => ⟨?_, ?_⟩⟩
  · simp [eval, evalArgs, Fn.denote, foldedMem, bufferAtLoop, Expr.defined, Expr.v, Dim.contains, Dim.flatOffset]
    decide
  · have h : simplifyCall foldedMem.call gTrue .bufferAt (.cons (.v 0) (.cons (.var 0 .min 0) .nil)) =
        .call .bufferAt (.cons (.v 0) .nil) := by decide +kernel
    rw [h]
    simp [eval, evalArgs, Fn.denote, foldedMem, bufferAtLoop, Expr.defined, Expr.v]

/-! ### Examples -/

example : simplifyBin gTrue .sub (.bin .add (.v 0) (.v 1)) (.v 0) = .v 1 := by decide +kernel
example : simplifyBin gTrue .sub (.v 0) (.const 3) = .bin .add (.v 0) (.const (-3)) := by decide +kernel
example : simplifyBin gTrue .le (.v 0) (.bin .max (.v 1) (.v 0)) = .const 1 := by decide +kernel
example : simplifyBin gTrue .sub (.const (- 2 ^ 63)) (.const 1) = .bin .add (.const (-2 ^ 63)) (.const (-1)) := by
  decide +kernel
example : simplifyCall (fun _ _ => 0) gTrue .bufferAt (.cons (.v 0) (.cons (.var 0 .min 0) .nil)) =
    .call .bufferAt (.cons (.v 0) .nil) := by decide +kernel
example : simplifyCall (fun _ _ => 0) gTrue .abs (.cons (.const (-5)) .nil) = .const 5 := by decide +kernel
example : SemArgs (.cons (.v 0) (.cons (.const 1) .nil)) := by simp [SemArgs, Expr.v, Expr.defined]

end Slinky
