import Verif.Subst
import Verif.DependsOnProps
import Verif.CompareProps

/-! # C10: substitution; part of C38: commutative operands -/

namespace Slinky

/-! ### Specification -/

/-- `buffer_at(b, ..)` has an implicit `buffer_min` for every undefined or missing argument (the comment at
substitute.cc:683). This holds for buffers whose dimensions are not empty and whose folds start at a multiple of the fold
factor; see `bufferAtMin_linear` below. -/
structure BufferAtMin (m : Mem) : Prop where
  min : ∀ b xs ys, m.call .bufferAt (some b :: (xs ++ some (m.field b .min (xs.length : Int)) :: ys)) =
    m.call .bufferAt (some b :: (xs ++ none :: ys))
  trail : ∀ b xs, m.call .bufferAt (some b :: (xs ++ [none])) = m.call .bufferAt (some b :: xs)

mutual
/-- The substitution of `r` for `t` in an expression is possible: fields of `t` are only read if `r` is a variable, and
`t` is not used in the scope of a let of a variable of `r` (that would capture it). -/
def SubstOK (t : Nat) (r : Expr) : Expr → Prop
  | .undef => True
  | .var y f _ => y = t → f ≠ .none → ∃ z d, r = .var z .none d
  | .const _ => True
  | .lets bs b => SubstOKBinds t r b (SubstOK t r b) bs
  | .bin _ a b => SubstOK t r a ∧ SubstOK t r b
  | .not a => SubstOK t r a
  | .select c u v => SubstOK t r c ∧ SubstOK t r u ∧ SubstOK t r v
  | .call _ as => SubstOKArgs t r as
/-- See `SubstOK`. -/
def SubstOKArgs (t : Nat) (r : Expr) : Exprs → Prop
  | .nil => True
  | .cons e es => SubstOK t r e ∧ SubstOKArgs t r es
/-- See `SubstOK`; `b` is the body and `P` says that it is ok. -/
def SubstOKBinds (t : Nat) (r : Expr) (b : Expr) (P : Prop) : Binds → Prop
  | .nil => P
  | .cons x e bs => SubstOK t r e ∧
      (x ≠ t → (FreeIn x r → ¬ FreeIn t (.lets bs b)) ∧ (¬ FreeIn x r → SubstOKBinds t r b P bs))
end

mutual
/-- The symbols declared anywhere in an expression. -/
def boundVars : Expr → List Nat
  | .undef => []
  | .var _ _ _ => []
  | .const _ => []
  | .lets bs b => boundBinds bs ++ boundVars b
  | .bin _ a b => boundVars a ++ boundVars b
  | .not a => boundVars a
  | .select c u v => boundVars c ++ boundVars u ++ boundVars v
  | .call _ as => boundArgs as
/-- See `boundVars`. -/
def boundArgs : Exprs → List Nat
  | .nil => []
  | .cons e es => boundVars e ++ boundArgs es
/-- See `boundVars`. -/
def boundBinds : Binds → List Nat
  | .nil => []
  | .cons x e bs => x :: (boundVars e ++ boundBinds bs)
end

mutual
/-- Every field of `t` that an expression reads (not in the scope of another declaration of `t`) satisfies `P`. -/
def FieldsOK (t : Nat) (P : Field → Int → Prop) : Expr → Prop
  | .undef => True
  | .var y f d => y = t → f ≠ .none → P f d
  | .const _ => True
  | .lets bs b => FieldsOKBinds t P (FieldsOK t P b) bs
  | .bin _ a b => FieldsOK t P a ∧ FieldsOK t P b
  | .not a => FieldsOK t P a
  | .select c u v => FieldsOK t P c ∧ FieldsOK t P u ∧ FieldsOK t P v
  | .call _ as => FieldsOKArgs t P as
/-- See `FieldsOK`. -/
def FieldsOKArgs (t : Nat) (P : Field → Int → Prop) : Exprs → Prop
  | .nil => True
  | .cons e es => FieldsOK t P e ∧ FieldsOKArgs t P es
/-- See `FieldsOK`. -/
def FieldsOKBinds (t : Nat) (P : Field → Int → Prop) (B : Prop) : Binds → Prop
  | .nil => B
  | .cons x e bs => FieldsOK t P e ∧ (x ≠ t → FieldsOKBinds t P B bs)
end

/-! ### Proofs -/

@[simp] theorem defined_undef : Expr.undef.defined = false := rfl
@[simp] theorem defined_var (x f d) : (Expr.var x f d).defined = true := rfl
@[simp] theorem defined_const (c) : (Expr.const c).defined = true := rfl
@[simp] theorem defined_lets (bs b) : (Expr.lets bs b).defined = true := rfl
@[simp] theorem defined_bin (op a b) : (Expr.bin op a b).defined = true := rfl
@[simp] theorem defined_not (a) : (Expr.not a).defined = true := rfl
@[simp] theorem defined_select (c t f) : (Expr.select c t f).defined = true := rfl
@[simp] theorem defined_call (f as) : (Expr.call f as).defined = true := rfl


theorem BinOp.denote_comm {op : BinOp} (h : op.comm = true) (a b : Int) : op.denote a b = op.denote b a := by
  cases op <;> simp [BinOp.comm] at h <;> simp only [BinOp.denote]
  · omega
  · exact Int.mul_comm a b
  · exact Int.min_comm a b
  · exact Int.max_comm a b
  · simp [eq_comm]
  · simp [ne_comm]
  · simp [and_comm]
  · simp [or_comm]

/-- C38: building a binary operator, which may reorder the operands, does not change the value. -/
theorem eval_mkBin (m : Mem) (ρ : Env) (op : BinOp) (a b : Expr) :
    eval m ρ (mkBin op a b) = op.denote (eval m ρ a) (eval m ρ b) := by
  unfold mkBin
  split
  · rename_i h
    simp at h
    rw [eval, BinOp.denote_comm h.1]
  · rw [eval]

theorem eval_rebuildBin (m : Mem) (ρ : Env) (op : BinOp) (a b a' b' : Expr) :
    eval m ρ (rebuildBin op a b a' b') = op.denote (eval m ρ a') (eval m ρ b') := by
  unfold rebuildBin
  split
  · rename_i h; rw [h.1, h.2, eval]
  · rw [eval_mkBin]

theorem defined_mkBin (op : BinOp) (a b : Expr) : (mkBin op a b).defined = true := by
  unfold mkBin; split <;> rfl
theorem defined_rebuildBin (op : BinOp) (a b a' b' : Expr) : (rebuildBin op a b a' b').defined = true := by
  unfold rebuildBin; split
  · rfl
  · exact defined_mkBin ..

mutual
/-- The value of an expression depends only on the variables that occur free in it. -/
theorem eval_congr_free (m : Mem) : ∀ (e : Expr) (ρ ρ' : Env), (∀ x, FreeIn x e → ρ x = ρ' x) → eval m ρ e = eval m ρ' e
  | .undef, _, _, _ => by simp [eval]
  | .var x f d, ρ, ρ', h => by
    have := h x (by simp [FreeIn])
    cases f <;> simp [eval, this]
  | .const _, _, _, _ => by simp [eval]
  | .lets bs b, ρ, ρ', h => by
    simp only [eval]
    apply eval_congr_free m b
    apply evalBinds_congr_free m bs ρ ρ' (fun x => FreeIn x b)
    · intro x hx; exact h x (Or.inl hx)
    · intro x hx hn; exact h x (Or.inr ⟨hn, hx⟩)
  | .bin _ a b, ρ, ρ', h => by
    simp only [eval]
    rw [eval_congr_free m a ρ ρ' (fun x hx => h x (Or.inl hx)), eval_congr_free m b ρ ρ' (fun x hx => h x (Or.inr hx))]
  | .not a, ρ, ρ', h => by
    simp only [eval]
    rw [eval_congr_free m a ρ ρ' h]
  | .select c u v, ρ, ρ', h => by
    simp only [eval]
    rw [eval_congr_free m c ρ ρ' (fun x hx => h x (Or.inl hx)),
      eval_congr_free m u ρ ρ' (fun x hx => h x (Or.inr (Or.inl hx))),
      eval_congr_free m v ρ ρ' (fun x hx => h x (Or.inr (Or.inr hx)))]
  | .call fn as, ρ, ρ', h => by
    simp only [eval]
    rw [evalArgs_congr_free m as ρ ρ' h]
theorem evalArgs_congr_free (m : Mem) : ∀ (es : Exprs) (ρ ρ' : Env), (∀ x, FreeInArgs x es → ρ x = ρ' x) →
    evalArgs m ρ es = evalArgs m ρ' es
  | .nil, _, _, _ => by simp [evalArgs]
  | .cons e es, ρ, ρ', h => by
    simp only [evalArgs]
    rw [eval_congr_free m e ρ ρ' (fun x hx => h x (Or.inl hx)), evalArgs_congr_free m es ρ ρ' (fun x hx => h x (Or.inr hx))]
theorem evalBinds_congr_free (m : Mem) : ∀ (bs : Binds) (ρ ρ' : Env) (S : Nat → Prop),
    (∀ x, FreeInBinds x bs → ρ x = ρ' x) → (∀ x, S x → x ∉ bs.syms → ρ x = ρ' x) →
    ∀ x, S x → evalBinds m ρ bs x = evalBinds m ρ' bs x
  | .nil, ρ, ρ', S, _, h2 => by
    intro x hx; simp only [evalBinds]; exact h2 x hx (by simp [Binds.syms])
  | .cons y e bs, ρ, ρ', S, h1, h2 => by
    simp only [evalBinds]
    have he := eval_congr_free m e ρ ρ' (fun x hx => h1 x (Or.inl hx))
    apply evalBinds_congr_free m bs _ _ S
    · intro x hx
      by_cases hxy : x = y
      · subst hxy; simp [he]
      · rw [Env.set_other _ hxy, Env.set_other _ hxy]
        exact h1 x (Or.inr ⟨hxy, hx⟩)
    · intro x hx hn
      by_cases hxy : x = y
      · subst hxy; simp [he]
      · rw [Env.set_other _ hxy, Env.set_other _ hxy]
        exact h2 x hx (by simp [Binds.syms, hxy, hn])
end

theorem eval_set_not_free (m : Mem) (e : Expr) (ρ : Env) (x : Nat) (v : Int) (h : ¬ FreeIn x e) :
    eval m (ρ.set x v) e = eval m ρ e := by
  apply eval_congr_free
  intro y hy
  apply Env.set_other
  rintro rfl; exact h hy

/-! #### `buffer_at` arguments -/

/-- Argument lists (from dimension `d`) that differ only by `buffer_min` arguments being made explicit or implicit. -/
inductive MinEq (mn : Int → Int) : Nat → List (Option Int) → List (Option Int) → Prop
  | nil (d) : MinEq mn d [] []
  | same (d x xs ys) : MinEq mn (d + 1) xs ys → MinEq mn d (x :: xs) (x :: ys)
  | drop (d xs ys) : MinEq mn (d + 1) xs ys → MinEq mn d (some (mn d) :: xs) (none :: ys)
  | add (d xs ys) : MinEq mn (d + 1) xs ys → MinEq mn d (none :: xs) (some (mn d) :: ys)

theorem MinEq.call {m : Mem} (hm : BufferAtMin m) (b : Int) {d : Nat} {xs ys : List (Option Int)}
    (h : MinEq (m.field b .min) d xs ys) : ∀ pre : List (Option Int), pre.length = d →
    m.call .bufferAt (some b :: (pre ++ xs)) = m.call .bufferAt (some b :: (pre ++ ys)) := by
  induction h with
  | nil => intros; rfl
  | same d x xs ys _ ih =>
    intro pre hp
    have := ih (pre ++ [x]) (by simp [hp])
    simpa using this
  | drop d xs ys _ ih =>
    intro pre hp
    have h1 := hm.min b pre xs
    rw [hp] at h1
    rw [h1]
    have := ih (pre ++ [none]) (by simp [hp])
    simpa using this
  | add d xs ys _ ih =>
    intro pre hp
    have h1 := hm.min b pre ys
    rw [hp] at h1
    rw [h1]
    have := ih (pre ++ [none]) (by simp [hp])
    simpa using this

theorem evalArgs_popUndef {m : Mem} (hm : BufferAtMin m) (b : Int) (ρ : Env) : ∀ (es : Exprs) (pre : List (Option Int)),
    m.call .bufferAt (some b :: (pre ++ evalArgs m ρ (popUndef es))) = m.call .bufferAt (some b :: (pre ++ evalArgs m ρ es))
  | .nil, _ => by simp [popUndef]
  | .cons e es, pre => by
    have ih := evalArgs_popUndef hm b ρ es (pre ++ [if e.defined then some (eval m ρ e) else none])
    cases hp : popUndef es with
    | nil =>
      have hpop : popUndef (.cons e es) = if e.defined then .cons e .nil else .nil := by simp [popUndef, hp]
      rw [hpop]
      simp only [hp, evalArgs, List.append_assoc, List.singleton_append, List.append_nil] at ih
      by_cases hd : e.defined = true
      · simp only [evalArgs, hd, if_true] at *; rw [← ih]
      · simp only [hd, if_false, Bool.false_eq_true, evalArgs] at *
        rw [← ih]
        simpa using (hm.trail b pre).symm
    | cons e' es' =>
      have hpop : popUndef (.cons e es) = .cons e (.cons e' es') := by simp [popUndef, hp]
      rw [hpop]
      simp only [hp, evalArgs, List.append_assoc, List.singleton_append] at *
      exact ih

theorem evalArgs_padArgs {m : Mem} (hm : BufferAtMin m) (b : Int) (ρ : Env) : ∀ (n : Nat) (es : Exprs) (pre : List (Option Int)),
    m.call .bufferAt (some b :: (pre ++ evalArgs m ρ (padArgs n es))) = m.call .bufferAt (some b :: (pre ++ evalArgs m ρ es))
  | 0, es, pre => by simp [padArgs]
  | n + 1, .nil, pre => by
    have ih := evalArgs_padArgs hm b ρ n .nil (pre ++ [none])
    simp only [padArgs, evalArgs, defined_undef, defined_var, defined_const, defined_lets, defined_bin, defined_not, defined_select, defined_call, List.append_nil] at *
    have h2 := hm.trail b pre
    simp only [List.append_assoc, List.singleton_append] at ih
    simp [ih, h2]
  | n + 1, .cons e es, pre => by
    have ih := evalArgs_padArgs hm b ρ n es (pre ++ [if e.defined then some (eval m ρ e) else none])
    simpa [padArgs, evalArgs] using ih

theorem evalArgs_bufAtArgs (m : Mem) (ρ : Env) (z : Nat) (rep : Nat → Expr)
    (hr : ∀ d, (rep d).defined = true → eval m ρ (rep d) = m.field (ρ z) .min d) : ∀ (d : Nat) (es : Exprs),
    MinEq (m.field (ρ z) .min) d (evalArgs m ρ es) (evalArgs m ρ (bufAtArgs rep z d es))
  | d, .nil => by simpa [bufAtArgs, evalArgs] using MinEq.nil d
  | d, .cons e es => by
    have ih := evalArgs_bufAtArgs m ρ z rep hr (d + 1) es
    simp only [bufAtArgs, evalArgs]
    by_cases he : e = .undef
    · subst he
      simp only [defined_undef, defined_var, defined_const, defined_lets, defined_bin, defined_not, defined_select, defined_call, if_true, if_false, Bool.false_eq_true]
      by_cases hd : (rep d).defined = true
      · simp only [hd, if_true, hr d hd]
        exact .add _ _ _ ih
      · simp only [hd, if_false, Bool.false_eq_true]
        exact .same _ _ _ _ ih
    · simp only [he, if_false]
      by_cases he2 : e = .var z .min d
      · subst he2
        simp only [defined_undef, defined_var, defined_const, defined_lets, defined_bin, defined_not, defined_select, defined_call, if_true, eval, if_false, Bool.false_eq_true]
        exact .drop _ _ _ ih
      · simp only [he2, if_false]
        exact .same _ _ _ _ ih

theorem fixBufferAt_ok {m : Mem} (hm : BufferAtMin m) (ρ : Env) (rank : Nat → Nat) (rep : Nat → Nat → Expr)
    (hr : ∀ z d, (rep z d).defined = true → eval m ρ (rep z d) = m.field (ρ z) .min d) (fn : Fn) (es : Exprs) :
    fn.denote m (evalArgs m ρ (fixBufferAt rank rep fn es)) = fn.denote m (evalArgs m ρ es) := by
  unfold fixBufferAt
  split
  · rename_i z i es
    simp only [Fn.denote, evalArgs, defined_undef, defined_var, defined_const, defined_lets, defined_bin, defined_not, defined_select, defined_call, if_true, eval]
    have h1 := evalArgs_popUndef hm (ρ z) ρ (bufAtArgs (rep z) z 0 (padArgs (rank z) es)) []
    have h2 := (evalArgs_bufAtArgs m ρ z (rep z) (hr z) 0 (padArgs (rank z) es)).call hm (ρ z) [] rfl
    have h3 := evalArgs_padArgs hm (ρ z) ρ (rank z) es []
    simp only [List.nil_append] at *
    rw [h1, ← h2, h3]
  · rfl

/-! #### Variables -/

theorem enterDecl_iff (t : Nat) (r : Expr) (hr : r.BufOK) (x : Nat) : enterDecl t r x = true ↔ x ≠ t ∧ ¬ FreeIn x r := by
  simp only [enterDecl, Bool.and_eq_true, decide_eq_true_eq, Bool.not_eq_true', ← dependsOn_precise r hr x]
  simp

mutual
theorem substE_main {m : Mem} (hm : BufferAtMin m) (t : Nat) (r : Expr) (hr : r.BufOK) (hd : r.defined = true) (v : Int) :
    ∀ (e : Expr), SubstOK t r e → (substE t r e).defined = e.defined ∧
      ∀ ρ : Env, eval m ρ r = v → eval m ρ (substE t r e) = eval m (ρ.set t v) e
  | .undef, _ => by simp [substE, defined_undef, defined_var, defined_const, defined_lets, defined_bin, defined_not, defined_select, defined_call, eval]
  | .var y f d, h => by
    by_cases hy : y = t
    · subst hy
      cases f
      case none =>
        simp only [substE, if_true, defined_undef, defined_var, defined_const, defined_lets, defined_bin, defined_not, defined_select, defined_call, hd, eval, Env.set_same, true_and]
        intro ρ h; exact h
      all_goals
        obtain ⟨z, d', rfl⟩ := h rfl (by simp)
        simp only [substE, if_true, defined_undef, defined_var, defined_const, defined_lets, defined_bin, defined_not, defined_select, defined_call, eval, Env.set_same, true_and]
        intro ρ h; rw [h]
    · simp only [substE, hy, if_false, defined_undef, defined_var, defined_const, defined_lets, defined_bin, defined_not, defined_select, defined_call, true_and]
      intro ρ _
      cases f <;> simp [eval, Env.set_other _ hy]
  | .const _, _ => by simp [substE, defined_undef, defined_var, defined_const, defined_lets, defined_bin, defined_not, defined_select, defined_call, eval]
  | .lets bs b, h => by
    refine ⟨by simp [substE, defined_undef, defined_var, defined_const, defined_lets, defined_bin, defined_not, defined_select, defined_call], ?_⟩
    intro ρ hv
    simp only [substE, eval]
    exact substBinds_main hm t r hr hd v bs b (SubstOK t r b)
      (fun hb => (substE_main hm t r hr hd v b hb).2) h ρ hv
  | .bin op a b, h => by
    have ha := (substE_main hm t r hr hd v a h.1).2
    have hb := (substE_main hm t r hr hd v b h.2).2
    refine ⟨by simp [substE, defined_rebuildBin, defined_undef, defined_var, defined_const, defined_lets, defined_bin, defined_not, defined_select, defined_call], ?_⟩
    intro ρ hv
    simp only [substE, eval_rebuildBin, eval, ha ρ hv, hb ρ hv]
  | .not a, h => by
    have ha := (substE_main hm t r hr hd v a h).2
    refine ⟨by simp [substE, defined_undef, defined_var, defined_const, defined_lets, defined_bin, defined_not, defined_select, defined_call], ?_⟩
    intro ρ hv
    simp only [substE, eval, ha ρ hv]
  | .select c x y, h => by
    have ha := (substE_main hm t r hr hd v c h.1).2
    have hb := (substE_main hm t r hr hd v x h.2.1).2
    have hc := (substE_main hm t r hr hd v y h.2.2).2
    refine ⟨by simp [substE, defined_undef, defined_var, defined_const, defined_lets, defined_bin, defined_not, defined_select, defined_call], ?_⟩
    intro ρ hv
    simp only [substE, eval, ha ρ hv, hb ρ hv, hc ρ hv]
  | .call fn as, h => by
    have ha := substArgs_main hm t r hr hd v as h
    refine ⟨by simp [substE, defined_undef, defined_var, defined_const, defined_lets, defined_bin, defined_not, defined_select, defined_call], ?_⟩
    intro ρ hv
    simp only [substE, eval]
    rw [fixBufferAt_ok hm ρ _ _ (by simp [defined_undef, defined_var, defined_const, defined_lets, defined_bin, defined_not, defined_select, defined_call]), ha ρ hv]
theorem substArgs_main {m : Mem} (hm : BufferAtMin m) (t : Nat) (r : Expr) (hr : r.BufOK) (hd : r.defined = true) (v : Int) :
    ∀ (es : Exprs), SubstOKArgs t r es →
      ∀ ρ : Env, eval m ρ r = v → evalArgs m ρ (substArgs t r es) = evalArgs m (ρ.set t v) es
  | .nil, _ => by simp [substArgs, evalArgs]
  | .cons e es, h => by
    obtain ⟨h1, h2⟩ := substE_main hm t r hr hd v e h.1
    have h3 := substArgs_main hm t r hr hd v es h.2
    intro ρ hv
    simp only [substArgs, evalArgs, h1, h2 ρ hv, h3 ρ hv]
theorem substBinds_main {m : Mem} (hm : BufferAtMin m) (t : Nat) (r : Expr) (hr : r.BufOK) (hd : r.defined = true) (v : Int) :
    ∀ (bs : Binds) (b : Expr) (P : Prop)
      (_ : P → ∀ ρ : Env, eval m ρ r = v → eval m ρ (substE t r b) = eval m (ρ.set t v) b),
      SubstOKBinds t r b P bs → ∀ ρ : Env, eval m ρ r = v →
      eval m (evalBinds m ρ (substBinds t r bs))
        (if bs.toList.all (fun p => enterDecl t r p.1) then substE t r b else b) =
        eval m (evalBinds m (ρ.set t v) bs) b
  | .nil, b, P, hb, h, ρ, hv => by
    simp only [substBinds, evalBinds, Binds.toList, List.all_nil, if_true]
    exact hb h ρ hv
  | .cons x e bs, b, P, hb, h, ρ, hv => by
    obtain ⟨h1, h2⟩ := h
    have he := (substE_main hm t r hr hd v e h1).2 ρ hv
    simp only [substBinds, evalBinds, Binds.toList, List.all_cons, he]
    by_cases hx : enterDecl t r x = true
    · obtain ⟨hxt, hxr⟩ := (enterDecl_iff t r hr x).mp hx
      simp only [hx, if_true, Bool.true_and]
      rw [substBinds_main hm t r hr hd v bs b P hb ((h2 hxt).2 hxr) _
        (by rw [eval_set_not_free _ _ _ _ _ hxr]; exact hv)]
      rw [Env.set_comm _ hxt]
    · simp only [hx, if_false, Bool.false_and, Bool.false_eq_true]
      by_cases hxt : x = t
      · subst hxt; rw [Env.set_set]
      · have hxr : FreeIn x r := by
          by_contra hc; exact hx ((enterDecl_iff t r hr x).mpr ⟨hxt, hc⟩)
        have hnf := (h2 hxt).1 hxr
        have := eval_set_not_free m (.lets bs b) (ρ.set x (eval m (ρ.set t v) e)) t v hnf
        simp only [eval] at this
        rw [← this, Env.set_comm _ hxt]
end

/-! #### Buffers -/

mutual
theorem substBufE_main {m : Mem} (hm : BufferAtMin m) (t : Nat) (R : Field → Int → Expr) (n : Nat) (p : Int) :
    ∀ (e : Expr) (_ : FieldsOK t (fun f d => (R f d).defined = true) e) (ρ : Env) (_ : ρ t = p)
      (_ : ∀ ρ' : Env, (∀ x, x ∉ boundVars e → ρ' x = ρ x) → ρ' t = p → ∀ f d, (R f d).defined = true → eval m ρ' (R f d) = m.field p f d),
    (substBufE t R n e).defined = e.defined ∧ eval m ρ (substBufE t R n e) = eval m ρ e
  | .undef, _, _, _, _ => by simp [substBufE]
  | .var y f d, h, ρ, hp, hR => by
    by_cases hy : y = t ∧ f ≠ .none
    · obtain ⟨rfl, hf⟩ := hy
      have h1 := h rfl hf
      simp only [substBufE, ne_eq, hf, not_false_eq_true, and_self, if_true, h1, defined_undef, defined_var, defined_const, defined_lets, defined_bin, defined_not, defined_select, defined_call, true_and]
      rw [hR ρ (fun _ _ => rfl) hp f d h1]
      cases f <;> simp_all [eval]
    · simp [substBufE, hy]
  | .const _, _, _, _, _ => by simp [substBufE]
  | .lets bs b, h, ρ, hp, hR => by
    refine ⟨by simp [substBufE, defined_undef, defined_var, defined_const, defined_lets, defined_bin, defined_not, defined_select, defined_call], ?_⟩
    simp only [substBufE, eval]
    exact substBufBinds_main hm t R n p bs b (FieldsOK t _ b) (fun h ρ hp hR => (substBufE_main hm t R n p b h ρ hp hR).2) h ρ hp
      (by simpa [boundVars] using hR)
  | .bin op a b, h, ρ, hp, hR => by
    have ha := (substBufE_main hm t R n p a h.1 ρ hp (fun ρ' hρ => hR ρ' (fun x hx => hρ x (by simp_all [boundVars])))).2
    have hb := (substBufE_main hm t R n p b h.2 ρ hp (fun ρ' hρ => hR ρ' (fun x hx => hρ x (by simp_all [boundVars])))).2
    refine ⟨by simp [substBufE, defined_rebuildBin, defined_undef, defined_var, defined_const, defined_lets, defined_bin, defined_not, defined_select, defined_call], ?_⟩
    simp only [substBufE, eval_rebuildBin, eval, ha, hb]
  | .not a, h, ρ, hp, hR => by
    have ha := (substBufE_main hm t R n p a h ρ hp (fun ρ' hρ => hR ρ' (fun x hx => hρ x (by simp_all [boundVars])))).2
    refine ⟨by simp [substBufE, defined_undef, defined_var, defined_const, defined_lets, defined_bin, defined_not, defined_select, defined_call], ?_⟩
    simp only [substBufE, eval, ha]
  | .select c u w, h, ρ, hp, hR => by
    have ha := (substBufE_main hm t R n p c h.1 ρ hp (fun ρ' hρ => hR ρ' (fun x hx => hρ x (by simp_all [boundVars])))).2
    have hb := (substBufE_main hm t R n p u h.2.1 ρ hp (fun ρ' hρ => hR ρ' (fun x hx => hρ x (by simp_all [boundVars])))).2
    have hc := (substBufE_main hm t R n p w h.2.2 ρ hp (fun ρ' hρ => hR ρ' (fun x hx => hρ x (by simp_all [boundVars])))).2
    refine ⟨by simp [substBufE, defined_undef, defined_var, defined_const, defined_lets, defined_bin, defined_not, defined_select, defined_call], ?_⟩
    simp only [substBufE, eval, ha, hb, hc]
  | .call fn as, h, ρ, hp, hR => by
    have ha := substBufArgs_main hm t R n p as h ρ hp (by simpa [boundVars] using hR)
    refine ⟨by simp [substBufE, defined_undef, defined_var, defined_const, defined_lets, defined_bin, defined_not, defined_select, defined_call], ?_⟩
    simp only [substBufE, eval]
    rw [fixBufferAt_ok hm ρ, ha]
    intro z d
    by_cases hz : z = t
    · subst hz; simp only [if_true]
      intro hd; rw [hp]; exact hR ρ (fun _ _ => rfl) hp _ _ hd
    · simp [hz, defined_undef, defined_var, defined_const, defined_lets, defined_bin, defined_not, defined_select, defined_call]
theorem substBufArgs_main {m : Mem} (hm : BufferAtMin m) (t : Nat) (R : Field → Int → Expr) (n : Nat) (p : Int) :
    ∀ (es : Exprs) (_ : FieldsOKArgs t (fun f d => (R f d).defined = true) es) (ρ : Env) (_ : ρ t = p)
      (_ : ∀ ρ' : Env, (∀ x, x ∉ boundArgs es → ρ' x = ρ x) → ρ' t = p → ∀ f d, (R f d).defined = true → eval m ρ' (R f d) = m.field p f d),
    evalArgs m ρ (substBufArgs t R n es) = evalArgs m ρ es
  | .nil, _, _, _, _ => by simp [substBufArgs, evalArgs]
  | .cons e es, h, ρ, hp, hR => by
    obtain ⟨h1, h2⟩ := substBufE_main hm t R n p e h.1 ρ hp (fun ρ' hρ => hR ρ' (fun x hx => hρ x (by simp_all [boundArgs])))
    have h3 := substBufArgs_main hm t R n p es h.2 ρ hp (fun ρ' hρ => hR ρ' (fun x hx => hρ x (by simp_all [boundArgs])))
    simp only [substBufArgs, evalArgs, h1, h2, h3]
theorem substBufBinds_main {m : Mem} (hm : BufferAtMin m) (t : Nat) (R : Field → Int → Expr) (n : Nat) (p : Int) :
    ∀ (bs : Binds) (b : Expr) (P : Prop)
      (_ : P → ∀ ρ : Env, ρ t = p → (∀ ρ' : Env, (∀ x, x ∉ boundVars b → ρ' x = ρ x) → ρ' t = p → ∀ f d, (R f d).defined = true →
        eval m ρ' (R f d) = m.field p f d) → eval m ρ (substBufE t R n b) = eval m ρ b)
      (_ : FieldsOKBinds t (fun f d => (R f d).defined = true) P bs) (ρ : Env) (_ : ρ t = p)
      (_ : ∀ ρ' : Env, (∀ x, x ∉ boundBinds bs ++ boundVars b → ρ' x = ρ x) → ρ' t = p → ∀ f d, (R f d).defined = true →
        eval m ρ' (R f d) = m.field p f d),
      eval m (evalBinds m ρ (substBufBinds t R n bs))
        (if bs.toList.all (fun p => p.1 ≠ t) then substBufE t R n b else b) = eval m (evalBinds m ρ bs) b
  | .nil, b, P, hb, h, ρ, hp, hR => by
    simp only [substBufBinds, evalBinds, Binds.toList, List.all_nil, if_true]
    exact hb h ρ hp (by simpa [boundBinds] using hR)
  | .cons x e bs, b, P, hb, h, ρ, hp, hR => by
    obtain ⟨h1, h2⟩ := h
    have he := (substBufE_main hm t R n p e h1 ρ hp (fun ρ' hρ => hR ρ' (fun x hx => hρ x (by simp_all [boundBinds])))).2
    simp only [substBufBinds, evalBinds, Binds.toList, List.all_cons, he]
    by_cases hx : x ≠ t
    · simp only [hx, ne_eq, not_false_eq_true, if_true, decide_true, Bool.true_and]
      apply substBufBinds_main hm t R n p bs b P hb (h2 hx)
      · rw [Env.set_other _ (Ne.symm hx)]; exact hp
      · intro ρ' hρ hp' f d hd
        refine hR ρ' (fun y hy => ?_) hp' f d hd
        simp only [boundBinds, List.cons_append, List.append_assoc, List.mem_cons, List.mem_append, not_or] at hy
        rw [hρ y (by simp_all), Env.set_other _ hy.1]
    · simp only [hx, if_false, decide_false, Bool.false_and, Bool.false_eq_true]
end

/-! #### Expressions -/

mutual
theorem substExpr_main (m : Mem) (t r : Expr) (hd : t.defined = r.defined) : ∀ (e : Expr) (ρ : Env),
    (∀ ρ' : Env, (∀ x, x ∉ boundVars e → ρ' x = ρ x) → eval m ρ' t = eval m ρ' r) →
    (substExpr t r e).defined = e.defined ∧ eval m ρ (substExpr t r e) = eval m ρ e
  | .undef, ρ, h => by
    simp only [substExpr]; split
    · rename_i he; rw [match_iff] at he; subst he; exact ⟨hd.symm, (h ρ (fun _ _ => rfl)).symm⟩
    · exact ⟨rfl, rfl⟩
  | .var _ _ _, ρ, h => by
    simp only [substExpr]; split
    · rename_i he; rw [match_iff] at he; subst he; exact ⟨hd.symm, (h ρ (fun _ _ => rfl)).symm⟩
    · exact ⟨rfl, rfl⟩
  | .const _, ρ, h => by
    simp only [substExpr]; split
    · rename_i he; rw [match_iff] at he; subst he; exact ⟨hd.symm, (h ρ (fun _ _ => rfl)).symm⟩
    · exact ⟨rfl, rfl⟩
  | .lets bs b, ρ, h => by
    simp only [substExpr]; split
    · rename_i he; rw [match_iff] at he; subst he; exact ⟨hd.symm, (h ρ (fun _ _ => rfl)).symm⟩
    · refine ⟨rfl, ?_⟩
      simp only [eval]
      have h1 := substExprBinds_main m t r hd bs ρ (fun ρ' hρ => h ρ' (fun x hx => hρ x (by simp_all [boundVars])))
      rw [h1]
      refine (substExpr_main m t r hd b _ (fun ρ' hρ => h ρ' (fun x hx => ?_))).2
      simp only [boundVars, List.mem_append, not_or] at hx
      rw [hρ x hx.2, evalBinds_not_bound m bs ρ x hx.1]
  | .bin op a b, ρ, h => by
    simp only [substExpr]; split
    · rename_i he; rw [match_iff] at he; subst he; exact ⟨hd.symm, (h ρ (fun _ _ => rfl)).symm⟩
    · refine ⟨defined_rebuildBin .., ?_⟩
      have ha := (substExpr_main m t r hd a ρ (fun ρ' hρ => h ρ' (fun x hx => hρ x (by simp_all [boundVars])))).2
      have hb := (substExpr_main m t r hd b ρ (fun ρ' hρ => h ρ' (fun x hx => hρ x (by simp_all [boundVars])))).2
      rw [eval_rebuildBin, eval, ha, hb]
  | .not a, ρ, h => by
    simp only [substExpr]; split
    · rename_i he; rw [match_iff] at he; subst he; exact ⟨hd.symm, (h ρ (fun _ _ => rfl)).symm⟩
    · refine ⟨rfl, ?_⟩
      have ha := (substExpr_main m t r hd a ρ (fun ρ' hρ => h ρ' (fun x hx => hρ x (by simp_all [boundVars])))).2
      rw [eval, eval, ha]
  | .select c u v, ρ, h => by
    simp only [substExpr]; split
    · rename_i he; rw [match_iff] at he; subst he; exact ⟨hd.symm, (h ρ (fun _ _ => rfl)).symm⟩
    · refine ⟨rfl, ?_⟩
      have ha := (substExpr_main m t r hd c ρ (fun ρ' hρ => h ρ' (fun x hx => hρ x (by simp_all [boundVars])))).2
      have hb := (substExpr_main m t r hd u ρ (fun ρ' hρ => h ρ' (fun x hx => hρ x (by simp_all [boundVars])))).2
      have hc := (substExpr_main m t r hd v ρ (fun ρ' hρ => h ρ' (fun x hx => hρ x (by simp_all [boundVars])))).2
      rw [eval, eval, ha, hb, hc]
  | .call fn as, ρ, h => by
    simp only [substExpr]; split
    · rename_i he; rw [match_iff] at he; subst he; exact ⟨hd.symm, (h ρ (fun _ _ => rfl)).symm⟩
    · refine ⟨rfl, ?_⟩
      have ha := substExprArgs_main m t r hd as ρ (by simpa [boundVars] using h)
      rw [eval, eval, ha]
theorem substExprArgs_main (m : Mem) (t r : Expr) (hd : t.defined = r.defined) : ∀ (es : Exprs) (ρ : Env),
    (∀ ρ' : Env, (∀ x, x ∉ boundArgs es → ρ' x = ρ x) → eval m ρ' t = eval m ρ' r) →
    evalArgs m ρ (substExprArgs t r es) = evalArgs m ρ es
  | .nil, _, _ => rfl
  | .cons e es, ρ, h => by
    obtain ⟨h1, h2⟩ := substExpr_main m t r hd e ρ (fun ρ' hρ => h ρ' (fun x hx => hρ x (by simp_all [boundArgs])))
    have h3 := substExprArgs_main m t r hd es ρ (fun ρ' hρ => h ρ' (fun x hx => hρ x (by simp_all [boundArgs])))
    simp only [substExprArgs, evalArgs, h1, h2, h3]
theorem substExprBinds_main (m : Mem) (t r : Expr) (hd : t.defined = r.defined) : ∀ (bs : Binds) (ρ : Env),
    (∀ ρ' : Env, (∀ x, x ∉ boundBinds bs → ρ' x = ρ x) → eval m ρ' t = eval m ρ' r) →
    evalBinds m ρ (substExprBinds t r bs) = evalBinds m ρ bs
  | .nil, _, _ => rfl
  | .cons x e bs, ρ, h => by
    have h1 := (substExpr_main m t r hd e ρ (fun ρ' hρ => h ρ' (fun x hx => hρ x (by simp_all [boundBinds])))).2
    simp only [substExprBinds, evalBinds, h1]
    apply substExprBinds_main m t r hd bs
    intro ρ' hρ
    refine h ρ' (fun y hy => ?_)
    simp only [boundBinds, List.mem_cons, List.mem_append, not_or] at hy
    rw [hρ y hy.2.2, Env.set_other _ hy.1]
theorem evalBinds_not_bound (m : Mem) : ∀ (bs : Binds) (ρ : Env) (x : Nat), x ∉ boundBinds bs → evalBinds m ρ bs x = ρ x
  | .nil, _, _, _ => rfl
  | .cons y e bs, ρ, x, h => by
    simp only [boundBinds, List.mem_cons, List.mem_append, not_or] at h
    rw [evalBinds, evalBinds_not_bound m bs _ x h.2.2, Env.set_other _ h.1]
end

/-! ### Properties -/

/-- C10: the value of `substitute(e, t, r)` is the value of `e` with `t` bound to the value of `r`, provided the
substitution makes sense (`SubstOK`: no capture, and the fields of `t` are only read if `r` is a variable). `_partial`:
if a let captures a variable of `r`, the C++ silently leaves `t` in place (`substitute_capture_counterexample`). -/
theorem substitute_correct_partial (m : Mem) (hm : BufferAtMin m) (e : Expr) (t : Nat) (r : Expr) (hr : r.BufOK)
    (hd : r.defined = true) (h : SubstOK t r e) (ρ : Env) :
    eval m ρ (substitute e t r) = eval m (ρ.set t (eval m ρ r)) e := by
  unfold substitute
  split
  · split
    · rename_i hz; subst hz; simp [eval, Env.set_self]
    · exact (substE_main hm t _ hr hd _ e h).2 ρ rfl
  · exact (substE_main hm t _ hr hd _ e h).2 ρ rfl

/-- C10: substituting the metadata of a buffer: if the expressions substituted for the fields have the values of those
fields of the buffer `t` (wherever `e` may read them: under any values of the variables declared in `e` itself), then
the value of the expression is unchanged. -/
theorem substituteBuffer_correct (m : Mem) (hm : BufferAtMin m) (e : Expr) (t : Nat) (elemSize : Expr)
    (dims : List DimExpr) (dflt : Option Nat) (ρ : Env)
    (hdef : FieldsOK t (fun f d => (bufRepl elemSize dims dflt f d).defined = true) e)
    (hR : ∀ ρ' : Env, (∀ x, x ∉ boundVars e → ρ' x = ρ x) → ρ' t = ρ t → ∀ f d, (bufRepl elemSize dims dflt f d).defined = true →
      eval m ρ' (bufRepl elemSize dims dflt f d) = m.field (ρ t) f d) :
    eval m ρ (substituteBuffer e t elemSize dims dflt) = eval m ρ e :=
  (substBufE_main hm t _ _ (ρ t) e hdef ρ rfl hR).2

/-- C10: replacing every occurrence of a subexpression by one with the same value (under any values of the variables
declared inside `e`) preserves the value. -/
theorem substituteExpr_correct (m : Mem) (e t r : Expr) (ρ : Env) (hd : t.defined = r.defined)
    (h : ∀ ρ' : Env, (∀ x, x ∉ boundVars e → ρ' x = ρ x) → eval m ρ' t = eval m ρ' r) :
    eval m ρ (substExpr t r e) = eval m ρ e :=
  (substExpr_main m t r hd e ρ h).2

/-- `substitute(let y = 1 in x + y, x, y)` leaves `x` in place: the result does not have the value of the expression with
`x` bound to `y`. -/
theorem substitute_capture_counterexample :
    ∃ (m : Mem) (_ : BufferAtMin m) (e r : Expr) (t : Nat) (ρ : Env), r.BufOK ∧ r.defined = true ∧
      eval m ρ (substitute e t r) ≠ eval m (ρ.set t (eval m ρ r)) e := by
  refine ⟨Mem.zero, ⟨fun _ _ _ => rfl, fun _ _ => rfl⟩, .lets (.cons 1 (.const 1) .nil) (.bin .add (.v 0) (.v 1)), .v 1, 0,
    fun x => if x = 1 then 5 else 0, by simp [Expr.v, Expr.BufOK], rfl, ?_⟩
  have h : substitute (.lets (.cons 1 (.const 1) .nil) (.bin .add (.v 0) (.v 1))) 0 (.v 1) =
    (.lets (.cons 1 (.const 1) .nil) (.bin .add (.v 0) (.v 1))) := by rfl
  rw [h]
  simp [eval, evalBinds, Env.set, Expr.v, BinOp.denote]

/-- `substitute_buffer` has no capture check: substituting `buffer_min(b, 0) := y` in `let y = 7 in buffer_min(b, 0)`
changes the value even though `buffer_min(b, 0)` has the value of `y` outside. -/
theorem substituteBuffer_capture_counterexample :
    ∃ (m : Mem) (_ : BufferAtMin m) (e : Expr) (t : Nat) (dims : List DimExpr) (ρ : Env),
      (∀ f d, (bufRepl .undef dims none f d).defined = true → eval m ρ (bufRepl .undef dims none f d) = m.field (ρ t) f d) ∧
      eval m ρ (substituteBuffer e t .undef dims none) ≠ eval m ρ e := by
  refine ⟨⟨fun _ f _ => if f = .rank then 1 else 0, fun _ _ => 0, 0⟩, ⟨fun _ _ _ => rfl, fun _ _ => rfl⟩,
    .lets (.cons 1 (.const 7) .nil) (.var 0 .min 0), 0, [⟨.v 1, .undef, .undef, .undef⟩], fun _ => 0, ?_, ?_⟩
  · intro f d h
    by_cases hd : d < 1
    · have hz : d.toNat = 0 := by omega
      cases f <;> simp [bufRepl, eval, Expr.v, hd, hz, DimExpr.getField] at h ⊢
    · cases f <;> simp [bufRepl, eval, Expr.v, hd] at h ⊢
  · have h : substituteBuffer (.lets (.cons 1 (.const 7) .nil) (.var 0 .min 0)) 0 .undef [⟨.v 1, .undef, .undef, .undef⟩] none
      = .lets (.cons 1 (.const 7) .nil) (.v 1) := by rfl
    rw [h]
    simp [eval, evalBinds, Env.set, Expr.v]

/-! ### The hypotheses are satisfiable -/

/-- Address computation of `buffer_at` for (non-empty, unfolded) buffers from their fields (buffer.h, evaluate.cc:207-224):
`base + sum over the defined arguments of (x_d - min_d) * stride_d`. Here the base is taken to be the pointer itself. -/
def linearBufferAt (field : Int → Field → Int → Int) (b : Int) : Nat → List (Option Int) → Int
  | _, [] => 0
  | d, none :: xs => linearBufferAt field b (d + 1) xs
  | d, some x :: xs => (x - field b .min d) * field b .stride d + linearBufferAt field b (d + 1) xs

/-- A memory whose `buffer_at` is the address computation of unfolded buffers satisfies `BufferAtMin`. -/
theorem bufferAtMin_linear (field : Int → Field → Int → Int) (u : Int) :
    BufferAtMin ⟨field, fun f as => match f, as with
      | .bufferAt, some b :: xs => b + linearBufferAt field b 0 xs | _, _ => 0, u⟩ := by
  have key : ∀ (b : Int) (ys : List (Option Int)) (xs : List (Option Int)) (d : Nat),
      linearBufferAt field b d (xs ++ some (field b .min ((d + xs.length : Nat) : Int)) :: ys) =
        linearBufferAt field b d (xs ++ none :: ys) := by
    intro b ys xs
    induction xs with
    | nil => intro d; simp [linearBufferAt]
    | cons x xs ih =>
      intro d
      have := ih (d + 1)
      rw [show d + 1 + xs.length = d + (x :: xs).length by simp; omega] at this
      cases x <;> simp only [List.cons_append, linearBufferAt, this]
  have key2 : ∀ (b : Int) (xs : List (Option Int)) (d : Nat),
      linearBufferAt field b d (xs ++ [none]) = linearBufferAt field b d xs := by
    intro b xs
    induction xs with
    | nil => intro d; simp [linearBufferAt]
    | cons x xs ih => intro d; cases x <;> simp [linearBufferAt, ih]
  constructor
  · intro b xs ys
    have := key b ys xs 0
    simp only [Nat.zero_add] at this
    simp [this]
  · intro b xs; simp [key2]

example : SubstOK 0 (.bin .add (.v 2) (.const 1)) (.lets (.cons 1 (.v 0) .nil) (.bin .mul (.v 0) (.v 1))) := by
  simp [SubstOK, SubstOKBinds, FreeIn, Expr.v]
example : substitute (.lets (.cons 1 (.v 0) .nil) (.bin .mul (.v 0) (.v 1))) 0 (.bin .add (.v 2) (.const 1)) =
    (.lets (.cons 1 (.bin .add (.v 2) (.const 1)) .nil) (.bin .mul (.v 1) (.bin .add (.v 2) (.const 1)))) := by rfl
/-- Shadowing stops the substitution. -/
example : substitute (.lets (.cons 0 (.v 0) .nil) (.v 0)) 0 (.const 4) = .lets (.cons 0 (.const 4) .nil) (.v 0) := by rfl
/-- The implicit `buffer_min` argument of `buffer_at(b)` becomes explicit. -/
example : substituteBuffer (.call .bufferAt (.cons (.v 0) .nil)) 0 .undef [⟨.v 5, .undef, .undef, .undef⟩] none =
    .call .bufferAt (.cons (.v 0) (.cons (.v 5) .nil)) := by rfl
example : FieldsOK 0 (fun f d => (bufRepl .undef [⟨.v 5, .undef, .undef, .undef⟩] none f d).defined = true)
    (.bin .add (.var 0 .min 0) (.v 1)) := by
  simp [FieldsOK, bufRepl, DimExpr.getField, Expr.defined, Expr.v]

end Slinky
