import Verif.ImplementCopy
import Verif.SubstProps
import Verif.Ok
import Verif.SemEval
import Mathlib.Tactic.Ring
import Mathlib.Tactic.Linarith

/-!
# The parts of `implement_copy`: `is_linear`, the substitution of the other indices, `is_copy`
-/

namespace Slinky

theorem wf_mkBin {op : BinOp} {a b : Expr} (ha : a.WF) (hb : b.WF) : (mkBin op a b).WF := by
  unfold mkBin
  split
  · exact ⟨hb, ha⟩
  · exact ⟨ha, hb⟩

theorem wf_const {c : Int} (h : InRange 64 c) : (Expr.const c).WF := h

/-! ### Substitution -/

mutual
/-- No lets, no `buffer_at`, and the symbols of `X` are numbers, not buffers. -/
def Expr.Plain (X : List Nat) : Expr → Prop
  | .undef => True
  | .var x f _ => f = .none ∨ x ∉ X
  | .const _ => True
  | .lets _ _ => False
  | .bin _ a b => a.Plain X ∧ b.Plain X
  | .not a => a.Plain X
  | .select c t f => c.Plain X ∧ t.Plain X ∧ f.Plain X
  | .call fn as => fn ≠ .bufferAt ∧ as.Plain X
/-- See `Expr.Plain`. -/
def Exprs.Plain (X : List Nat) : Exprs → Prop
  | .nil => True
  | .cons e es => e.Plain X ∧ es.Plain X
end

theorem fixBufferAt_other {rank : Nat → Nat} {rep : Nat → Nat → Expr} {fn : Fn} (h : fn ≠ .bufferAt) (es : Exprs) : fixBufferAt rank rep fn es = es := by
  cases fn <;> first | rfl | exact absurd rfl h

mutual
theorem substP_defined (t : Nat) {r : Expr} (hr : r.defined = true) {X : List Nat} (ht : t ∈ X) : ∀ (e : Expr), e.Plain X → (substE t r e).defined = e.defined
  | .undef, _ => by simp [substE]
  | .var y f d, h => by
    simp only [substE]
    split
    · next hy =>
      subst hy
      simp only [Expr.Plain, ht, not_true_eq_false, or_false] at h
      subst h
      simpa using hr
    · rfl
  | .const _, _ => by simp [substE]
  | .lets _ _, h => h.elim
  | .bin op a b, h => by rw [substE, defined_rebuildBin]; rfl
  | .not a, h => by simp [substE, Expr.defined]
  | .select c a b, h => by simp [substE, Expr.defined]
  | .call fn as, h => by simp [substE, Expr.defined]
end

mutual
/-- The value after a substitution. -/
theorem substP_plain (m : Mem) (t : Nat) {r : Expr} (hr : r.defined = true) {X : List Nat} (ht : t ∈ X) : ∀ (e : Expr), e.Plain X → ∀ env : Env,
    eval m env (substE t r e) = eval m (env.set t (eval m env r)) e
  | .undef, _, env => by simp [substE, eval]
  | .var y f d, h, env => by
    simp only [substE]
    split
    · next hy =>
      subst hy
      simp only [Expr.Plain, ht, not_true_eq_false, or_false] at h
      subst h
      simp [eval]
    · next hy =>
      cases f <;> simp [eval, Env.set, hy]
  | .const _, _, env => by simp [substE, eval]
  | .lets _ _, h, _ => h.elim
  | .bin op a b, h, env => by
    simp only [substE, eval_rebuildBin, eval, substP_plain m t hr ht a h.1 env, substP_plain m t hr ht b h.2 env]
  | .not a, h, env => by simp only [substE, eval, substP_plain m t hr ht a h env]
  | .select c a b, h, env => by
    simp only [substE, eval, substP_plain m t hr ht c h.1 env, substP_plain m t hr ht a h.2.1 env, substP_plain m t hr ht b h.2.2 env]
  | .call fn as, h, env => by
    simp only [substE, fixBufferAt_other h.1, eval, substPArgs_plain m t hr ht as h.2 env]
theorem substPArgs_plain (m : Mem) (t : Nat) {r : Expr} (hr : r.defined = true) {X : List Nat} (ht : t ∈ X) : ∀ (es : Exprs), es.Plain X → ∀ env : Env,
    evalArgs m env (substArgs t r es) = evalArgs m (env.set t (eval m env r)) es
  | .nil, _, env => by simp [substArgs, evalArgs]
  | .cons e es, h, env => by
    simp only [substArgs, evalArgs, substP_defined t hr ht e h.1, substP_plain m t hr ht e h.1 env, substPArgs_plain m t hr ht es h.2 env]
end

theorem rebuildBin_wf {op : BinOp} {a b a' b' : Expr} (ha : a'.WF) (hb : b'.WF) : (rebuildBin op a b a' b').WF := by
  unfold rebuildBin
  split
  · next h => obtain ⟨rfl, rfl⟩ := h; exact ⟨ha, hb⟩
  · exact wf_mkBin ha hb

theorem rebuildBin_okP {op : BinOp} {a b a' b' : Expr} (ha : a'.ok = true) (hb : b'.ok = true) : (rebuildBin op a b a' b').ok = true := by
  unfold rebuildBin
  split
  · next h => obtain ⟨rfl, rfl⟩ := h; simp [ha, hb]
  · simp [ha, hb]

theorem rebuildBin_plain {X : List Nat} {op : BinOp} {a b a' b' : Expr} (ha : a'.Plain X) (hb : b'.Plain X) : (rebuildBin op a b a' b').Plain X := by
  unfold rebuildBin mkBin
  split
  · next h => obtain ⟨rfl, rfl⟩ := h; exact ⟨ha, hb⟩
  · split
    · exact ⟨hb, ha⟩
    · exact ⟨ha, hb⟩

theorem substPArgs_length (t : Nat) (r : Expr) : ∀ es : Exprs, (substArgs t r es).length = es.length
  | .nil => rfl
  | .cons e es => by simp [substArgs, Exprs.length, substPArgs_length t r es]

mutual
theorem substP_ok (t : Nat) {r : Expr} (hr : r.defined = true) (h1 : r.ok = true) (h2 : r.WF) {X : List Nat} (ht : t ∈ X) (h3 : r.Plain X) : ∀ (e : Expr), e.Plain X →
    (e.ok = true → (substE t r e).ok = true) ∧ (e.WF → (substE t r e).WF) ∧ (substE t r e).Plain X
  | .undef, _ => by simp [substE, Expr.WF, Expr.Plain]
  | .var y f d, h => by
    simp only [substE]
    split
    · next hy =>
      subst hy
      simp only [Expr.Plain, ht, not_true_eq_false, or_false] at h
      subst h
      exact ⟨fun _ => h1, fun _ => h2, h3⟩
    · exact ⟨id, id, h⟩
  | .const _, h => by simp only [substE]; exact ⟨id, id, h⟩
  | .lets _ _, h => h.elim
  | .bin op a b, h => by
    obtain ⟨a1, a2, a3⟩ := substP_ok t hr h1 h2 ht h3 a h.1
    obtain ⟨b1, b2, b3⟩ := substP_ok t hr h1 h2 ht h3 b h.2
    simp only [substE]
    refine ⟨fun ho => ?_, fun hw => rebuildBin_wf (a2 hw.1) (b2 hw.2), rebuildBin_plain a3 b3⟩
    simp only [Expr.ok_bin, Bool.and_eq_true] at ho
    exact rebuildBin_okP (a1 ho.1) (b1 ho.2)
  | .not a, h => by
    obtain ⟨a1, a2, a3⟩ := substP_ok t hr h1 h2 ht h3 a h
    simp only [substE]
    exact ⟨fun ho => by simp only [Expr.ok] at ho ⊢; exact a1 ho, a2, a3⟩
  | .select c a b, h => by
    obtain ⟨c1, c2, c3⟩ := substP_ok t hr h1 h2 ht h3 c h.1
    obtain ⟨a1, a2, a3⟩ := substP_ok t hr h1 h2 ht h3 a h.2.1
    obtain ⟨b1, b2, b3⟩ := substP_ok t hr h1 h2 ht h3 b h.2.2
    simp only [substE]
    refine ⟨fun ho => ?_, fun hw => ⟨c2 hw.1, a2 hw.2.1, b2 hw.2.2⟩, c3, a3, b3⟩
    simp only [Expr.ok, Bool.and_eq_true] at ho ⊢
    exact ⟨⟨c1 ho.1.1, a1 ho.1.2⟩, b1 ho.2⟩
  | .call fn as, h => by
    simp only [substE, fixBufferAt_other h.1]
    refine ⟨fun ho => ?_, fun hw => (substPArgs_ok t hr h1 h2 ht h3 as h.2).2.1 hw, h.1, (substPArgs_ok t hr h1 h2 ht h3 as h.2).2.2⟩
    simp only [Expr.ok, Bool.and_eq_true, substPArgs_length] at ho ⊢
    exact ⟨⟨ho.1.1, (substPArgs_ok t hr h1 h2 ht h3 as h.2).1 _ ho.1.2⟩, ho.2⟩
theorem substPArgs_ok (t : Nat) {r : Expr} (hr : r.defined = true) (h1 : r.ok = true) (h2 : r.WF) {X : List Nat} (ht : t ∈ X) (h3 : r.Plain X) : ∀ (es : Exprs), es.Plain X →
    (∀ b, es.ok b = true → (substArgs t r es).ok b = true) ∧ (es.WF → (substArgs t r es).WF) ∧ (substArgs t r es).Plain X
  | .nil, h => by simp only [substArgs]; exact ⟨fun _ h => h, id, h⟩
  | .cons e es, h => by
    obtain ⟨a1, a2, a3⟩ := substP_ok t hr h1 h2 ht h3 e h.1
    obtain ⟨b1, b2, b3⟩ := substPArgs_ok t hr h1 h2 ht h3 es h.2
    simp only [substArgs]
    refine ⟨fun b ho => ?_, fun hw => ⟨a2 hw.1, b2 hw.2⟩, a3, b3⟩
    simp only [Exprs.ok, Bool.and_eq_true, Bool.or_eq_true, substP_defined t hr ht e h.1] at ho ⊢
    exact ⟨ho.1.imp id a1, b1 b ho.2⟩
end

/-- The environment in which the indices of `dst` other than number `d` are the minimum; `i` is the number of the first index. -/
def minsEnv (m : Mem) (dst d : Nat) : List Nat → Nat → Env → Env
  | [], _, env => env
  | x :: xs, i, env =>
    let env' := minsEnv m dst d xs (i + 1) env
    if i = d then env' else env'.set x (m.field (env' dst) .min i)

theorem bufMin_facts {X : List Nat} {dst : Nat} (h : dst ∉ X) (i : Nat) : (bufMin dst i).defined = true ∧ (bufMin dst i).ok = true ∧ (bufMin dst i).WF ∧ (bufMin dst i).Plain X :=
  ⟨rfl, by simp [bufMin, Expr.ok], trivial, .inr h⟩

theorem substitute_bufMin (e : Expr) (x dst i : Nat) : substitute e x (bufMin dst i) = substE x (bufMin dst i) e := rfl

theorem substOthers_sound (m : Mem) {dst d : Nat} {X : List Nat} (hd : dst ∉ X) : ∀ (xs : List Nat) (i : Nat) (e : Expr), (∀ x ∈ xs, x ∈ X) → e.Plain X →
    (e.ok = true → (substOthers dst d xs i e).ok = true) ∧ (e.WF → (substOthers dst d xs i e).WF) ∧
      ∀ env, eval m env (substOthers dst d xs i e) = eval m (minsEnv m dst d xs i env) e
  | [], i, e, _, hp => ⟨id, id, fun _ => rfl⟩
  | x :: xs, i, e, hx, hp => by
    simp only [substOthers]
    by_cases hi : i = d
    · simp only [hi, if_true, minsEnv]
      exact substOthers_sound m hd xs _ e (fun y hy => hx y (by simp [hy])) hp
    · obtain ⟨f1, f2, f3, f4⟩ := bufMin_facts hd i
      have hxX := hx x (by simp)
      obtain ⟨s1, s2, s3⟩ := substP_ok x f1 f2 f3 hxX f4 e hp
      obtain ⟨g1, g2, g3⟩ := substOthers_sound m (d := d) hd xs (i + 1) (substE x (bufMin dst i) e) (fun y hy => hx y (by simp [hy])) s3
      rw [if_neg hi, substitute_bufMin]
      refine ⟨fun h => g1 (s1 h), fun h => g2 (s2 h), fun env => ?_⟩
      rw [g3, substP_plain m x f1 hxX e hp]
      simp only [minsEnv, hi, if_false]
      rfl

mutual
theorem free_var_dep {xs : List Nat} {st : DepStack} {k : Nat} (hst : ∀ x ∈ xs, st.lookup x = some (some k)) : ∀ (e : Expr), e.Plain xs → ∀ x ∈ xs, FreeIn x e →
    (k, Dep.var) ∈ depsE false st e
  | .undef, _, _, _, h => h.elim
  | .var y f d, hp, x, hx, h => by
    simp only [FreeIn] at h
    subst h
    simp only [Expr.Plain, hx, not_true_eq_false, or_false] at hp
    subst hp
    simp [depsE, emit, findDeps, hst y hx, fieldDeps]
  | .const _, _, _, _, h => h.elim
  | .lets _ _, hp, _, _, _ => hp.elim
  | .bin op a b, hp, x, hx, h => by
    simp only [depsE, List.mem_append]
    exact h.imp (free_var_dep hst a hp.1 x hx) (free_var_dep hst b hp.2 x hx)
  | .not a, hp, x, hx, h => by simp only [depsE]; exact free_var_dep hst a hp x hx h
  | .select c t f, hp, x, hx, h => by
    simp only [depsE, List.mem_append, or_assoc]
    exact h.imp (free_var_dep hst c hp.1 x hx) (Or.imp (free_var_dep hst t hp.2.1 x hx) (free_var_dep hst f hp.2.2 x hx))
  | .call fn as, hp, x, hx, h => by
    have := free_var_depArgs hst as hp.2 x hx h
    have hne := hp.1
    cases fn <;> first | exact absurd rfl hne | simpa only [depsE] using this
theorem free_var_depArgs {xs : List Nat} {st : DepStack} {k : Nat} (hst : ∀ x ∈ xs, st.lookup x = some (some k)) : ∀ (es : Exprs), es.Plain xs → ∀ x ∈ xs, FreeInArgs x es →
    (k, Dep.var) ∈ depsArgs false st es
  | .nil, _, _, _, h => h.elim
  | .cons e es, hp, x, hx, h => by
    simp only [depsArgs, List.mem_append]
    exact h.imp (free_var_dep hst e hp.1 x hx) (free_var_depArgs hst es hp.2 x hx)
end

/-- An expression that does not depend on the indices. -/
theorem not_free_of_broadcast {xs : List Nat} {e : Expr} (hp : e.Plain xs) (h : Dep.var ∉ dependsOnAny e xs) : ∀ x ∈ xs, ¬ FreeIn x e := by
  intro x hx hf
  refine h ?_
  unfold dependsOnAny
  refine List.mem_map_of_mem (f := Prod.snd) (free_var_dep (k := 0) (fun y hy => ?_) e hp x hx hf)
  cases hl : ((xs.map (·, some 0)).reverse).lookup y with
  | none =>
    rw [List.lookup_eq_none_iff] at hl
    have := hl (y, some 0) (by simpa using hy)
    simp at this
  | some v =>
    obtain ⟨l₁, l₂, he, _⟩ := List.lookup_eq_some_iff.mp hl
    have : (y, v) ∈ (xs.map (·, some 0)).reverse := by rw [he]; simp
    simp at this
    simp [this.2]

mutual
theorem plain_mono {X Y : List Nat} (hs : ∀ x ∈ Y, x ∈ X) : ∀ (e : Expr), e.Plain X → e.Plain Y
  | .undef, _ => trivial
  | .var _ _ _, h => h.imp id fun h h' => h (hs _ h')
  | .const _, _ => trivial
  | .lets _ _, h => h.elim
  | .bin _ a b, h => ⟨plain_mono hs a h.1, plain_mono hs b h.2⟩
  | .not a, h => plain_mono hs a h
  | .select c t f, h => ⟨plain_mono hs c h.1, plain_mono hs t h.2.1, plain_mono hs f h.2.2⟩
  | .call _ as, h => ⟨h.1, plainArgs_mono hs as h.2⟩
theorem plainArgs_mono {X Y : List Nat} (hs : ∀ x ∈ Y, x ∈ X) : ∀ (e : Exprs), e.Plain X → e.Plain Y
  | .nil, _ => trivial
  | .cons e es, h => ⟨plain_mono hs e h.1, plainArgs_mono hs es h.2⟩
end

mutual
theorem plain_bufOK {X : List Nat} : ∀ (e : Expr), e.Plain X → e.BufOK
  | .undef, _ => trivial
  | .var _ _ _, _ => trivial
  | .const _, _ => trivial
  | .lets _ _, h => h.elim
  | .bin _ a b, h => ⟨plain_bufOK a h.1, plain_bufOK b h.2⟩
  | .not a, h => plain_bufOK a h
  | .select c t f, h => ⟨plain_bufOK c h.1, plain_bufOK t h.2.1, plain_bufOK f h.2.2⟩
  | .call _ as, h => ⟨fun h' => absurd h' h.1, plainArgs_bufOK as h.2⟩
theorem plainArgs_bufOK {X : List Nat} : ∀ (e : Exprs), e.Plain X → e.BufOK
  | .nil, _ => trivial
  | .cons e es, h => ⟨plain_bufOK e h.1, plainArgs_bufOK es h.2⟩
end

/-- An expression that does not depend on one index. -/
theorem not_free_of_dep {x : Nat} {X : List Nat} (hx : x ∈ X) {e : Expr} (hp : e.Plain X) (h : Dep.var ∉ dependsOn e x) : ¬ FreeIn x e := by
  intro hf
  refine h ?_
  unfold dependsOn
  exact List.mem_map_of_mem (f := Prod.snd) (free_var_dep (xs := [x]) (k := x) (by simp [List.lookup]) e (plain_mono (by simpa using hx) e hp) x (by simp) hf)

theorem free_mkBin {z : Nat} {op : BinOp} {a b : Expr} : FreeIn z (mkBin op a b) ↔ FreeIn z a ∨ FreeIn z b := by
  unfold mkBin
  split
  · simp [FreeIn, or_comm]
  · simp [FreeIn]

theorem plain_mkBin {X : List Nat} {op : BinOp} {a b : Expr} (ha : a.Plain X) (hb : b.Plain X) : (mkBin op a b).Plain X := by
  unfold mkBin
  split
  · exact ⟨hb, ha⟩
  · exact ⟨ha, hb⟩

/-! ### `is_linear` -/

/-- What is needed of an expression to be simplified; `F` are the symbols that it may depend on. -/
structure ExprOk (X : List Nat) (F : Nat → Prop) (e : Expr) : Prop where
  ok : e.ok = true
  wf : e.WF
  plain : e.Plain X
  free : ∀ z, FreeIn z e → F z

theorem ExprOk.mkBin {X : List Nat} {F : Nat → Prop} {op : BinOp} {a b : Expr} (ha : ExprOk X F a) (hb : ExprOk X F b) : ExprOk X F (mkBin op a b) :=
  ⟨by simp [ha.ok, hb.ok], wf_mkBin ha.wf hb.wf, plain_mkBin ha.plain hb.plain, fun z h => (free_mkBin.1 h).elim (ha.free z) (hb.free z)⟩

theorem ExprOk.const {X : List Nat} {F : Nat → Prop} {c : Int} (h : InRange 64 c) : ExprOk X F (.const c) :=
  ⟨by simp, h, trivial, fun _ h => h.elim⟩

theorem ExprOk.left {X : List Nat} {F : Nat → Prop} {op : BinOp} {a b : Expr} (h : ExprOk X F (.bin op a b)) : ExprOk X F a := by
  have := h.ok
  simp only [Expr.ok_bin, Bool.and_eq_true] at this
  exact ⟨this.1, h.wf.1, h.plain.1, fun z hz => h.free z (.inl hz)⟩

theorem ExprOk.right {X : List Nat} {F : Nat → Prop} {op : BinOp} {a b : Expr} (h : ExprOk X F (.bin op a b)) : ExprOk X F b := by
  have := h.ok
  simp only [Expr.ok_bin, Bool.and_eq_true] at this
  exact ⟨this.2, h.wf.2, h.plain.2, fun z hz => h.free z (.inr hz)⟩

theorem ExprOk.imp {X : List Nat} {F G : Nat → Prop} {e : Expr} (h : ExprOk X F e) (hi : ∀ z, FreeIn z e → F z → G z) : ExprOk X G e :=
  ⟨h.ok, h.wf, h.plain, fun z hz => hi z hz (h.free z hz)⟩

/-- `is_linear` is right: `y = a * x + b`, and `a` and `b` do not depend on `x`. -/
theorem isLinear_sound (m : Mem) {X : List Nat} {F : Nat → Prop} {x : Nat} (hx : x ∈ X) : ∀ {y a b : Expr}, isLinear x y = some (a, b) → ExprOk X F y →
    ExprOk X (fun z => F z ∧ z ≠ x) a ∧ ExprOk X (fun z => F z ∧ z ≠ x) b ∧ ∀ env, eval m env y = eval m env a * env x + eval m env b
  | y, a, b, h, ho => by
    have h0 : InRange 64 0 := inRange_01 (.inl rfl)
    have h1 : InRange 64 1 := inRange_01 (.inr rfl)
    unfold isLinear at h
    split at h
    · next e =>
      simp only [Option.some.injEq, Prod.mk.injEq] at h
      obtain ⟨rfl, rfl⟩ := h
      subst e
      exact ⟨.const h1, .const h0, fun env => by simp [eval]⟩
    · split at h
      · next hd =>
        simp only [Option.some.injEq, Prod.mk.injEq] at h
        obtain ⟨rfl, rfl⟩ := h
        refine ⟨.const h0, ho.imp fun z hz hF => ⟨hF, ?_⟩, fun env => by simp [eval]⟩
        rintro rfl
        exact not_free_of_dep hx ho.plain hd hz
      · split at h
        · next p q =>
          split at h
          · next aa ab ba bb hp hq =>
            simp only [Option.some.injEq, Prod.mk.injEq] at h
            obtain ⟨rfl, rfl⟩ := h
            obtain ⟨p1, p2, p3⟩ := isLinear_sound m hx hp ho.left
            obtain ⟨q1, q2, q3⟩ := isLinear_sound m hx hq ho.right
            refine ⟨p1.mkBin q1, p2.mkBin q2, fun env => ?_⟩
            simp only [eval, eval_mkBin, BinOp.denote, p3, q3]; ring
          · cases h
        · next p q =>
          split at h
          · next aa ab ba bb hp hq =>
            simp only [Option.some.injEq, Prod.mk.injEq] at h
            obtain ⟨rfl, rfl⟩ := h
            obtain ⟨p1, p2, p3⟩ := isLinear_sound m hx hp ho.left
            obtain ⟨q1, q2, q3⟩ := isLinear_sound m hx hq ho.right
            refine ⟨p1.mkBin q1, p2.mkBin q2, fun env => ?_⟩
            simp only [eval, eval_mkBin, BinOp.denote, p3, q3]; ring
          · cases h
        · rename_i p q _ _
          split at h
          · next aa ab hp hq =>
            simp only [Option.some.injEq, Prod.mk.injEq] at h
            obtain ⟨rfl, rfl⟩ := h
            obtain ⟨p1, p2, p3⟩ := isLinear_sound m hx hp ho.left
            have hq' : ExprOk X (fun z => F z ∧ z ≠ x) q := ho.right.imp fun z hz hF => ⟨hF, by
              rintro rfl
              exact not_free_of_dep hx ho.right.plain (of_decide_eq_true hq) hz⟩
            refine ⟨p1.mkBin hq', p2.mkBin hq', fun env => ?_⟩
            simp only [eval, eval_mkBin, BinOp.denote, p3]; ring
          · split at h
            · next aa ab hp hq =>
              simp only [Option.some.injEq, Prod.mk.injEq] at h
              obtain ⟨rfl, rfl⟩ := h
              obtain ⟨p1, p2, p3⟩ := isLinear_sound m hx hp ho.right
              have hq' : ExprOk X (fun z => F z ∧ z ≠ x) p := ho.left.imp fun z hz hF => ⟨hF, by
                rintro rfl
                exact not_free_of_dep hx ho.left.plain (of_decide_eq_true hq) hz⟩
              refine ⟨p1.mkBin hq', p2.mkBin hq', fun env => ?_⟩
              simp only [eval, eval_mkBin, BinOp.denote, p3]; ring
            · cases h
        · cases h

end Slinky
