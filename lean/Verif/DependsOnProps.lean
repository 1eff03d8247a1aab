import Verif.DependsOn
import Verif.EvalProps

/-! # C09: `depends_on`, `find_dependencies`, `is_pure` are sound (and precise) -/

namespace Slinky

/-! ### Specification -/

mutual
/-- The first argument of every `buffer_at` is a variable (the evaluator and `depends_on` assert this,
evaluate.cc:209, substitute.cc:686). -/
def Expr.BufOK : Expr → Prop
  | .undef => True
  | .var _ _ _ => True
  | .const _ => True
  | .lets bs b => bs.BufOK ∧ b.BufOK
  | .bin _ a b => a.BufOK ∧ b.BufOK
  | .not a => a.BufOK
  | .select c t f => c.BufOK ∧ t.BufOK ∧ f.BufOK
  | .call fn as => (fn = .bufferAt → ∃ x d es, as = .cons (.var x .none d) es) ∧ as.BufOK
/-- See `Expr.BufOK`. -/
def Exprs.BufOK : Exprs → Prop
  | .nil => True
  | .cons e es => e.BufOK ∧ es.BufOK
/-- See `Expr.BufOK`. -/
def Binds.BufOK : Binds → Prop
  | .nil => True
  | .cons _ e bs => e.BufOK ∧ bs.BufOK
end

mutual
/-- `x` occurs free in the expression. -/
def FreeIn (x : Nat) : Expr → Prop
  | .undef => False
  | .var y _ _ => y = x
  | .const _ => False
  | .lets bs b => FreeInBinds x bs ∨ (x ∉ bs.syms ∧ FreeIn x b)
  | .bin _ a b => FreeIn x a ∨ FreeIn x b
  | .not a => FreeIn x a
  | .select c t f => FreeIn x c ∨ FreeIn x t ∨ FreeIn x f
  | .call _ as => FreeInArgs x as
/-- See `FreeIn`. -/
def FreeInArgs (x : Nat) : Exprs → Prop
  | .nil => False
  | .cons e es => FreeIn x e ∨ FreeInArgs x es
/-- `x` occurs free in the value of one of the lets (a let is in scope in the values after it). -/
def FreeInBinds (x : Nat) : Binds → Prop
  | .nil => False
  | .cons y e bs => FreeIn x e ∨ (x ≠ y ∧ FreeInBinds x bs)
end

/-- What two values of a symbol must have in common, given the flags reported for it. -/
def RelDeps (m : Mem) (E : Nat × Dep → Prop) (k : Nat) (v v' : Int) : Prop :=
  (E (k, .var) → v = v') ∧ (E (k, .base) → v = v') ∧
  (E (k, .bounds) → ∀ d, m.field v .min d = m.field v' .min d ∧ m.field v .max d = m.field v' .max d) ∧
  (E (k, .dims) → ∀ d, m.field v .stride d = m.field v' .stride d ∧ m.field v .foldFactor d = m.field v' .foldFactor d)

/-! ### Proofs -/

/-- The two environments agree on everything not tracked, and are related by the flags on what is tracked. -/
def AgreeDeps (m : Mem) (E : Nat × Dep → Prop) (unk : Bool) (st : DepStack) (ρ ρ' : Env) : Prop :=
  ∀ s, match findDeps unk st s with
    | some (some k) => RelDeps m E k (ρ s) (ρ' s)
    | _ => ρ s = ρ' s

theorem findDeps_push (unk : Bool) (st : DepStack) (x s : Nat) :
    findDeps unk (pushDecl unk st x) s =
      if s = x then (if declNeedsShadow unk st x then some none else findDeps unk st x) else findDeps unk st s := by
  unfold pushDecl
  by_cases hx : s = x
  · subst hx
    by_cases h : declNeedsShadow unk st s = true
    · simp [h, findDeps, List.lookup]
    · simp [h]
  · by_cases h : declNeedsShadow unk st x = true
    · have : (s == x) = false := by simp [hx]
      simp [h, findDeps, List.lookup, this, hx]
    · simp [h, hx]

theorem findDeps_not_shadow (unk : Bool) (st : DepStack) (x : Nat) (h : declNeedsShadow unk st x = false) :
    ∀ k, findDeps unk st x ≠ some (some k) := by
  intro k
  unfold findDeps declNeedsShadow at *
  split at h <;> simp_all

theorem AgreeDeps.push {m : Mem} {E : Nat × Dep → Prop} {unk : Bool} {st : DepStack} {ρ ρ' : Env}
    (h : AgreeDeps m E unk st ρ ρ') (x : Nat) (v : Int) :
    AgreeDeps m E unk (pushDecl unk st x) (ρ.set x v) (ρ'.set x v) := by
  intro s
  have hs := h s
  rw [findDeps_push]
  by_cases hx : s = x
  · subst hx
    simp only [if_true, Env.set_same]
    by_cases hd : declNeedsShadow unk st s = true
    · simp [hd]
    · have := findDeps_not_shadow unk st s (by simpa using hd)
      simp only [hd]
      split
      · exact absurd ‹_› (by simpa using this _)
      · trivial
  · simp only [if_neg hx, Env.set_other _ hx]
    exact hs

theorem agree_emit {m : Mem} {E : Nat × Dep → Prop} {unk : Bool} {st : DepStack} {ρ ρ' : Env}
    (h : AgreeDeps m E unk st ρ ρ') (x : Nat) (ds : List Dep) (hE : ∀ p ∈ emit unk st x ds, E p) :
    ρ x = ρ' x ∨ ∃ k, RelDeps m E k (ρ x) (ρ' x) ∧ ∀ d ∈ ds, E (k, d) := by
  have hx := h x
  unfold emit at hE
  split at hE
  · next k hk =>
    rw [hk] at hx
    right
    exact ⟨k, hx, fun d hd => hE (k, d) (List.mem_map.mpr ⟨d, hd, rfl⟩)⟩
  · next hk =>
    left
    split at hx
    · next k hk' => exact absurd hk' (hk k)
    · exact hx

mutual
theorem depsE_sound (m : Mem) (E : Nat × Dep → Prop) (unk : Bool) : ∀ (e : Expr) (st : DepStack) (ρ ρ' : Env), e.BufOK →
    AgreeDeps m E unk st ρ ρ' → (∀ p ∈ depsE unk st e, E p) → eval m ρ e = eval m ρ' e
  | .undef, _, _, _, _, _, _ => rfl
  | .const _, _, _, _, _, _, _ => rfl
  | .var x f d, st, ρ, ρ', _, ha, hE => by
    rcases agree_emit ha x _ (by simpa [depsE] using hE) with h | ⟨k, hr, hds⟩
    · cases f <;> simp [eval, h]
    · cases f <;> simp only [fieldDeps] at hds <;> simp only [eval]
      case none => exact hr.1 (hds _ (by simp))
      case min => exact (hr.2.2.1 (hds _ (by simp)) d).1
      case max => exact (hr.2.2.1 (hds _ (by simp)) d).2
      case stride => exact (hr.2.2.2 (hds _ (by simp)) d).1
      case foldFactor => exact (hr.2.2.2 (hds _ (by simp)) d).2
      all_goals rw [hr.1 (hds _ (by simp))]
  | .lets bs b, st, ρ, ρ', hb, ha, hE => by
    simp only [depsE, List.mem_append] at hE
    simp only [eval]
    simp only [Expr.BufOK] at hb
    have := depsBinds_sound m E unk bs st ρ ρ' hb.1 ha (fun p hp => hE p (Or.inl hp))
    exact depsE_sound m E unk b _ _ _ hb.2 this (fun p hp => hE p (Or.inr hp))
  | .bin op a b, st, ρ, ρ', hb, ha, hE => by
    simp only [depsE, List.mem_append] at hE
    simp only [Expr.BufOK] at hb
    simp only [eval]
    rw [depsE_sound m E unk a st ρ ρ' hb.1 ha (fun p hp => hE p (Or.inl hp)),
      depsE_sound m E unk b st ρ ρ' hb.2 ha (fun p hp => hE p (Or.inr hp))]
  | .not a, st, ρ, ρ', hb, ha, hE => by
    simp only [depsE] at hE
    simp only [Expr.BufOK] at hb
    simp only [eval]
    rw [depsE_sound m E unk a st ρ ρ' hb ha hE]
  | .select c t f, st, ρ, ρ', hb, ha, hE => by
    simp only [depsE, List.mem_append] at hE
    simp only [Expr.BufOK] at hb
    simp only [eval]
    rw [depsE_sound m E unk c st ρ ρ' hb.1 ha (fun p hp => hE p (Or.inl (Or.inl hp))),
      depsE_sound m E unk t st ρ ρ' hb.2.1 ha (fun p hp => hE p (Or.inl (Or.inr hp))),
      depsE_sound m E unk f st ρ ρ' hb.2.2 ha (fun p hp => hE p (Or.inr hp))]
  | .call fn as, st, ρ, ρ', hb, ha, hE => by
    simp only [Expr.BufOK] at hb
    simp only [eval]
    by_cases hfn : fn = .bufferAt
    · subst hfn
      obtain ⟨x, d, es, rfl⟩ := hb.1 rfl
      simp only [depsE, List.mem_append] at hE
      simp only [Exprs.BufOK] at hb
      have h1 : ρ x = ρ' x := by
        rcases agree_emit ha x _ (fun p hp => hE p (Or.inl hp)) with h | ⟨k, hr, hds⟩
        · exact h
        · exact hr.2.1 (hds _ (by simp))
      have h2 := depsArgs_sound m E unk es st ρ ρ' hb.2.2 ha (fun p hp => hE p (Or.inr hp))
      simp [evalArgs, eval, h1, h2]
    · have hE' : ∀ p ∈ depsArgs unk st as, E p := by
        intro p hp; apply hE
        cases fn <;> simp_all [depsE]
      rw [depsArgs_sound m E unk as st ρ ρ' hb.2 ha hE']
theorem depsArgs_sound (m : Mem) (E : Nat × Dep → Prop) (unk : Bool) : ∀ (es : Exprs) (st : DepStack) (ρ ρ' : Env),
    es.BufOK → AgreeDeps m E unk st ρ ρ' → (∀ p ∈ depsArgs unk st es, E p) → evalArgs m ρ es = evalArgs m ρ' es
  | .nil, _, _, _, _, _, _ => rfl
  | .cons e es, st, ρ, ρ', hb, ha, hE => by
    simp only [depsArgs, List.mem_append] at hE
    simp only [Exprs.BufOK] at hb
    simp only [evalArgs]
    rw [depsE_sound m E unk e st ρ ρ' hb.1 ha (fun p hp => hE p (Or.inl hp)),
      depsArgs_sound m E unk es st ρ ρ' hb.2 ha (fun p hp => hE p (Or.inr hp))]
theorem depsBinds_sound (m : Mem) (E : Nat × Dep → Prop) (unk : Bool) : ∀ (bs : Binds) (st : DepStack) (ρ ρ' : Env),
    bs.BufOK → AgreeDeps m E unk st ρ ρ' → (∀ p ∈ depsBinds unk st bs, E p) →
    AgreeDeps m E unk (pushBinds unk st bs) (evalBinds m ρ bs) (evalBinds m ρ' bs)
  | .nil, _, _, _, _, ha, _ => ha
  | .cons x e bs, st, ρ, ρ', hb, ha, hE => by
    simp only [depsBinds, List.mem_append] at hE
    simp only [Binds.BufOK] at hb
    simp only [evalBinds, pushBinds]
    rw [depsE_sound m E unk e st ρ ρ' hb.1 ha (fun p hp => hE p (Or.inl hp))]
    exact depsBinds_sound m E unk bs _ _ _ hb.2 (ha.push x _) (fun p hp => hE p (Or.inr hp))
end

theorem emit_iff (unk : Bool) (k : Nat) (st : DepStack) (x : Nat) (ds : List Dep) (hds : ds ≠ []) :
    (∃ d, (k, d) ∈ emit unk st x ds) ↔ findDeps unk st x = some (some k) := by
  unfold emit
  constructor
  · rintro ⟨d, hd⟩
    split at hd
    · next k' hk => simp at hd; rw [hk, hd.2]
    · simp at hd
  · intro h
    rw [h]
    cases ds with
    | nil => exact absurd rfl hds
    | cons d ds => exact ⟨d, by simp⟩

mutual
/-- Flags are reported exactly for free occurrences: for a stack, `k` is reported iff a symbol that resolves to `k` occurs
free. -/
theorem depsE_iff (unk : Bool) (k : Nat) : ∀ (e : Expr) (st : DepStack), e.BufOK →
    ((∃ d, (k, d) ∈ depsE unk st e) ↔ ∃ s, findDeps unk st s = some (some k) ∧ FreeIn s e)
  | .undef, _, _ => by simp [depsE, FreeIn]
  | .const _, _, _ => by simp [depsE, FreeIn]
  | .var x f d, st, _ => by
    simp only [depsE, FreeIn]
    rw [emit_iff unk k st x _ (by cases f <;> simp [fieldDeps])]
    constructor
    · intro h; exact ⟨x, h, rfl⟩
    · rintro ⟨s, h1, h2⟩; exact h2 ▸ h1
  | .lets bs b, st, hb => by
    simp only [Expr.BufOK] at hb
    simp only [depsE, FreeIn, List.mem_append, exists_or]
    rw [depsBinds_iff unk k bs st hb.1, depsE_iff unk k b _ hb.2]
    constructor
    · rintro (⟨s, h1, h2⟩ | ⟨s, h1, h2⟩)
      · exact ⟨s, h1, Or.inl h2⟩
      · obtain ⟨h3, h4⟩ := (findDeps_pushBinds unk k bs st s).mp h1
        exact ⟨s, h4, Or.inr ⟨h3, h2⟩⟩
    · rintro ⟨s, h1, h2 | ⟨h2, h3⟩⟩
      · exact Or.inl ⟨s, h1, h2⟩
      · exact Or.inr ⟨s, (findDeps_pushBinds unk k bs st s).mpr ⟨h2, h1⟩, h3⟩
  | .bin op a b, st, hb => by
    simp only [Expr.BufOK] at hb
    simp only [depsE, FreeIn, List.mem_append, exists_or, and_or_left]
    rw [depsE_iff unk k a st hb.1, depsE_iff unk k b st hb.2]
  | .not a, st, hb => by
    simp only [Expr.BufOK] at hb
    simp only [depsE, FreeIn]
    rw [depsE_iff unk k a st hb]
  | .select c t f, st, hb => by
    simp only [Expr.BufOK] at hb
    simp only [depsE, FreeIn, List.mem_append, exists_or, and_or_left]
    rw [depsE_iff unk k c st hb.1, depsE_iff unk k t st hb.2.1, depsE_iff unk k f st hb.2.2, or_assoc]
  | .call fn as, st, hb => by
    simp only [Expr.BufOK] at hb
    simp only [FreeIn]
    by_cases hfn : fn = .bufferAt
    · subst hfn
      obtain ⟨x, d, es, rfl⟩ := hb.1 rfl
      simp only [Exprs.BufOK] at hb
      simp only [depsE, List.mem_append, exists_or, FreeInArgs, FreeIn, and_or_left]
      rw [depsArgs_iff unk k es st hb.2.2]
      apply or_congr _ Iff.rfl
      rw [emit_iff unk k st x _ (by simp)]
      constructor
      · intro h; exact ⟨x, h, rfl⟩
      · rintro ⟨s, h1, h2⟩; exact h2 ▸ h1
    · rw [← depsArgs_iff unk k as st hb.2]
      cases fn <;> simp_all [depsE]
theorem depsArgs_iff (unk : Bool) (k : Nat) : ∀ (es : Exprs) (st : DepStack), es.BufOK →
    ((∃ d, (k, d) ∈ depsArgs unk st es) ↔ ∃ s, findDeps unk st s = some (some k) ∧ FreeInArgs s es)
  | .nil, _, _ => by simp [depsArgs, FreeInArgs]
  | .cons e es, st, hb => by
    simp only [Exprs.BufOK] at hb
    simp only [depsArgs, FreeInArgs, List.mem_append, exists_or, and_or_left]
    rw [depsE_iff unk k e st hb.1, depsArgs_iff unk k es st hb.2]
theorem depsBinds_iff (unk : Bool) (k : Nat) : ∀ (bs : Binds) (st : DepStack), bs.BufOK →
    ((∃ d, (k, d) ∈ depsBinds unk st bs) ↔ ∃ s, findDeps unk st s = some (some k) ∧ FreeInBinds s bs)
  | .nil, _, _ => by simp [depsBinds, FreeInBinds]
  | .cons x e bs, st, hb => by
    simp only [Binds.BufOK] at hb
    simp only [depsBinds, FreeInBinds, List.mem_append, exists_or, and_or_left]
    rw [depsE_iff unk k e st hb.1, depsBinds_iff unk k bs _ hb.2]
    apply or_congr Iff.rfl
    constructor
    · rintro ⟨s, h1, h2⟩
      obtain ⟨h3, h4⟩ := (findDeps_push_iff unk k st x s).mp h1
      exact ⟨s, h4, h3, h2⟩
    · rintro ⟨s, h1, h2, h3⟩
      exact ⟨s, (findDeps_push_iff unk k st x s).mpr ⟨h2, h1⟩, h3⟩
theorem findDeps_push_iff (unk : Bool) (k : Nat) (st : DepStack) (x s : Nat) :
    findDeps unk (pushDecl unk st x) s = some (some k) ↔ s ≠ x ∧ findDeps unk st s = some (some k) := by
  rw [findDeps_push]
  by_cases hx : s = x
  · subst hx
    by_cases hd : declNeedsShadow unk st s = true
    · simp [hd]
    · have := findDeps_not_shadow unk st s (by simpa using hd) k
      simp [hd, this]
  · simp [hx]
theorem findDeps_pushBinds (unk : Bool) (k : Nat) : ∀ (bs : Binds) (st : DepStack) (s : Nat),
    findDeps unk (pushBinds unk st bs) s = some (some k) ↔ s ∉ bs.syms ∧ findDeps unk st s = some (some k)
  | .nil, st, s => by simp [pushBinds, Binds.syms]
  | .cons x e bs, st, s => by
    simp only [pushBinds, Binds.syms, List.mem_cons, not_or]
    rw [findDeps_pushBinds unk k bs, findDeps_push_iff]
    tauto
end

mutual
theorem isPure_eval {m m' : Mem} (hc : ∀ f as, f ≠ .bufferAt → m.call f as = m'.call f as) (hu : m.undef = m'.undef) :
    ∀ (e : Expr) (ρ : Env), isPure e = true → eval m ρ e = eval m' ρ e
  | .undef, _, _ => by simpa [eval] using hu
  | .const _, _, _ => rfl
  | .var x f d, ρ, h => by
    cases f <;> simp [isPure] at h
    rfl
  | .lets bs b, ρ, h => by
    simp only [isPure, Bool.and_eq_true] at h
    simp only [eval]
    rw [isPureBinds_eval hc hu bs ρ h.1, isPure_eval hc hu b _ h.2]
  | .bin op a b, ρ, h => by
    simp only [isPure, Bool.and_eq_true] at h
    simp only [eval]
    rw [isPure_eval hc hu a ρ h.1, isPure_eval hc hu b ρ h.2]
  | .not a, ρ, h => by
    simp only [isPure] at h
    simp only [eval]
    rw [isPure_eval hc hu a ρ h]
  | .select c t f, ρ, h => by
    simp only [isPure, Bool.and_eq_true] at h
    simp only [eval]
    rw [isPure_eval hc hu c ρ h.1.1, isPure_eval hc hu t ρ h.1.2, isPure_eval hc hu f ρ h.2]
  | .call fn as, ρ, h => by
    have hfn : fn ≠ .bufferAt := by rintro rfl; simp [isPure] at h
    have ha : isPureArgs as = true := by cases fn <;> simp_all [isPure]
    simp only [eval]
    rw [isPureArgs_eval hc hu as ρ ha]
    have hd : ∀ xs, fn.denote m xs = fn.denote m' xs := by
      intro xs
      unfold Fn.denote
      split
      · rfl
      · rw [hu]
      · rw [hu]
      · exact hc _ _ hfn
    exact hd _
theorem isPureArgs_eval {m m' : Mem} (hc : ∀ f as, f ≠ .bufferAt → m.call f as = m'.call f as) (hu : m.undef = m'.undef) :
    ∀ (es : Exprs) (ρ : Env), isPureArgs es = true → evalArgs m ρ es = evalArgs m' ρ es
  | .nil, _, _ => rfl
  | .cons e es, ρ, h => by
    simp only [isPureArgs, Bool.and_eq_true] at h
    simp only [evalArgs]
    rw [isPure_eval hc hu e ρ h.1, isPureArgs_eval hc hu es ρ h.2]
theorem isPureBinds_eval {m m' : Mem} (hc : ∀ f as, f ≠ .bufferAt → m.call f as = m'.call f as) (hu : m.undef = m'.undef) :
    ∀ (bs : Binds) (ρ : Env), isPureBinds bs = true → evalBinds m ρ bs = evalBinds m' ρ bs
  | .nil, _, _ => rfl
  | .cons x e bs, ρ, h => by
    simp only [isPureBinds, Bool.and_eq_true] at h
    simp only [evalBinds]
    rw [isPure_eval hc hu e ρ h.1, isPureBinds_eval hc hu bs _ h.2]
end

/-! ### Properties -/

/-- C09: if `depends_on(e, x)` reports nothing, the value of `e` does not depend on the value of `x`. -/
theorem dependsOn_sound (m : Mem) (e : Expr) (he : e.BufOK) (x : Nat) (h : anyDep (dependsOn e x) = false) (ρ : Env)
    (v v' : Int) : eval m (ρ.set x v) e = eval m (ρ.set x v') e := by
  have hnil : depsE false [(x, some x)] e = [] := by
    simpa [anyDep, dependsOn] using h
  apply depsE_sound m (fun _ => False) false e [(x, some x)] _ _ he
  · intro s
    by_cases hs : s = x
    · subst hs; simp [findDeps, List.lookup, RelDeps]
    · have : (s == x) = false := by simp [hs]
      simp [findDeps, List.lookup, this, Env.set_other _ hs]
  · simp [hnil]

/-- C09: `depends_on(e, x)` reports something exactly when `x` occurs free in `e`. -/
theorem dependsOn_precise (e : Expr) (he : e.BufOK) (x : Nat) : anyDep (dependsOn e x) = true ↔ FreeIn x e := by
  have key := depsE_iff false x e [(x, some x)] he
  have h1 : (∃ s, findDeps false [(x, some x)] s = some (some x) ∧ FreeIn s e) ↔ FreeIn x e := by
    constructor
    · rintro ⟨s, h, hf⟩
      by_cases hs : s = x
      · exact hs ▸ hf
      · have : (s == x) = false := by simp [hs]
        simp [findDeps, List.lookup, this] at h
    · intro h; exact ⟨x, by simp [findDeps, List.lookup], h⟩
  rw [← h1, ← key]
  have hall : ∀ p ∈ depsE false [(x, some x)] e, p.1 = x := by
    rintro ⟨k, d⟩ hp
    obtain ⟨s, hs, -⟩ := (depsE_iff false k e [(x, some x)] he).mp ⟨d, hp⟩
    by_cases hsx : s = x
    · subst hsx; simp [findDeps, List.lookup] at hs; exact hs.symm
    · have : (s == x) = false := by simp [hsx]
      simp [findDeps, List.lookup, this] at hs
  simp only [anyDep, dependsOn, Bool.not_eq_true', List.isEmpty_eq_false_iff]
  constructor
  · intro h
    cases hl : depsE false [(x, some x)] e with
    | nil => simp [hl] at h
    | cons p l =>
      have := hall p (by simp [hl])
      exact ⟨p.2, by rw [← this]; simp⟩
  · rintro ⟨d, hd⟩ h
    simp at h
    rw [h] at hd; simp at hd

/-- C09: if `can_substitute_buffer(depends_on(e, x))`, then `e` reads `x` only through the bounds, strides and fold factors
of its dimensions: another buffer with the same dimensions gives the same value. -/
theorem canSubstituteBuffer_sound (m : Mem) (e : Expr) (he : e.BufOK) (x : Nat)
    (h : canSubstituteBuffer (dependsOn e x) = true) (ρ : Env) (v v' : Int)
    (hv : ∀ d, m.field v .min d = m.field v' .min d ∧ m.field v .max d = m.field v' .max d ∧
      m.field v .stride d = m.field v' .stride d ∧ m.field v .foldFactor d = m.field v' .foldFactor d) :
    eval m (ρ.set x v) e = eval m (ρ.set x v') e := by
  apply depsE_sound m (fun p => p ∈ depsE false [(x, some x)] e) false e [(x, some x)] _ _ he
  · intro s
    by_cases hs : s = x
    · subst hs
      simp only [findDeps, List.lookup, beq_self_eq_true, Env.set_same]
      simp only [canSubstituteBuffer, dependsOn, Bool.not_eq_true', Bool.or_eq_false_iff, List.contains_eq_mem,
        List.mem_map, decide_eq_false_iff_not, not_exists, not_and] at h
      refine ⟨fun hp => absurd rfl (h.2 _ hp), fun hp => absurd rfl (h.1.2 _ hp), fun _ d => ⟨(hv d).1, (hv d).2.1⟩,
        fun _ d => (hv d).2.2⟩
    · have : (s == x) = false := by simp [hs]
      simp [findDeps, List.lookup, this, Env.set_other _ hs]
  · exact fun p hp => hp

/-- C09: the value of an expression is determined by the values of the variables that `find_dependencies` lists. -/
theorem findDependencies_sound (m : Mem) (e : Expr) (he : e.BufOK) (ρ ρ' : Env)
    (h : ∀ x ∈ findDependencies e, ρ x = ρ' x) : eval m ρ e = eval m ρ' e := by
  apply depsE_sound m (fun p => p ∈ depsE true [] e) true e [] _ _ he
  · intro s
    simp only [findDeps, List.lookup, if_true]
    by_cases hs : s ∈ findDependencies e
    · rw [h s hs]; simp [RelDeps]
    · have hn : ∀ d, (s, d) ∉ depsE true [] e := by
        intro d hd
        exact hs (List.mem_map.mpr ⟨_, hd, rfl⟩)
      simp [RelDeps, hn]
  · exact fun p hp => hp

/-- C09: `find_dependencies` lists exactly the variables that occur free. -/
theorem findDependencies_precise (e : Expr) (he : e.BufOK) (x : Nat) : x ∈ findDependencies e ↔ FreeIn x e := by
  have key := depsE_iff true x e [] he
  simp only [findDeps, List.lookup, if_true, Option.some.injEq] at key
  simp only [findDependencies, List.mem_map, Prod.exists]
  constructor
  · rintro ⟨a, d, h, rfl⟩
    obtain ⟨s, hs, hf⟩ := key.mp ⟨d, h⟩
    exact hs ▸ hf
  · intro h
    obtain ⟨d, hd⟩ := key.mpr ⟨x, rfl, h⟩
    exact ⟨x, d, hd, rfl⟩

/-- C09: an expression for which `is_pure` holds reads no buffer metadata and no `buffer_at` address: its value is the same
in any two memories that agree on the other calls. -/
theorem isPure_sound (m m' : Mem) (hc : ∀ f as, f ≠ .bufferAt → m.call f as = m'.call f as) (hu : m.undef = m'.undef)
    (e : Expr) (h : isPure e = true) (ρ : Env) : eval m ρ e = eval m' ρ e := isPure_eval hc hu e ρ h

/-- Non-vacuity: `let x = y in x + 1` does not depend on `x`, depends on `y`, and is pure;
`buffer_min(b, 0) + 1` can have its buffer substituted. -/
example :
    let e : Expr := .lets (.cons 0 (.v 1) .nil) (.bin .add (.v 0) (.const 1))
    e.BufOK ∧ anyDep (dependsOn e 0) = false ∧ anyDep (dependsOn e 1) = true ∧ findDependencies e = [1] ∧
      isPure e = true ∧ canSubstituteBuffer (dependsOn (.bin .add (.var 2 .min 0) (.const 1)) 2) = true := by
  refine ⟨?_, rfl, rfl, rfl, rfl, rfl⟩
  simp [Expr.BufOK, Binds.BufOK, Expr.v]

end Slinky
