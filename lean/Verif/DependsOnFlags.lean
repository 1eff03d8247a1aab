import Verif.DependsOnProps

/-!
# C09: each flag of `depends_on` is set exactly when that part of the buffer is read
-/

namespace Slinky

/-- Specification: the parts of a symbol that reading a field depends on: the bounds of a dimension are also a part of the
dimension; the scalar, and the rank, element size and size in bytes of a buffer, are the symbol itself. -/
def Field.reads (f : Field) (p : Dep) : Prop :=
  match p with
  | .var => f = .none ∨ f = .rank ∨ f = .elemSize ∨ f = .sizeBytes
  | .base => False
  | .bounds => f = .min ∨ f = .max
  | .dims => f = .min ∨ f = .max ∨ f = .stride ∨ f = .foldFactor
  | _ => False

/-- Specification: the parts of a buffer that an address depends on. -/
def Dep.ofAddress (p : Dep) : Prop := p = .base ∨ p = .bounds ∨ p = .dims

mutual
/-- Specification: the expression reads part `p` of the free symbol `x`. An address (`buffer_at`) depends on the base, the
bounds and the strides of the buffer. -/
def Reads (p : Dep) (x : Nat) : Expr → Prop
  | .undef => False
  | .var y f _ => y = x ∧ f.reads p
  | .const _ => False
  | .lets bs b => ReadsBinds p x bs ∨ (x ∉ bs.syms ∧ Reads p x b)
  | .bin _ a b => Reads p x a ∨ Reads p x b
  | .not a => Reads p x a
  | .select c t f => Reads p x c ∨ Reads p x t ∨ Reads p x f
  | .call .bufferAt (.cons (.var y .none _) es) => (y = x ∧ p.ofAddress) ∨ ReadsArgs p x es
  | .call _ as => ReadsArgs p x as
/-- See `Reads`. -/
def ReadsArgs (p : Dep) (x : Nat) : Exprs → Prop
  | .nil => False
  | .cons e es => Reads p x e ∨ ReadsArgs p x es
/-- See `Reads`. -/
def ReadsBinds (p : Dep) (x : Nat) : Binds → Prop
  | .nil => False
  | .cons y e bs => Reads p x e ∨ (x ≠ y ∧ ReadsBinds p x bs)
end

theorem mem_fieldDeps (f : Field) (p : Dep) : p ∈ fieldDeps f ↔ f.reads p := by
  cases f <;> cases p <;> simp [fieldDeps, Field.reads]

theorem emit_iff' (unk : Bool) (k : Nat) (p : Dep) (st : DepStack) (x : Nat) (ds : List Dep) :
    (k, p) ∈ emit unk st x ds ↔ findDeps unk st x = some (some k) ∧ p ∈ ds := by
  unfold emit
  constructor
  · intro h
    split at h
    · next k' hk => simp at h; exact ⟨by rw [hk, h.2], h.1⟩
    · simp at h
  · rintro ⟨h, h'⟩
    rw [h]
    simpa using h'

mutual
theorem depsE_flag_iff (unk : Bool) (k : Nat) (p : Dep) : ∀ (e : Expr) (st : DepStack), e.BufOK →
    ((k, p) ∈ depsE unk st e ↔ ∃ s, findDeps unk st s = some (some k) ∧ Reads p s e)
  | .undef, _, _ => by simp [depsE, Reads]
  | .const _, _, _ => by simp [depsE, Reads]
  | .var x f d, st, _ => by
    simp only [depsE, Reads]
    rw [emit_iff', mem_fieldDeps]
    constructor
    · rintro ⟨h, h'⟩; exact ⟨x, h, rfl, h'⟩
    · rintro ⟨s, h1, h2, h3⟩; exact ⟨h2 ▸ h1, h3⟩
  | .lets bs b, st, hb => by
    simp only [Expr.BufOK] at hb
    simp only [depsE, Reads, List.mem_append]
    rw [depsBinds_flag_iff unk k p bs st hb.1, depsE_flag_iff unk k p b _ hb.2]
    constructor
    · rintro (⟨s, h1, h2⟩ | ⟨s, h1, h2⟩)
      · exact ⟨s, h1, Or.inl h2⟩
      · obtain ⟨h3, h4⟩ := (findDeps_pushBinds unk k bs st s).mp h1
        exact ⟨s, h4, Or.inr ⟨h3, h2⟩⟩
    · rintro ⟨s, h1, h2 | ⟨h2, h3⟩⟩
      · exact Or.inl ⟨s, h1, h2⟩
      · exact Or.inr ⟨s, (findDeps_pushBinds unk k bs st s).mpr ⟨h2, h1⟩, h3⟩
  | .bin op a b, st, hb => by
    simp only [Expr.BufOK] at hb
    simp only [depsE, Reads, List.mem_append, exists_or, and_or_left]
    rw [depsE_flag_iff unk k p a st hb.1, depsE_flag_iff unk k p b st hb.2]
  | .not a, st, hb => by
    simp only [Expr.BufOK] at hb
    simp only [depsE, Reads]
    rw [depsE_flag_iff unk k p a st hb]
  | .select c t f, st, hb => by
    simp only [Expr.BufOK] at hb
    simp only [depsE, Reads, List.mem_append, exists_or, and_or_left]
    rw [depsE_flag_iff unk k p c st hb.1, depsE_flag_iff unk k p t st hb.2.1, depsE_flag_iff unk k p f st hb.2.2, or_assoc]
  | .call fn as, st, hb => by
    simp only [Expr.BufOK] at hb
    by_cases hfn : fn = .bufferAt
    · subst hfn
      obtain ⟨x, d, es, rfl⟩ := hb.1 rfl
      simp only [Exprs.BufOK] at hb
      simp only [depsE, List.mem_append, Reads, exists_or, and_or_left]
      rw [depsArgs_flag_iff unk k p es st hb.2.2]
      apply or_congr _ Iff.rfl
      rw [emit_iff']
      have : p ∈ [Dep.base, Dep.dims, Dep.bounds] ↔ p.ofAddress := by cases p <;> simp [Dep.ofAddress]
      rw [this]
      constructor
      · rintro ⟨h, h'⟩; exact ⟨x, h, rfl, h'⟩
      · rintro ⟨s, h1, h2, h3⟩; exact ⟨h2 ▸ h1, h3⟩
    · have h1 : (k, p) ∈ depsE unk st (.call fn as) ↔ (k, p) ∈ depsArgs unk st as := by
        cases fn <;> simp_all [depsE]
      have h2 : ∀ s, Reads p s (.call fn as) ↔ ReadsArgs p s as := by
        intro s; cases fn <;> simp_all [Reads]
      rw [h1, depsArgs_flag_iff unk k p as st hb.2]
      simp only [h2]
theorem depsArgs_flag_iff (unk : Bool) (k : Nat) (p : Dep) : ∀ (es : Exprs) (st : DepStack), es.BufOK →
    ((k, p) ∈ depsArgs unk st es ↔ ∃ s, findDeps unk st s = some (some k) ∧ ReadsArgs p s es)
  | .nil, _, _ => by simp [depsArgs, ReadsArgs]
  | .cons e es, st, hb => by
    simp only [Exprs.BufOK] at hb
    simp only [depsArgs, ReadsArgs, List.mem_append, exists_or, and_or_left]
    rw [depsE_flag_iff unk k p e st hb.1, depsArgs_flag_iff unk k p es st hb.2]
theorem depsBinds_flag_iff (unk : Bool) (k : Nat) (p : Dep) : ∀ (bs : Binds) (st : DepStack), bs.BufOK →
    ((k, p) ∈ depsBinds unk st bs ↔ ∃ s, findDeps unk st s = some (some k) ∧ ReadsBinds p s bs)
  | .nil, _, _ => by simp [depsBinds, ReadsBinds]
  | .cons x e bs, st, hb => by
    simp only [Binds.BufOK] at hb
    simp only [depsBinds, ReadsBinds, List.mem_append, exists_or, and_or_left]
    rw [depsE_flag_iff unk k p e st hb.1, depsBinds_flag_iff unk k p bs _ hb.2]
    apply or_congr Iff.rfl
    constructor
    · rintro ⟨s, h1, h2⟩
      obtain ⟨h3, h4⟩ := (findDeps_push_iff unk k st x s).mp h1
      exact ⟨s, h4, h3, h2⟩
    · rintro ⟨s, h1, h2, h3⟩
      exact ⟨s, (findDeps_push_iff unk k st x s).mpr ⟨h2, h1⟩, h3⟩
end

/-- C09: `depends_on(e, x)` sets each flag exactly when `e` reads that part of the free symbol `x`. -/
theorem dependsOn_flags (e : Expr) (he : e.BufOK) (x : Nat) (p : Dep) : p ∈ dependsOn e x ↔ Reads p x e := by
  have key : ∀ k, (k, p) ∈ depsE false [(x, some x)] e ↔ k = x ∧ Reads p x e := by
    intro k
    rw [depsE_flag_iff false k p e _ he]
    constructor
    · rintro ⟨s, h, hr⟩
      by_cases hs : s = x
      · subst hs; simp [findDeps, List.lookup] at h; exact ⟨h.symm, hr⟩
      · have : (s == x) = false := by simp [hs]
        simp [findDeps, List.lookup, this] at h
    · rintro ⟨rfl, hr⟩; exact ⟨k, by simp [findDeps, List.lookup], hr⟩
  simp only [dependsOn, List.mem_map, Prod.exists, exists_eq_right, key]
  constructor
  · rintro ⟨_, _, h⟩; exact h
  · intro h; exact ⟨x, rfl, h⟩

/-- Non-vacuity: `buffer_min(b, 0)` has the flags bounds and dims, `buffer_stride(b, 0)` only dims. -/
example : dependsOn (.var 2 .min 0) 2 = [.bounds, .dims] ∧ dependsOn (.var 2 .stride 0) 2 = [.dims] ∧
    Reads .dims 2 (.var 2 .min 0) := by
  refine ⟨rfl, rfl, ?_⟩
  simp [Reads, Field.reads]

end Slinky
