import Verif.DependsOnFlags
import Verif.CompareStmt
import Verif.DeshadowEx

/-!
# Model of `slinky/runtime/depends_on.cc` on statements

See `DependsOn.lean` for expressions. The results are pairs of a result (a `depends_on_result`) and a flag that is set in it; the flag is `none`
if the result is only looked up (which makes an entry in the map of `find_dependencies`).
-/

namespace Slinky

/-- A flag, or none. -/
abbrev DepO := Option Dep

/-- Flags of expressions. -/
def depsEO (unk : Bool) (st : DepStack) (e : Expr) : List (Nat × DepO) := (depsE unk st e).map fun p => (p.1, some p.2)

/-- `find_deps(s)`, and flags are set in the result. -/
def emitO (unk : Bool) (st : DepStack) (s : Nat) (ds : List DepO) : List (Nat × DepO) :=
  match findDeps unk st s with
  | some (some k) => ds.map (k, ·)
  | _ => []

/-- An interval: both ends are visited if they are defined. -/
def depsI (unk : Bool) (st : DepStack) (i : Interval) : List (Nat × DepO) := depsEO unk st i.min ++ depsEO unk st i.maxEnd

/-- depends_on.cc:216-222, 226-234: a dimension -/
def depsD (unk : Bool) (st : DepStack) (d : DimE) : List (Nat × DepO) := depsI unk st d.bounds ++ (depsEO unk st d.stride ++ depsEO unk st d.fold)

/-- depends_on.cc:130-147 `visit_sym_body(var sym, depends_on_result* src_deps, ...)`: the stack for the body; `none` if the body is not
visited. -/
def bodyStack (unk : Bool) (st : DepStack) (sym : Nat) (srcDeps : Option (Option Nat)) : Option DepStack :=
  match srcDeps with
  | some (some k) => some ((sym, some k) :: st)
  | _ => if declNeedsShadow unk st sym then (if !unk && st.length == 1 then none else some ((sym, none) :: st)) else some st

/-- depends_on.cc:149-156 `visit_sym_body(var sym, var src, depends_on_result* src_deps, ...)` -/
def aliasStack (unk : Bool) (st : DepStack) (sym src : Nat) : Option DepStack :=
  if sym = src then some st else bodyStack unk st sym (findDeps unk st src)

/-- depends_on.cc:196-200: the declarations of a copy -/
def pushDecls (unk : Bool) : DepStack → List Nat → DepStack
  | st, [] => st
  | st, x :: xs => pushDecls unk (pushDecl unk st x) xs

mutual
/-- depends_on.cc:69-281: the visitor `dependencies` on statements -/
def depsS (unk : Bool) : DepStack → Stmt → List (Nat × DepO)
  | _, .undef => []
  | st, .call _ i o xs =>
    i.flatMap (fun x => emitO unk st x [some .var, some .input, some .dims]) ++
      (o.flatMap (fun x => emitO unk st x [some .var, some .output, some .bounds, some .dims]) ++ xs.flatMap (depsEO unk st))
  | st, .copy _ src xs dst ys pad =>
    emitO unk st src (if pad.isSome then [some .var, some .src, some .bounds, some .dims] else [some .var, some .src, some .dims]) ++
      (pad.toList.flatMap (fun x => emitO unk st x [some .var, some .src, some .dims]) ++
        (emitO unk st dst [some .var, some .dst, some .bounds, some .dims] ++ xs.flatMap (depsEO unk (pushDecls unk st ys))))
  | st, .lets bs b _ => (depsBinds unk st bs).map (fun p => (p.1, some p.2)) ++ depsS unk (pushBinds unk st bs) b
  | st, .block ss => depsSs unk st ss
  | st, .loop x wk b step s =>
    depsI unk st b ++ (depsEO unk st step ++ (depsEO unk st wk ++ (match bodyStack unk st x none with | none => [] | some st' => depsS unk st' s)))
  | st, .allocate x _ e ds s =>
    depsEO unk st e ++ (ds.flatMap (depsD unk st) ++ (match bodyStack unk st x none with | none => [] | some st' => depsS unk st' s))
  | st, .makeBuffer x p e ds s =>
    depsEO unk st p ++ (depsEO unk st e ++ (ds.flatMap (depsD unk st) ++ (match bodyStack unk st x none with | none => [] | some st' => depsS unk st' s)))
  | st, .constantBuffer x _ s => match bodyStack unk st x none with | none => [] | some st' => depsS unk st' s
  | st, .cloneBuffer x y s => emitO unk st y [none] ++ (match aliasStack unk st x y with | none => [] | some st' => depsS unk st' s)
  | st, .cropBuffer x y bs s =>
    bs.flatMap (depsI unk st) ++ (emitO unk st y [some .bounds, some .dims] ++ (match aliasStack unk st x y with | none => [] | some st' => depsS unk st' s))
  | st, .cropDim x y _ b s =>
    depsI unk st b ++ (emitO unk st y [some .bounds, some .dims] ++ (match aliasStack unk st x y with | none => [] | some st' => depsS unk st' s))
  | st, .sliceBuffer x y es s =>
    es.flatMap (depsEO unk st) ++ (emitO unk st y [some .bounds, some .dims] ++ (match aliasStack unk st x y with | none => [] | some st' => depsS unk st' s))
  | st, .sliceDim x y _ e s =>
    depsEO unk st e ++ (emitO unk st y [some .bounds, some .dims] ++ (match aliasStack unk st x y with | none => [] | some st' => depsS unk st' s))
  | st, .transpose x y _ s =>
    emitO unk st y [some .bounds, some .dims] ++ (match aliasStack unk st x y with | none => [] | some st' => depsS unk st' s)
  -- expr_stmt.cc:949-952: the symbol of the task is not treated as a declaration
  | st, .async _ t s => depsS unk st t ++ depsS unk st s
  | st, .check e => depsEO unk st e
/-- See `depsS`. -/
def depsSs (unk : Bool) : DepStack → Stmts → List (Nat × DepO)
  | _, .nil => []
  | st, .cons s ss => depsS unk st s ++ depsSs unk st ss
end

/-- depends_on.cc:336-340 `depends_on(stmt_ref s, var x)`: the flags in the result -/
def dependsOnS (s : Stmt) (x : Nat) : List Dep := (depsS false [(x, some x)] s).filterMap Prod.snd

/-- depends_on.cc:393-398 `find_dependencies(stmt_ref s)`: the keys of the map (here with repetitions) -/
def findDependenciesS (s : Stmt) : List Nat := (depsS true [] s).map Prod.fst

/-- depends_on.cc:406-419 `find_buffer_dependencies` -/
def findBufferDependencies (s : Stmt) (input src output dst : Bool) : List Nat :=
  ((depsS true [] s).filter fun p => (input && p.2 == some .input) || (src && p.2 == some .src) || (output && p.2 == some .output) || (dst && p.2 == some .dst)).map
    Prod.fst

/-! ## Specification -/

/-- An expression reads part `p` of `x`. -/
def ReadsO (p : DepO) (x : Nat) (e : Expr) : Prop := ∃ q, p = some q ∧ Reads q x e
/-- See `ReadsO`. -/
def Interval.Reads (p : DepO) (x : Nat) (i : Interval) : Prop := ReadsO p x i.min ∨ ReadsO p x i.maxEnd
/-- See `ReadsO`. -/
def DimE.Reads (p : DepO) (x : Nat) (d : DimE) : Prop := d.bounds.Reads p x ∨ ReadsO p x d.stride ∨ ReadsO p x d.fold

/-- What the inputs of a call depend on. -/
def Dep.inp (p : DepO) : Prop := p = some .var ∨ p = some .input ∨ p = some .dims
/-- What the outputs of a call depend on. -/
def Dep.out (p : DepO) : Prop := p = some .var ∨ p = some .output ∨ p = some .bounds ∨ p = some .dims
/-- What the source of a copy depends on. -/
def Dep.copySrc (pad : Bool) (p : DepO) : Prop := p = some .var ∨ p = some .src ∨ p = some .dims ∨ (pad = true ∧ p = some .bounds)
/-- What the destination of a copy depends on. -/
def Dep.copyDst (p : DepO) : Prop := p = some .var ∨ p = some .dst ∨ p = some .bounds ∨ p = some .dims
/-- What a crop, slice or transpose of a buffer depends on. -/
def Dep.view (p : DepO) : Prop := p = some .bounds ∨ p = some .dims

mutual
/-- The statement uses part `p` of the free symbol `x`, also by a buffer that is made from `x` (a crop, slice, transpose or clone of it). If `p` is
`none`: the statement makes a clone of `x`. -/
def Stmt.Uses (p : DepO) (x : Nat) : Stmt → Prop
  | .undef => False
  | .call _ i o xs => (x ∈ i ∧ Dep.inp p) ∨ (x ∈ o ∧ Dep.out p) ∨ ∃ e ∈ xs, ReadsO p x e
  | .copy _ src xs dst ys pad =>
    (x = src ∧ Dep.copySrc pad.isSome p) ∨ (pad = some x ∧ Dep.copySrc false p) ∨ (x = dst ∧ Dep.copyDst p) ∨ (x ∉ ys ∧ ∃ e ∈ xs, ReadsO p x e)
  | .lets bs b _ => (∃ q, p = some q ∧ ReadsBinds q x bs) ∨ (x ∉ bs.syms ∧ b.Uses p x)
  | .block ss => ss.Uses p x
  | .loop y wk b step s => b.Reads p x ∨ ReadsO p x step ∨ ReadsO p x wk ∨ (x ≠ y ∧ s.Uses p x)
  | .allocate y _ e ds s => ReadsO p x e ∨ (∃ d ∈ ds, d.Reads p x) ∨ (x ≠ y ∧ s.Uses p x)
  | .makeBuffer y b e ds s => ReadsO p x b ∨ ReadsO p x e ∨ (∃ d ∈ ds, d.Reads p x) ∨ (x ≠ y ∧ s.Uses p x)
  | .constantBuffer y _ s => x ≠ y ∧ s.Uses p x
  | .cloneBuffer y z s => (x = z ∧ p = none) ∨ (x ≠ y ∧ s.Uses p x) ∨ (x = z ∧ s.Uses p y)
  | .cropBuffer y z bs s => (∃ i ∈ bs, i.Reads p x) ∨ (x = z ∧ Dep.view p) ∨ (x ≠ y ∧ s.Uses p x) ∨ (x = z ∧ s.Uses p y)
  | .cropDim y z _ i s => i.Reads p x ∨ (x = z ∧ Dep.view p) ∨ (x ≠ y ∧ s.Uses p x) ∨ (x = z ∧ s.Uses p y)
  | .sliceBuffer y z es s => (∃ e ∈ es, ReadsO p x e) ∨ (x = z ∧ Dep.view p) ∨ (x ≠ y ∧ s.Uses p x) ∨ (x = z ∧ s.Uses p y)
  | .sliceDim y z _ e s => ReadsO p x e ∨ (x = z ∧ Dep.view p) ∨ (x ≠ y ∧ s.Uses p x) ∨ (x = z ∧ s.Uses p y)
  | .transpose y z _ s => (x = z ∧ Dep.view p) ∨ (x ≠ y ∧ s.Uses p x) ∨ (x = z ∧ s.Uses p y)
  | .async y t s => some x ≠ y ∧ (t.Uses p x ∨ s.Uses p x)
  | .check e => ReadsO p x e
/-- See `Stmt.Uses`. -/
def Stmts.Uses (p : DepO) (x : Nat) : Stmts → Prop
  | .nil => False
  | .cons s ss => s.Uses p x ∨ ss.Uses p x
end

/-- The symbol is free in the statement. -/
def Stmt.Free (x : Nat) (s : Stmt) : Prop := ∃ p, s.Uses p x

/-- See `Expr.BufOK`. -/
def Interval.BufOK (i : Interval) : Prop := i.min.BufOK ∧ i.maxEnd.BufOK
/-- See `Expr.BufOK`. -/
def DimE.BufOK (d : DimE) : Prop := d.bounds.BufOK ∧ d.stride.BufOK ∧ d.fold.BufOK

mutual
/-- All expressions are `BufOK`, and no `async` has a symbol. -/
def Stmt.BufOK : Stmt → Prop
  | .undef => True
  | .call _ _ _ xs => ∀ e ∈ xs, e.BufOK
  | .copy _ _ xs _ _ _ => ∀ e ∈ xs, e.BufOK
  | .lets bs b _ => bs.BufOK ∧ b.BufOK
  | .block ss => ss.BufOK
  | .loop _ wk b step s => b.BufOK ∧ step.BufOK ∧ wk.BufOK ∧ s.BufOK
  | .allocate _ _ e ds s => e.BufOK ∧ (∀ d ∈ ds, d.BufOK) ∧ s.BufOK
  | .makeBuffer _ p e ds s => p.BufOK ∧ e.BufOK ∧ (∀ d ∈ ds, d.BufOK) ∧ s.BufOK
  | .constantBuffer _ _ s => s.BufOK
  | .cloneBuffer _ _ s => s.BufOK
  | .cropBuffer _ _ bs s => (∀ b ∈ bs, b.BufOK) ∧ s.BufOK
  | .cropDim _ _ _ b s => b.BufOK ∧ s.BufOK
  | .sliceBuffer _ _ es s => (∀ e ∈ es, e.BufOK) ∧ s.BufOK
  | .sliceDim _ _ _ e s => e.BufOK ∧ s.BufOK
  | .transpose _ _ _ s => s.BufOK
  | .async x t s => x = none ∧ t.BufOK ∧ s.BufOK
  | .check e => e.BufOK
/-- See `Stmt.BufOK`. -/
def Stmts.BufOK : Stmts → Prop
  | .nil => True
  | .cons s ss => s.BufOK ∧ ss.BufOK
end

/-! ## The flags -/

section
variable {unk : Bool} {k : Nat} {p : DepO}

/-- The symbols that refer to result `k`. -/
def At (unk : Bool) (st : DepStack) (k x : Nat) : Prop := findDeps unk st x = some (some k)

theorem depsEO_iff {e : Expr} {st : DepStack} (h : e.BufOK) : (k, p) ∈ depsEO unk st e ↔ ∃ x, At unk st k x ∧ ReadsO p x e := by
  unfold depsEO ReadsO At
  simp only [List.mem_map, Prod.mk.injEq, Prod.exists]
  constructor
  · rintro ⟨a, q, h1, rfl, rfl⟩
    obtain ⟨x, h2, h3⟩ := (depsE_flag_iff unk a q e st h).mp h1
    exact ⟨x, h2, q, rfl, h3⟩
  · rintro ⟨x, h1, q, rfl, h2⟩
    exact ⟨k, q, (depsE_flag_iff unk k q e st h).mpr ⟨x, h1, h2⟩, rfl, rfl⟩

theorem emitO_iff {st : DepStack} {y : Nat} {ds : List DepO} : (k, p) ∈ emitO unk st y ds ↔ ∃ x, At unk st k x ∧ (x = y ∧ p ∈ ds) := by
  unfold emitO At
  constructor
  · intro h
    split at h
    · next k' hk => simp at h; exact ⟨y, by rw [hk, h.2], rfl, h.1⟩
    · simp at h
  · rintro ⟨x, h1, rfl, h2⟩
    rw [h1]
    simpa using h2

theorem depsI_iff {i : Interval} {st : DepStack} (h : i.BufOK) : (k, p) ∈ depsI unk st i ↔ ∃ x, At unk st k x ∧ i.Reads p x := by
  unfold depsI Interval.Reads
  rw [List.mem_append, depsEO_iff h.1, depsEO_iff h.2]
  simp only [and_or_left, exists_or]

theorem depsD_iff {d : DimE} {st : DepStack} (h : d.BufOK) : (k, p) ∈ depsD unk st d ↔ ∃ x, At unk st k x ∧ d.Reads p x := by
  unfold depsD DimE.Reads
  rw [List.mem_append, List.mem_append, depsI_iff h.1, depsEO_iff h.2.1, depsEO_iff h.2.2]
  simp only [and_or_left, exists_or]

theorem flatMap_iff {α : Type} {f : α → List (Nat × DepO)} {st : DepStack} {R : Nat → α → Prop} {as : List α}
    (h : ∀ a ∈ as, ((k, p) ∈ f a ↔ ∃ x, At unk st k x ∧ R x a)) : (k, p) ∈ as.flatMap f ↔ ∃ x, At unk st k x ∧ ∃ a ∈ as, R x a := by
  rw [List.mem_flatMap]
  constructor
  · rintro ⟨a, h1, h2⟩
    obtain ⟨x, h3, h4⟩ := (h a h1).mp h2
    exact ⟨x, h3, a, h1, h4⟩
  · rintro ⟨x, h3, a, h1, h4⟩
    exact ⟨a, h1, (h a h1).mpr ⟨x, h3, h4⟩⟩

theorem at_cons {st : DepStack} {y : Nat} {o : Option Nat} {x : Nat} : At unk ((y, o) :: st) k x ↔ (x = y ∧ o = some k) ∨ (x ≠ y ∧ At unk st k x) := by
  unfold At findDeps
  by_cases h : x = y
  · subst h; simp [List.lookup]
  · have : (x == y) = false := by simp [h]
    simp [List.lookup, this, h]

theorem not_at_of_not_shadow {st : DepStack} {y : Nat} (h : declNeedsShadow unk st y = false) : ¬ At unk st k y :=
  findDeps_not_shadow unk st y h k

/-- The body of a declaration. -/
theorem bodyStack_none_iff {st : DepStack} {y : Nat} {f : DepStack → List (Nat × DepO)} {R : Nat → Prop}
    (h : ∀ st', (k, p) ∈ f st' ↔ ∃ x, At unk st' k x ∧ R x) {o : Option (Option Nat)} (ho : ∀ j, o ≠ some (some j)) :
    ((k, p) ∈ (match bodyStack unk st y o with | none => [] | some st' => f st')) ↔ ∃ x, At unk st k x ∧ (x ≠ y ∧ R x) := by
  have e : bodyStack unk st y o = if declNeedsShadow unk st y then (if !unk && st.length == 1 then none else some ((y, none) :: st)) else some st := by
    unfold bodyStack
    split
    · exact absurd rfl (ho _)
    · rfl
  rw [e]
  by_cases h1 : declNeedsShadow unk st y = true
  · rw [if_pos h1]
    by_cases h2 : (!unk && st.length == 1) = true
    · rw [if_pos h2]
      simp only [List.not_mem_nil, false_iff, not_exists, not_and]
      simp only [Bool.and_eq_true, Bool.not_eq_true', beq_iff_eq] at h2
      obtain ⟨rfl, h2⟩ := h2
      match st, h2 with
      | [(z, o')], _ =>
        intro x hx hne
        have hx' := at_cons.mp hx
        have hz : y = z := by
          by_contra hn
          have : (y == z) = false := by simp [hn]
          simp [declNeedsShadow, List.lookup, this] at h1
        rcases hx' with ⟨rfl, _⟩ | ⟨_, hx'⟩
        · exact absurd hz.symm hne
        · simp [At, findDeps] at hx'
    · rw [if_neg h2]
      simp only
      rw [h]
      constructor
      · rintro ⟨x, hx, hr⟩
        rcases at_cons.mp hx with ⟨_, hx⟩ | ⟨hn, hx⟩
        · cases hx
        · exact ⟨x, hx, hn, hr⟩
      · rintro ⟨x, hx, hn, hr⟩
        exact ⟨x, at_cons.mpr (Or.inr ⟨hn, hx⟩), hr⟩
  · rw [if_neg h1]
    simp only
    rw [h]
    constructor
    · rintro ⟨x, hx, hr⟩
      refine ⟨x, hx, ?_, hr⟩
      rintro rfl
      exact not_at_of_not_shadow (by simpa using h1) hx
    · rintro ⟨x, hx, _, hr⟩
      exact ⟨x, hx, hr⟩

/-- The body of a declaration of a buffer that is made from another. -/
theorem aliasStack_iff {st : DepStack} {y z : Nat} {f : DepStack → List (Nat × DepO)} {R : Nat → Prop}
    (h : ∀ st', (k, p) ∈ f st' ↔ ∃ x, At unk st' k x ∧ R x) :
    ((k, p) ∈ (match aliasStack unk st y z with | none => [] | some st' => f st')) ↔ ∃ x, At unk st k x ∧ ((x ≠ y ∧ R x) ∨ (x = z ∧ R y)) := by
  unfold aliasStack
  by_cases hyz : y = z
  · subst hyz
    rw [if_pos rfl]
    simp only
    rw [h]
    constructor
    · rintro ⟨x, hx, hr⟩
      refine ⟨x, hx, ?_⟩
      by_cases e : x = y
      · subst e; exact Or.inr ⟨rfl, hr⟩
      · exact Or.inl ⟨e, hr⟩
    · rintro ⟨x, hx, ⟨_, hr⟩ | ⟨rfl, hr⟩⟩ <;> exact ⟨x, hx, hr⟩
  · rw [if_neg hyz]
    by_cases hz : ∃ j, findDeps unk st z = some (some j)
    · obtain ⟨j, hj⟩ := hz
      rw [hj, bodyStack]
      simp only
      rw [h]
      constructor
      · rintro ⟨x, hx, hr⟩
        rcases at_cons.mp hx with ⟨rfl, hx'⟩ | ⟨hn, hx⟩
        · refine ⟨z, ?_, Or.inr ⟨rfl, hr⟩⟩
          unfold At
          rw [hj, hx']
        · exact ⟨x, hx, Or.inl ⟨hn, hr⟩⟩
      · rintro ⟨x, hx, ⟨hn, hr⟩ | ⟨rfl, hr⟩⟩
        · exact ⟨x, at_cons.mpr (Or.inr ⟨hn, hx⟩), hr⟩
        · refine ⟨y, at_cons.mpr (Or.inl ⟨rfl, ?_⟩), hr⟩
          unfold At at hx
          rw [hx] at hj
          exact (Option.some.inj hj).symm
    · have hz' : ∀ j, findDeps unk st z ≠ some (some j) := fun j hj => hz ⟨j, hj⟩
      rw [bodyStack_none_iff h hz']
      constructor
      · rintro ⟨x, hx, hr⟩
        exact ⟨x, hx, Or.inl hr⟩
      · rintro ⟨x, hx, hr | ⟨rfl, hr⟩⟩
        · exact ⟨x, hx, hr⟩
        · exact absurd hx (hz' k)

theorem pushDecls_iff : ∀ {ys : List Nat} {st : DepStack} {x : Nat}, At unk (pushDecls unk st ys) k x ↔ x ∉ ys ∧ At unk st k x
  | [], st, x => by simp [pushDecls]
  | y :: ys, st, x => by
    rw [pushDecls, pushDecls_iff]
    unfold At
    rw [findDeps_push_iff]
    simp only [List.mem_cons, not_or]
    constructor
    · rintro ⟨h1, h2, h3⟩; exact ⟨⟨h2, h1⟩, h3⟩
    · rintro ⟨⟨h2, h1⟩, h3⟩; exact ⟨h1, h2, h3⟩

theorem or_at {A : Prop} {B C : Nat → Prop} {st : DepStack} {q : Prop} (h1 : A ↔ ∃ x, At unk st k x ∧ B x) (h2 : q ↔ ∃ x, At unk st k x ∧ C x) :
    (A ∨ q) ↔ ∃ x, At unk st k x ∧ (B x ∨ C x) := by
  rw [h1, h2]
  simp only [and_or_left, exists_or]

mutual
theorem depsS_iff : ∀ (s : Stmt) (st : DepStack), s.BufOK → ((k, p) ∈ depsS unk st s ↔ ∃ x, At unk st k x ∧ s.Uses p x)
  | .undef, _, _ => by simp [depsS, Stmt.Uses]
  | .call _ i o xs, st, h => by
    rw [depsS, List.mem_append, List.mem_append]
    refine (or_at (flatMap_iff (R := fun x y => x = y ∧ Dep.inp p) fun a _ => ?_) (or_at (flatMap_iff (R := fun x y => x = y ∧ Dep.out p) fun a _ => ?_)
      (flatMap_iff fun e he => depsEO_iff (h e he)))).trans ?_
    · rw [emitO_iff]; simp [Dep.inp]
    · rw [emitO_iff]; simp [Dep.out]
    · simp only [Stmt.Uses, exists_eq_right', ← and_assoc, exists_and_right]
  | .copy _ src xs dst ys pad, st, h => by
    rw [depsS, List.mem_append, List.mem_append, List.mem_append]
    have h4 : (k, p) ∈ xs.flatMap (depsEO unk (pushDecls unk st ys)) ↔ ∃ x, At unk st k x ∧ (x ∉ ys ∧ ∃ e ∈ xs, ReadsO p x e) := by
      rw [flatMap_iff fun e he => depsEO_iff (h e he)]
      simp only [pushDecls_iff]
      constructor
      · rintro ⟨x, ⟨h1, h2⟩, h3⟩; exact ⟨x, h2, h1, h3⟩
      · rintro ⟨x, h2, h1, h3⟩; exact ⟨x, ⟨h1, h2⟩, h3⟩
    have h1 : (k, p) ∈ emitO unk st src (if pad.isSome then [some .var, some .src, some .bounds, some .dims] else [some .var, some .src, some .dims]) ↔
        ∃ x, At unk st k x ∧ (x = src ∧ Dep.copySrc pad.isSome p) := by
      rw [emitO_iff]
      cases pad <;> simp [Dep.copySrc]
      intro _
      tauto
    have h2 : (k, p) ∈ pad.toList.flatMap (fun x => emitO unk st x [some .var, some .src, some .dims]) ↔ ∃ x, At unk st k x ∧ (pad = some x ∧ Dep.copySrc false p) := by
      rw [flatMap_iff (unk := unk) (st := st) (R := fun x y => x = y ∧ Dep.copySrc false p) fun a _ => by rw [emitO_iff]; simp [Dep.copySrc]]
      cases pad <;> simp [eq_comm]
    have h3 : (k, p) ∈ emitO unk st dst [some .var, some .dst, some .bounds, some .dims] ↔ ∃ x, At unk st k x ∧ (x = dst ∧ Dep.copyDst p) := by
      rw [emitO_iff]; simp [Dep.copyDst]
    exact or_at h1 (or_at h2 (or_at h3 h4))
  | .lets bs b _, st, h => by
    rw [depsS, List.mem_append]
    refine or_at ?_ ?_
    · simp only [List.mem_map, Prod.mk.injEq, Prod.exists]
      constructor
      · rintro ⟨a, q, h1, rfl, rfl⟩
        obtain ⟨x, h2, h3⟩ := (depsBinds_flag_iff unk a q bs st h.1).mp h1
        exact ⟨x, h2, q, rfl, h3⟩
      · rintro ⟨x, h1, q, rfl, h2⟩
        exact ⟨k, q, (depsBinds_flag_iff unk k q bs st h.1).mpr ⟨x, h1, h2⟩, rfl, rfl⟩
    · rw [depsS_iff b _ h.2]
      constructor
      · rintro ⟨x, h1, h2⟩
        obtain ⟨h3, h4⟩ := (findDeps_pushBinds unk k bs st x).mp h1
        exact ⟨x, h4, h3, h2⟩
      · rintro ⟨x, h1, h2, h3⟩
        exact ⟨x, (findDeps_pushBinds unk k bs st x).mpr ⟨h2, h1⟩, h3⟩
  | .block ss, st, h => depsSs_iff ss st h
  | .loop _ _ _ _ s, st, h => by
    rw [depsS, List.mem_append, List.mem_append, List.mem_append]
    exact or_at (depsI_iff h.1) (or_at (depsEO_iff h.2.1) (or_at (depsEO_iff h.2.2.1)
      (bodyStack_none_iff (fun st' => depsS_iff s st' h.2.2.2) (by simp))))
  | .allocate _ _ _ _ s, st, h => by
    rw [depsS, List.mem_append, List.mem_append]
    exact or_at (depsEO_iff h.1) (or_at (flatMap_iff fun d hd => depsD_iff (h.2.1 d hd))
      (bodyStack_none_iff (fun st' => depsS_iff s st' h.2.2) (by simp)))
  | .makeBuffer _ _ _ _ s, st, h => by
    rw [depsS, List.mem_append, List.mem_append, List.mem_append]
    exact or_at (depsEO_iff h.1) (or_at (depsEO_iff h.2.1) (or_at (flatMap_iff fun d hd => depsD_iff (h.2.2.1 d hd))
      (bodyStack_none_iff (fun st' => depsS_iff s st' h.2.2.2) (by simp))))
  | .constantBuffer _ _ s, st, h => by
    rw [depsS]
    exact bodyStack_none_iff (fun st' => depsS_iff s st' h) (by simp)
  | .cloneBuffer _ _ s, st, h => by
    rw [depsS, List.mem_append]
    refine or_at ?_ (aliasStack_iff fun st' => depsS_iff s st' h)
    rw [emitO_iff]; simp
  | .cropBuffer _ _ _ s, st, h => by
    rw [depsS, List.mem_append, List.mem_append]
    refine or_at (flatMap_iff fun i hi => depsI_iff (h.1 i hi)) (or_at ?_ (aliasStack_iff fun st' => depsS_iff s st' h.2))
    rw [emitO_iff]; simp [Dep.view]
  | .cropDim _ _ _ _ s, st, h => by
    rw [depsS, List.mem_append, List.mem_append]
    refine or_at (depsI_iff h.1) (or_at ?_ (aliasStack_iff fun st' => depsS_iff s st' h.2))
    rw [emitO_iff]; simp [Dep.view]
  | .sliceBuffer _ _ _ s, st, h => by
    rw [depsS, List.mem_append, List.mem_append]
    refine or_at (flatMap_iff fun e he => depsEO_iff (h.1 e he)) (or_at ?_ (aliasStack_iff fun st' => depsS_iff s st' h.2))
    rw [emitO_iff]; simp [Dep.view]
  | .sliceDim _ _ _ _ s, st, h => by
    rw [depsS, List.mem_append, List.mem_append]
    refine or_at (depsEO_iff h.1) (or_at ?_ (aliasStack_iff fun st' => depsS_iff s st' h.2))
    rw [emitO_iff]; simp [Dep.view]
  | .transpose _ _ _ s, st, h => by
    rw [depsS, List.mem_append]
    refine or_at ?_ (aliasStack_iff fun st' => depsS_iff s st' h)
    rw [emitO_iff]; simp [Dep.view]
  | .async x t s, st, h => by
    rw [depsS, List.mem_append]
    obtain ⟨rfl, h⟩ := h
    refine (or_at (depsS_iff t st h.1) (depsS_iff s st h.2)).trans ?_
    simp [Stmt.Uses]
  | .check _, st, h => depsEO_iff h
termination_by structural s => s
theorem depsSs_iff : ∀ (ss : Stmts) (st : DepStack), ss.BufOK → ((k, p) ∈ depsSs unk st ss ↔ ∃ x, At unk st k x ∧ ss.Uses p x)
  | .nil, _, _ => by simp [depsSs, Stmts.Uses]
  | .cons s ss, st, h => by
    rw [depsSs, List.mem_append]
    exact or_at (depsS_iff s st h.1) (depsSs_iff ss st h.2)
termination_by structural ss => ss
end
end

theorem at_single {x k y : Nat} : At false [(x, some x)] k y ↔ y = x ∧ k = x := by
  rw [at_cons]
  simp [At, findDeps, eq_comm]

theorem at_nil {k y : Nat} : At true [] k y ↔ y = k := by simp [At, findDeps]

/-- C09: `depends_on(s, x)` of a statement sets each flag exactly when the statement uses that part of the free symbol `x`. -/
theorem dependsOnS_flags (s : Stmt) (h : s.BufOK) (x : Nat) (p : Dep) : p ∈ dependsOnS s x ↔ s.Uses (some p) x := by
  simp only [dependsOnS, List.mem_filterMap, Prod.exists, exists_eq_right, depsS_iff s _ h, at_single]
  constructor
  · rintro ⟨a, y, ⟨rfl, rfl⟩, h⟩; exact h
  · intro h; exact ⟨x, x, ⟨rfl, rfl⟩, h⟩

/-- C09: `find_dependencies(s)` is the free symbols of `s`. -/
theorem findDependenciesS_iff (s : Stmt) (h : s.BufOK) (x : Nat) : x ∈ findDependenciesS s ↔ s.Free x := by
  simp only [findDependenciesS, List.mem_map, Prod.exists, exists_and_right, exists_eq_right, depsS_iff s _ h, at_nil, Stmt.Free]
  simp

/-- C09: `find_buffer_dependencies(s, ...)` is the symbols that are used as one of the kinds asked for. -/
theorem findBufferDependencies_iff (s : Stmt) (h : s.BufOK) (input src output dst : Bool) (x : Nat) :
    x ∈ findBufferDependencies s input src output dst ↔
      (input = true ∧ s.Uses (some .input) x) ∨ (src = true ∧ s.Uses (some .src) x) ∨ (output = true ∧ s.Uses (some .output) x) ∨
      (dst = true ∧ s.Uses (some .dst) x) := by
  simp only [findBufferDependencies, List.mem_map, List.mem_filter, Prod.exists, exists_and_right, exists_eq_right, depsS_iff s _ h, at_nil,
    exists_eq_left, Bool.or_eq_true, Bool.and_eq_true, beq_iff_eq]
  constructor
  · rintro ⟨p, h1, ((⟨h2, rfl⟩ | ⟨h2, rfl⟩) | ⟨h2, rfl⟩) | ⟨h2, rfl⟩⟩ <;> simp [h1, h2]
  · rintro (⟨h1, h2⟩ | ⟨h1, h2⟩ | ⟨h1, h2⟩ | ⟨h1, h2⟩) <;> exact ⟨_, h2, by simp [h1]⟩

/-- **A candidate bug**: `depends_on` of an `async` says that it depends on the symbol that it declares. -/
theorem dependsOnS_async_counterexample :
    dependsOnS (.async (some 1) (.call 7 [] [] []) (.check (.v 1))) 1 = [.var] ∧ ¬ (Stmt.async (some 1) (.call 7 [] [] []) (.check (.v 1))).Free 1 := by
  refine ⟨rfl, ?_⟩
  simp [Stmt.Free, Stmt.Uses]

end Slinky
