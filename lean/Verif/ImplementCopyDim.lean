import Verif.ImplementCopyProps

/-!
# `is_copy`: a dimension of the view of `src`

If the index `z` of a dimension of `src` depends on one index `i` of `dst` only, then the position `at` in that dimension of `src` and the new dimension
for `i` are a view of it: `i` is in bounds of the new dimension and `at` is in bounds of the dimension of `src` if and only if `z` is in bounds, and the
offset of `at` plus the offset of `i` is the offset of `z` (`isCopy_fits`).
-/

namespace Slinky

/-- What is assumed about `simplify` and `evaluate_constant_lower_bound` (C17 and C15): they are right about values, and the result of `simplify` is an
expression of the same sort that depends on nothing new. -/
structure SimpSound (simp : Expr → Expr) (lb : Expr → Option Int) (m : Mem) (X : List Nat) : Prop where
  simp : ∀ F e, ExprOk X F e → ExprOk X F (simp e) ∧ ∀ env, eval m env (simp e) = eval m env e
  lb : ∀ F e v, ExprOk X F e → lb e = some v → ∀ env, v ≤ eval m env e

/-! ### The symbols that remain after the substitution -/

mutual
theorem substP_free {t : Nat} {r : Expr} {X : List Nat} (ht : t ∈ X) {z : Nat} : ∀ (e : Expr), e.Plain X → FreeIn z (substE t r e) → (FreeIn z e ∧ z ≠ t) ∨ (FreeIn t e ∧ FreeIn z r)
  | .undef, _, h => by simp [substE, FreeIn] at h
  | .var y f d, hp, h => by
    simp only [substE] at h
    split at h
    · next hy =>
      subst hy
      simp only [Expr.Plain, ht, not_true_eq_false, or_false] at hp
      subst hp
      exact .inr ⟨rfl, h⟩
    · next hy =>
      simp only [FreeIn] at h ⊢
      subst h
      exact .inl ⟨rfl, hy⟩
  | .const _, _, h => by simp [substE, FreeIn] at h
  | .lets _ _, hp, _ => hp.elim
  | .bin op a b, hp, h => by
    have h' : FreeIn z (substE t r a) ∨ FreeIn z (substE t r b) := by
      simp only [substE, rebuildBin] at h
      split at h
      · next he => rw [he.1, he.2]; exact h
      · exact free_mkBin.1 h
    rcases h' with h' | h'
    · exact (substP_free ht a hp.1 h').imp (fun h => ⟨.inl h.1, h.2⟩) (fun h => ⟨.inl h.1, h.2⟩)
    · exact (substP_free ht b hp.2 h').imp (fun h => ⟨.inr h.1, h.2⟩) (fun h => ⟨.inr h.1, h.2⟩)
  | .not a, hp, h => by
    simp only [substE, FreeIn] at h ⊢
    exact substP_free ht a hp h
  | .select c a b, hp, h => by
    simp only [substE, FreeIn] at h ⊢
    rcases h with h | h | h
    · exact (substP_free ht c hp.1 h).imp (fun h => ⟨.inl h.1, h.2⟩) (fun h => ⟨.inl h.1, h.2⟩)
    · exact (substP_free ht a hp.2.1 h).imp (fun h => ⟨.inr (.inl h.1), h.2⟩) (fun h => ⟨.inr (.inl h.1), h.2⟩)
    · exact (substP_free ht b hp.2.2 h).imp (fun h => ⟨.inr (.inr h.1), h.2⟩) (fun h => ⟨.inr (.inr h.1), h.2⟩)
  | .call fn as, hp, h => by
    simp only [substE, fixBufferAt_other hp.1, FreeIn] at h ⊢
    exact substPArgs_free ht as hp.2 h
theorem substPArgs_free {t : Nat} {r : Expr} {X : List Nat} (ht : t ∈ X) {z : Nat} : ∀ (e : Exprs), e.Plain X → FreeInArgs z (substArgs t r e) →
    (FreeInArgs z e ∧ z ≠ t) ∨ (FreeInArgs t e ∧ FreeIn z r)
  | .nil, _, h => by simp [substArgs, FreeInArgs] at h
  | .cons e es, hp, h => by
    simp only [substArgs, FreeInArgs] at h ⊢
    rcases h with h | h
    · exact (substP_free ht e hp.1 h).imp (fun h => ⟨.inl h.1, h.2⟩) (fun h => ⟨.inl h.1, h.2⟩)
    · exact (substPArgs_free ht es hp.2 h).imp (fun h => ⟨.inr h.1, h.2⟩) (fun h => ⟨.inr h.1, h.2⟩)
end

/-- The indices other than number `d`; `i` is the number of the first index. -/
def othersOf (d : Nat) : List Nat → Nat → List Nat
  | [], _ => []
  | x :: xs, i => if i = d then othersOf d xs (i + 1) else x :: othersOf d xs (i + 1)

theorem mem_othersOf {d y : Nat} : ∀ {xs : List Nat} {i : Nat}, y ∈ othersOf d xs i → y ∈ xs
  | [], i, h => by simp [othersOf] at h
  | x :: xs, i, h => by
    simp only [othersOf] at h
    split at h
    · exact List.mem_cons_of_mem _ (mem_othersOf h)
    · rcases List.mem_cons.1 h with rfl | h
      · simp
      · exact List.mem_cons_of_mem _ (mem_othersOf h)

theorem othersOf_of_lt {d : Nat} : ∀ {xs : List Nat} {i : Nat}, d < i → othersOf d xs i = xs
  | [], i, h => rfl
  | x :: xs, i, h => by simp [othersOf, show i ≠ d by omega, othersOf_of_lt (d := d) (xs := xs) (i := i + 1) (by omega)]

theorem mem_othersOf_iff {d y x : Nat} : ∀ {xs : List Nat} {i : Nat}, xs.Nodup → i ≤ d → xs[d - i]? = some x → (y ∈ othersOf d xs i ↔ y ∈ xs ∧ y ≠ x)
  | [], i, _, _, h => by simp at h
  | z :: xs, i, hn, hi, h => by
    rw [List.nodup_cons] at hn
    by_cases he : i = d
    · subst he
      simp only [Nat.sub_self, List.getElem?_cons_zero, Option.some.injEq] at h
      subst h
      simp only [othersOf, if_true, othersOf_of_lt (Nat.lt_succ_self i), List.mem_cons]
      constructor
      · intro h; exact ⟨.inr h, by rintro rfl; exact hn.1 h⟩
      · rintro ⟨h | h, h'⟩
        · exact absurd h h'
        · exact h
    · simp only [othersOf, he, if_false, List.mem_cons]
      rw [show d - i = (d - (i + 1)) + 1 by omega, List.getElem?_cons_succ] at h
      rw [mem_othersOf_iff hn.2 (by omega) h]
      constructor
      · rintro (rfl | h')
        · exact ⟨.inl rfl, by rintro rfl; exact hn.1 (List.mem_of_getElem? h)⟩
        · exact ⟨.inr h'.1, h'.2⟩
      · rintro ⟨rfl | h', h2⟩
        · exact .inl rfl
        · exact .inr ⟨h', h2⟩

theorem substOthers_free {dst d z : Nat} {X : List Nat} (hd : dst ∉ X) : ∀ (xs : List Nat) (i : Nat) (e : Expr), (∀ x ∈ xs, x ∈ X) → e.Plain X →
    FreeIn z (substOthers dst d xs i e) → (FreeIn z e ∧ z ∉ othersOf d xs i) ∨ (z = dst ∧ ∃ y ∈ othersOf d xs i, FreeIn y e)
  | [], i, e, _, hp, h => .inl ⟨h, by simp [othersOf]⟩
  | x :: xs, i, e, hx, hp, h => by
    simp only [substOthers] at h
    simp only [othersOf]
    by_cases hi : i = d
    · simp only [hi, if_true] at h ⊢
      exact substOthers_free hd xs _ e (fun y hy => hx y (by simp [hy])) hp h
    · rw [if_neg hi, substitute_bufMin] at h
      rw [if_neg hi]
      obtain ⟨f1, f2, f3, f4⟩ := bufMin_facts hd i
      have hxX := hx x (by simp)
      obtain ⟨-, -, s3⟩ := substP_ok x f1 f2 f3 hxX f4 e hp
      rcases substOthers_free hd xs (i + 1) _ (fun y hy => hx y (by simp [hy])) s3 h with ⟨h1, h2⟩ | ⟨h1, y, hy, h2⟩
      · rcases substP_free hxX e hp h1 with ⟨h3, h4⟩ | ⟨h3, h4⟩
        · exact .inl ⟨h3, by simp [h2, h4]⟩
        · refine .inr ⟨?_, x, by simp, h3⟩
          simpa [bufMin, FreeIn, eq_comm] using h4
      · refine .inr ⟨h1, ?_⟩
        rcases substP_free hxX e hp h2 with ⟨h3, h4⟩ | ⟨h3, h4⟩
        · exact ⟨y, by simp [hy], h3⟩
        · exact ⟨x, by simp, h3⟩

theorem minsEnv_other (m : Mem) {dst d z : Nat} : ∀ (xs : List Nat) (i : Nat) (env : Env), z ∉ othersOf d xs i → minsEnv m dst d xs i env z = env z
  | [], i, env, _ => rfl
  | x :: xs, i, env, h => by
    simp only [othersOf] at h
    simp only [minsEnv]
    split at h
    · next hi => rw [if_pos hi]; exact minsEnv_other m xs _ env h
    · next hi =>
      rw [if_neg hi]
      simp only [List.mem_cons, not_or] at h
      rw [Env.set, if_neg h.1]
      exact minsEnv_other m xs _ env h.2

/-! ### A leaf of `is_copy` -/

/-- The value of the dimensions of `make_buffer`. -/
def DimE.val (m : Mem) (env : Env) (d : DimE) : Dim :=
  ⟨eval m env d.bounds.min, eval m env d.bounds.max, eval m env d.stride, if d.fold.defined then eval m env d.fold else Dim.unfolded⟩

section
variable {simp : Expr → Expr} {lb : Expr → Option Int}

/-- What `is_copy` is for an index that is not a select. -/
theorem isCopy_leaf {m : Mem} {X : List Nat} {F : Nat → Prop} (hs : SimpSound simp lb m X) {src k dst x d : Nat} (hd : dst ∉ X) (hx : x ∈ X) {e : Expr}
    (hns : ∀ c t f, e ≠ .select c t f) (ho : ExprOk X F e) {c : CopyDim} (h : isCopy simp lb src k dst X x d e = some c) :
    ((∀ y ∈ X, ¬ FreeIn y e) ∧ c = ⟨e, ⟨bufBounds dst d, .const 0, .undef⟩⟩) ∨
    ∃ a b : Expr, (ExprOk X (fun z => FreeIn z (substOthers dst d X 0 e) ∧ z ≠ x) a ∧ ExprOk X (fun z => FreeIn z (substOthers dst d X 0 e) ∧ z ≠ x) b) ∧
      (∀ env, eval m env (substOthers dst d X 0 e) = eval m env a * env x + eval m env b ∧ 0 ≤ eval m env a) ∧
      ((FreeIn dst b ∧ c = ⟨mkBin .add (mkBin .mul (bufMin dst d) a) b, ⟨bufBounds dst d, mkBin .mul (.var src .stride k) a, .var src .foldFactor k⟩⟩) ∨
       (let at_ := mkBin .add (alignUpE (mkBin .sub (bufMin src k) b) a) b
        c = ⟨at_, ⟨⟨mkBin .div (mkBin .sub at_ b) a, mkBin .div (mkBin .sub (bufMax src k) b) a, false⟩, mkBin .mul (.var src .stride k) a, .var src .foldFactor k⟩⟩)) := by
  have h' : (if Dep.var ∉ dependsOnAny e X then some (⟨e, ⟨bufBounds dst d, .const 0, .undef⟩⟩ : CopyDim)
      else isCopyLinear simp lb src k dst x d (substOthers dst d X 0 e)) = some c := by
    cases e <;> first | exact absurd rfl (hns _ _ _) | exact h
  split at h'
  · next hb =>
    cases h'
    exact .inl ⟨not_free_of_broadcast ho.plain hb, rfl⟩
  · right
    obtain ⟨s1, s2, -⟩ := substOthers_sound m (d := d) hd X 0 e (fun _ h => h) ho.plain
    have hpl : (substOthers dst d X 0 e).Plain X := by
      have : ∀ (xs : List Nat) (i : Nat) (e : Expr), (∀ x ∈ xs, x ∈ X) → e.Plain X → (substOthers dst d xs i e).Plain X := by
        intro xs
        induction xs with
        | nil => intro i e _ h; exact h
        | cons x xs ih =>
          intro i e hx hp
          simp only [substOthers]
          refine ih _ _ (fun y hy => hx y (by simp [hy])) ?_
          split
          · exact hp
          · obtain ⟨f1, f2, f3, f4⟩ := bufMin_facts hd i
            exact (substP_ok x f1 f2 f3 (hx x (by simp)) f4 e hp).2.2
      exact this X 0 e (fun _ h => h) ho.plain
    have ho' : ExprOk X (fun z => FreeIn z (substOthers dst d X 0 e)) (substOthers dst d X 0 e) := ⟨s1 ho.ok, s2 ho.wf, hpl, fun _ h => h⟩
    generalize substOthers dst d X 0 e = e' at ho' h' ⊢
    obtain ⟨o1, v1⟩ := hs.simp _ e' ho'
    unfold isCopyLinear at h'
    split at h'
    · cases h'
    · next a b hl =>
      obtain ⟨oa, ob, hlin⟩ := isLinear_sound m hx hl o1
      obtain ⟨oa', va⟩ := hs.simp _ a oa
      obtain ⟨ob', vb⟩ := hs.simp _ b ob
      simp only at h'
      split at h'
      · cases h'
      · next v hv =>
        split at h'
        · cases h'
        · next hnn =>
          refine ⟨simp a, simp b, ⟨oa', ob'⟩, fun env => ⟨?_, ?_⟩, ?_⟩
          · rw [va, vb, ← hlin, v1]
          · have := hs.lb _ _ v oa' hv env
            omega
          · split at h'
            · next hdep =>
              left
              cases h'
              exact ⟨(dependsOn_precise _ (plain_bufOK _ ob'.plain) dst).1 hdep, rfl⟩
            · right
              cases h'
              rfl

/-- The position `at` and the dimension `δ` are a view of the dimension `Sk` of `src`: the index `i` is for the index `z` of `src`. -/
def CopyFits (Sk : Dim) (p : Int) (δ : Dim) (i z : Int) : Prop :=
  (Sk.contains p && δ.contains i) = Sk.contains z ∧ Sk.flatOffset p + δ.flatOffset i = Sk.flatOffset z

theorem flatOffset_linear {d : Dim} (h : d.stride = 0 ∨ d.fold = Dim.unfolded) (i : Int) : d.flatOffset i = (i - d.min) * d.stride := by
  rw [Dim.flatOffset, if_pos h]

theorem contains_iff {d : Dim} {i : Int} : d.contains i = true ↔ d.stride = 0 ∨ (d.min ≤ i ∧ i ≤ d.max) := by
  simp [Dim.contains, Dim.containsI]

/-- The case with padding: the bounds of `δ` are those of the indices for which `a * i + b` is in bounds. -/
theorem fits_aligned {Sk : Dim} (hU : Sk.fold = Dim.unfolded ∨ Sk.stride = 0) {a b i : Int} (ha : 0 ≤ a) :
    CopyFits Sk ((Sk.min - b + a - 1) / a * a + b)
      ⟨((Sk.min - b + a - 1) / a * a + b - b) / a, (Sk.max - b) / a, Sk.stride * a, Sk.fold⟩ i (a * i + b) := by
  by_cases hs : Sk.stride = 0
  · constructor
    · simp [Dim.contains, Dim.containsI, hs]
    · rw [flatOffset_linear (.inl hs), flatOffset_linear (.inl hs), flatOffset_linear (.inl (by simp [hs]))]
      simp [hs]
  · have hf : Sk.fold = Dim.unfolded := hU.resolve_right hs
    rcases ha.lt_or_eq with ha | rfl
    · have e1 : ((Sk.min - b + a - 1) / a * a + b - b) / a = (Sk.min - b + a - 1) / a := by
        rw [show (Sk.min - b + a - 1) / a * a + b - b = (Sk.min - b + a - 1) / a * a by ring]
        exact Int.mul_ediv_cancel _ (by omega)
      rw [e1]
      set q := (Sk.min - b + a - 1) / a with hq
      have q1 : q * a ≤ Sk.min - b + a - 1 := Int.ediv_mul_le _ (by omega)
      have q2 : Sk.min - b + a - 1 < (q + 1) * a := Int.lt_ediv_add_one_mul_self _ ha
      set r := (Sk.max - b) / a with hr
      have r1 : r * a ≤ Sk.max - b := Int.ediv_mul_le _ (by omega)
      have r2 : Sk.max - b < (r + 1) * a := Int.lt_ediv_add_one_mul_self _ ha
      have c1 : q ≤ i ↔ Sk.min ≤ a * i + b := by
        constructor
        · intro h
          have : q * a ≤ i * a := Int.mul_le_mul_of_nonneg_right h (by omega)
          nlinarith
        · intro h
          by_contra hc
          have : (i + 1) * a ≤ q * a := Int.mul_le_mul_of_nonneg_right (by omega) (by omega)
          nlinarith
      have c2 : i ≤ r ↔ a * i + b ≤ Sk.max := by
        constructor
        · intro h
          have : i * a ≤ r * a := Int.mul_le_mul_of_nonneg_right h (by omega)
          nlinarith
        · intro h
          by_contra hc
          have : (r + 1) * a ≤ i * a := Int.mul_le_mul_of_nonneg_right (by omega) (by omega)
          nlinarith
      constructor
      · rw [Bool.eq_iff_iff, Bool.and_eq_true, contains_iff, contains_iff, contains_iff]
        have : Sk.stride * a ≠ 0 := Int.mul_ne_zero hs (by omega)
        simp only [hs, this, false_or, c1, c2]
        constructor
        · rintro ⟨-, h⟩; exact h
        · intro h
          have : q * a ≤ i * a := Int.mul_le_mul_of_nonneg_right (c1.2 h.1) (by omega)
          exact ⟨⟨by nlinarith, by nlinarith⟩, h⟩
      · have l : ∀ j, Sk.flatOffset j = (j - Sk.min) * Sk.stride := flatOffset_linear (.inr hf)
        rw [l, l, flatOffset_linear]
        · simp only; ring
        · exact .inr hf
    · constructor
      · simp [Dim.contains, Dim.containsI]
      · have l : ∀ j, Sk.flatOffset j = (j - Sk.min) * Sk.stride := flatOffset_linear (.inr hf)
        rw [l, l, flatOffset_linear]
        · simp
        · exact .inr hf

/-- The case without padding: the bounds of `δ` are those of `dst`. -/
theorem fits_bounds {Sk Dd : Dim} (hU : Sk.fold = Dim.unfolded ∨ Sk.stride = 0) {a b i : Int} (hi : Dd.min ≤ i ∧ i ≤ Dd.max)
    (hb : ∀ j, Dd.min ≤ j → j ≤ Dd.max → Sk.contains (a * j + b) = true) :
    CopyFits Sk (Dd.min * a + b) ⟨Dd.min, Dd.max, Sk.stride * a, Sk.fold⟩ i (a * i + b) := by
  constructor
  · have h1 := hb Dd.min le_rfl (by omega)
    rw [mul_comm] at h1
    rw [h1, hb i hi.1 hi.2]
    simp [Dim.contains, Dim.containsI, hi.1, hi.2]
  · have l : ∀ j, Sk.flatOffset j = (j - Sk.min) * Sk.stride := flatOffset_linear hU.symm
    rw [l, l, flatOffset_linear]
    · simp only; ring
    · rcases hU with h | h
      · exact .inr h
      · exact .inl (by simp [h])

/-- A broadcast. -/
theorem fits_broadcast {Sk δ : Dim} (hδ : δ.stride = 0) (z i : Int) : CopyFits Sk z δ i z := by
  constructor
  · simp [Dim.contains, Dim.containsI, hδ]
  · rw [flatOffset_linear (d := δ) (.inl hδ), hδ]; simp

/-- The dimensions are the same, but for the fold factor of a stride that is 0. -/
structure DimAgree (δ δ' : Dim) : Prop where
  min : δ.min = δ'.min
  max : δ.max = δ'.max
  stride : δ.stride = δ'.stride
  fold : δ.fold = δ'.fold ∨ δ.stride = 0

theorem DimAgree.fits {Sk δ δ' : Dim} (h : DimAgree δ δ') {p i z : Int} (hf : CopyFits Sk p δ' i z) : CopyFits Sk p δ i z := by
  have h1 : δ.contains i = δ'.contains i := by simp [Dim.contains, Dim.containsI, h.min, h.max, h.stride]
  have h2 : δ.flatOffset i = δ'.flatOffset i := by
    rcases h.fold with hf | h0
    · simp [Dim.flatOffset, h.min, h.stride, hf]
    · rw [flatOffset_linear (.inl h0), flatOffset_linear (.inl (h.stride ▸ h0)), h.min, h.stride]
  exact ⟨by rw [h1]; exact hf.1, by rw [h2]; exact hf.2⟩

/-! ### The selects -/

theorem isSelect_or (e : Expr) : (∃ c t f, e = .select c t f) ∨ ∀ c t f, e ≠ .select c t f := by
  cases e <;> first | exact .inl ⟨_, _, _, rfl⟩ | (right; intro c t f h; cases h)

theorem selectOrUndef_defined {c t f : Expr} (ht : t.defined = true) (hf : f.defined = true) : selectOrUndef c t f = .select c t f := by
  simp [selectOrUndef, ht, hf]

/-- The form of the dimensions that `is_copy` makes. -/
structure DimE.Shape (d : DimE) : Prop where
  same : d.bounds.same = false
  stride : d.stride.defined = true
  fold : d.fold.defined = true ∨ ∀ m env, eval m env d.stride = 0

theorem sel_bounds {c : Expr} {t f : DimE} (ht : t.Shape) (hf : f.Shape) :
    t.bounds.sel c f.bounds = ⟨.select c t.bounds.min f.bounds.min, .select c t.bounds.max f.bounds.max, false⟩ := by
  simp [Interval.sel, Interval.isPoint, ht.same, hf.same]

theorem DimE.Shape.sel {c : Expr} {t f : DimE} (ht : t.Shape) (hf : f.Shape) : (DimE.sel c t f).Shape := by
  refine ⟨by simp [DimE.sel, sel_bounds ht hf], by simp only [DimE.sel, selectOrUndef_defined ht.stride hf.stride]; rfl, ?_⟩
  simp only [DimE.sel, selectOrUndef_defined ht.stride hf.stride]
  rcases ht.fold with h | h
  · left; unfold selectOrUndef; rw [h]; simp only [Bool.true_and, if_true]; split <;> first | rfl | exact h
  · rcases hf.fold with h' | h'
    · left; unfold selectOrUndef; rw [h']; simp only [Bool.and_true]; split
      · rfl
      · first | exact h' | (split <;> first | exact h' | assumption)
    · right; intro m env; simp [eval, h, h']

theorem sel_agree_true {m : Mem} {env : Env} {c : Expr} {t f : DimE} (ht : t.Shape) (hf : f.Shape) (hc : eval m env c ≠ 0) :
    DimAgree ((DimE.sel c t f).val m env) (t.val m env) := by
  refine ⟨?_, ?_, ?_, ?_⟩
  · simp only [DimE.sel, DimE.val, sel_bounds ht hf, eval, if_pos hc]
  · simp only [DimE.sel, DimE.val, sel_bounds ht hf, eval, if_pos hc]
  · simp only [DimE.sel, DimE.val, selectOrUndef_defined ht.stride hf.stride, eval, if_pos hc]
  · simp only [DimE.sel, DimE.val, selectOrUndef_defined ht.stride hf.stride, eval, if_pos hc]
    rcases ht.fold with h | h
    · left
      unfold selectOrUndef
      by_cases h' : f.fold.defined = true
      · rw [h, h', if_pos rfl]; simp [Expr.defined, eval, hc]
      · simp [h, h']
    · exact .inr (h m env)

theorem sel_agree_false {m : Mem} {env : Env} {c : Expr} {t f : DimE} (ht : t.Shape) (hf : f.Shape) (hc : ¬ eval m env c ≠ 0) :
    DimAgree ((DimE.sel c t f).val m env) (f.val m env) := by
  refine ⟨?_, ?_, ?_, ?_⟩
  · simp only [DimE.sel, DimE.val, sel_bounds ht hf, eval, if_neg hc]
  · simp only [DimE.sel, DimE.val, sel_bounds ht hf, eval, if_neg hc]
  · simp only [DimE.sel, DimE.val, selectOrUndef_defined ht.stride hf.stride, eval, if_neg hc]
  · simp only [DimE.sel, DimE.val, selectOrUndef_defined ht.stride hf.stride, eval, if_neg hc]
    rcases hf.fold with h | h
    · left
      unfold selectOrUndef
      by_cases h' : t.fold.defined = true
      · rw [h, h', if_pos rfl]; simp only [ne_eq, not_not] at hc; simp [Expr.defined, eval, hc]
      · simp [h, h']
    · exact .inr (h m env)

theorem DimAgree.trans {a b c : Dim} (h : DimAgree a b) (h' : DimAgree b c) : DimAgree a c :=
  ⟨h.min.trans h'.min, h.max.trans h'.max, h.stride.trans h'.stride, by
    rcases h.fold with h1 | h1
    · rcases h'.fold with h2 | h2
      · exact .inl (h1.trans h2)
      · exact .inr (h.stride.trans h2)
    · exact .inr h1⟩

/-- The form of the result of `is_copy`. -/
theorem isCopy_shape {src k dst x d : Nat} {X : List Nat} : ∀ {e : Expr} {c : CopyDim}, isCopy simp lb src k dst X x d e = some c → c.dim.Shape := by
  have leaf : ∀ {e : Expr} {c : CopyDim}, (∀ c t f, e ≠ .select c t f) → isCopy simp lb src k dst X x d e = some c → c.dim.Shape := by
    intro e c hns h
    have h' : (if Dep.var ∉ dependsOnAny e X then some (⟨e, ⟨bufBounds dst d, .const 0, .undef⟩⟩ : CopyDim)
        else isCopyLinear simp lb src k dst x d (substOthers dst d X 0 e)) = some c := by
      cases e <;> first | exact absurd rfl (hns _ _ _) | exact h
    split at h'
    · cases h'; exact ⟨rfl, rfl, .inr fun m env => by simp [eval]⟩
    · unfold isCopyLinear at h'
      split at h'
      · cases h'
      · simp only at h'
        split at h'
        · cases h'
        · split at h'
          · cases h'
          · split at h' <;> (cases h'; exact ⟨rfl, defined_mkBin _ _ _, .inl rfl⟩)
  intro e
  induction e using Expr.rec (motive_2 := fun _ => True) (motive_3 := fun _ => True) with
  | select c t f _ iht ihf =>
    intro r h
    simp only [isCopy] at h
    split at h
    · next t' f' ht hf =>
      cases h
      exact (iht ht).sel (ihf hf)
    · cases h
  | _ => first | trivial | (intro c h; exact leaf (by intro _ _ _ h; cases h) h)

/-- If the bounds of the new dimension have a value, the selects are decided: `is_copy` is as for one of the leaves. `σ` are the buffers. -/
theorem isCopy_select {w : World} {l : List Ev} {host : Fn → List (Option Int) → Int} {σ ρ : SEnv} (hh : ∀ fn xs, w.host fn xs l = host fn xs)
    {src k dst x d : Nat} {X : List Nat} {F : Nat → Prop} : ∀ {e : Expr} {c : CopyDim} {v : Int}, isCopy simp lb src k dst X x d e = some c → ExprOk X F e →
    evalI w l ρ c.dim.bounds.min = some v →
    ∃ e' c', (∀ c t f, e' ≠ .select c t f) ∧ ExprOk X F e' ∧ (∀ z, FreeIn z e' → FreeIn z e) ∧ isCopy simp lb src k dst X x d e' = some c' ∧
      ∀ env, EnvRel σ ρ env → eval (memS host σ) env e = eval (memS host σ) env e' ∧ eval (memS host σ) env c.at_ = eval (memS host σ) env c'.at_ ∧
        DimAgree (c.dim.val (memS host σ) env) (c'.dim.val (memS host σ) env) := by
  have leaf : ∀ {e : Expr} {c : CopyDim} {v : Int}, (∀ c t f, e ≠ .select c t f) → isCopy simp lb src k dst X x d e = some c → ExprOk X F e →
    evalI w l ρ c.dim.bounds.min = some v →
    ∃ e' c', (∀ c t f, e' ≠ .select c t f) ∧ ExprOk X F e' ∧ (∀ z, FreeIn z e' → FreeIn z e) ∧ isCopy simp lb src k dst X x d e' = some c' ∧
      ∀ env, EnvRel σ ρ env → eval (memS host σ) env e = eval (memS host σ) env e' ∧ eval (memS host σ) env c.at_ = eval (memS host σ) env c'.at_ ∧
        DimAgree (c.dim.val (memS host σ) env) (c'.dim.val (memS host σ) env) :=
    fun hns h ho _ => ⟨_, _, hns, ho, fun _ h => h, h, fun _ _ => ⟨rfl, rfl, rfl, rfl, rfl, .inl rfl⟩⟩
  intro e
  induction e using Expr.rec (motive_2 := fun _ => True) (motive_3 := fun _ => True) with
  | select c t f _ iht ihf =>
    intro r v h ho hv
    simp only [isCopy] at h
    split at h
    · next t' f' ht hf =>
      cases h
      have hok := ho.ok
      simp only [Expr.ok, Bool.and_eq_true] at hok
      have hot : ExprOk X F t := ⟨hok.1.2, ho.wf.2.1, ho.plain.2.1, fun z hz => ho.free z (.inr (.inl hz))⟩
      have hof : ExprOk X F f := ⟨hok.2, ho.wf.2.2, ho.plain.2.2, fun z hz => ho.free z (.inr (.inr hz))⟩
      have st := isCopy_shape ht
      have sf := isCopy_shape hf
      simp only [DimE.sel, sel_bounds st sf] at hv
      simp only [evalI, evalS, Option.bind_eq_some_iff] at hv
      obtain ⟨u, ⟨i, ⟨ci, h1, h2⟩, h3⟩, h4⟩ := hv
      have := int?_some h2; subst this
      have hci : evalI w l ρ c = some i := by simp only [evalI, h1]; rfl
      by_cases hi : i ≠ 0
      · rw [if_pos hi] at h3
        obtain ⟨e', c', g1, g2, g3, g4, g5⟩ := iht ht hot (show evalI w l ρ _ = some v by simp only [evalI, h3]; exact h4)
        refine ⟨e', c', g1, g2, fun z hz => .inr (.inl (g3 z hz)), g4, fun env he => ?_⟩
        obtain ⟨g6, g7, g8⟩ := g5 env he
        have hc := (evalI_eval hh ho.wf.1 he hci).1
        exact ⟨by simp only [eval, hc, if_pos hi, g6], by simp only [eval, hc, if_pos hi, g7], (sel_agree_true st sf (by rw [hc]; exact hi)).trans g8⟩
      · rw [if_neg hi] at h3
        obtain ⟨e', c', g1, g2, g3, g4, g5⟩ := ihf hf hof (show evalI w l ρ _ = some v by simp only [evalI, h3]; exact h4)
        refine ⟨e', c', g1, g2, fun z hz => .inr (.inr (g3 z hz)), g4, fun env he => ?_⟩
        obtain ⟨g6, g7, g8⟩ := g5 env he
        have hc := (evalI_eval hh ho.wf.1 he hci).1
        exact ⟨by simp only [eval, hc, if_neg hi, g6], by simp only [eval, hc, if_neg hi, g7], (sel_agree_false st sf (by rw [hc]; exact hi)).trans g8⟩
    · cases h
  | _ => first | trivial | (intro c v h ho hv; exact leaf (by intro _ _ _ h; cases h) h ho hv)

/-- `is_copy` is right, for an index that depends on one index of `dst` only. `Sk` is the dimension of `src`, `Dd` is the dimension of `dst`. Either the
index of `src` does not depend on the bounds of `dst`, or it is in bounds. -/
theorem isCopy_fits {w : World} {l : List Ev} {host : Fn → List (Option Int) → Int} {σ ρ : SEnv} (hh : ∀ fn xs, w.host fn xs l = host fn xs)
    {X : List Nat} {F : Nat → Prop} (hs : SimpSound simp lb (memS host σ) X) {src k dst x d : Nat} (hn : X.Nodup) (hd : dst ∉ X) (hx : X[d]? = some x)
    {e : Expr} (ho : ExprOk X F e) {c : CopyDim} (h : isCopy simp lb src k dst X x d e = some c) {v : Int} (hv : evalI w l ρ c.dim.bounds.min = some v)
    (hO : ∀ y ∈ X, y ≠ x → ¬ FreeIn y e) {env : Env} (hr : ∀ j, InRange 64 j → EnvRel σ ρ (env.set x j)) {Sk Dd : Dim}
    (hS : (memS host σ).field (env src) .min k = Sk.min ∧ (memS host σ).field (env src) .max k = Sk.max ∧ (memS host σ).field (env src) .stride k = Sk.stride ∧
      (memS host σ).field (env src) .foldFactor k = Sk.fold)
    (hD : (memS host σ).field (env dst) .min d = Dd.min ∧ (memS host σ).field (env dst) .max d = Dd.max)
    (hDr : InRange 64 Dd.min ∧ InRange 64 Dd.max)
    (hU : Sk.fold = Dim.unfolded ∨ Sk.stride = 0) (hi : Dd.min ≤ env x ∧ env x ≤ Dd.max)
    (hb : FreeIn dst e → ∀ j, Dd.min ≤ j → j ≤ Dd.max → Sk.contains (eval (memS host σ) (env.set x j) e) = true) :
    CopyFits Sk (eval (memS host σ) env c.at_) (c.dim.val (memS host σ) env) (env x) (eval (memS host σ) env e) := by
  have hxX : x ∈ X := List.mem_of_getElem? hx
  have hin : ∀ j, Dd.min ≤ j → j ≤ Dd.max → InRange 64 j := fun j h1 h2 => ⟨le_trans hDr.1.1 h1, lt_of_le_of_lt h2 hDr.2.2⟩
  have henv : env.set x (env x) = env := by funext z; by_cases hz : z = x <;> simp [Env.set, hz]
  obtain ⟨e', c', g1, g2, g3, g4, g5⟩ := isCopy_select (σ := σ) hh h ho hv
  have hre : EnvRel σ ρ env := henv ▸ hr (env x) (hin _ hi.1 hi.2)
  obtain ⟨g6, g7, g8⟩ := g5 env hre
  have hO' : ∀ y ∈ X, y ≠ x → ¬ FreeIn y e' := fun y hy hyx hf => hO y hy hyx (g3 y hf)
  have hoth : ∀ {y}, y ∈ othersOf d X 0 ↔ y ∈ X ∧ y ≠ x := mem_othersOf_iff hn (Nat.zero_le d) (by simpa using hx)
  rw [g6, g7]
  apply g8.fits
  rcases isCopy_leaf hs hd hxX g1 g2 g4 with ⟨k1, rfl⟩ | ⟨a, b, ⟨oa, ob⟩, hlin, hc⟩
  · exact fits_broadcast (by simp [DimE.val, eval]) _ _
  · have hsub : ∀ env, eval (memS host σ) env (substOthers dst d X 0 e') = eval (memS host σ) env e' := by
      intro env
      rw [(substOthers_sound (memS host σ) (d := d) hd X 0 e' (fun _ h => h) g2.plain).2.2]
      refine eval_congr_free _ _ _ _ fun z hz => minsEnv_other _ _ _ _ fun hz' => ?_
      exact hO' z (hoth.1 hz').1 (hoth.1 hz').2 hz
    have hlin' : ∀ j, eval (memS host σ) (env.set x j) e' = eval (memS host σ) env a * j + eval (memS host σ) env b := by
      intro j
      rw [← hsub, (hlin _).1]
      have : ∀ {q : Expr}, ExprOk X (fun z => FreeIn z (substOthers dst d X 0 e') ∧ z ≠ x) q → eval (memS host σ) (env.set x j) q = eval (memS host σ) env q :=
        fun hq => eval_congr_free _ _ _ _ fun z hz => by simp [Env.set, (hq.free z hz).2]
      rw [this oa, this ob]
      simp [Env.set]
    have hz : eval (memS host σ) env e' = eval (memS host σ) env a * env x + eval (memS host σ) env b := by
      rw [← hlin' (env x), henv]
    rw [hz]
    have ha := (hlin env).2
    rcases hc with ⟨hf, rfl⟩ | rfl
    · have hfe : FreeIn dst e := by
        rcases substOthers_free hd X 0 e' (fun _ h => h) g2.plain (ob.free dst hf).1 with ⟨h1, -⟩ | ⟨-, y, hy, hf⟩
        · exact g3 _ h1
        · exact absurd hf (hO' y (hoth.1 hy).1 (hoth.1 hy).2)
      have := fits_bounds (Sk := Sk) (Dd := Dd) (a := eval (memS host σ) env a) (b := eval (memS host σ) env b) hU hi (fun j h1 h2 => by
        rw [← hlin' j, ← (g5 _ (hr j (hin j h1 h2))).1]
        exact hb hfe j h1 h2)
      simpa [DimE.val, eval_mkBin, eval, BinOp.denote, bufMin, bufMax, bufBounds, hS, hD, Expr.defined] using this
    · have := fits_aligned (Sk := Sk) (a := eval (memS host σ) env a) (b := eval (memS host σ) env b) hU (i := env x) ha
      simpa only [DimE.val, eval_mkBin, eval, BinOp.denote, bufMin, bufMax, bufBounds, alignUpE, ediv, hS, hD, Expr.defined, if_true] using this

end

end Slinky
