import Verif.SlideFold
import Verif.SlideStore
import Verif.SimplifierApi
import Verif.ImplementCopyDim
import Verif.CompareProps

/-!
# C45: sliding windows and storage folding

The theorems are about one dimension of one buffer in one loop: what `slide_and_fold_buffer` decides for it.
-/

namespace Slinky

/-- The simplifier is right, for the assumptions that it is given. -/
structure SlideOK (m : Mem) (S : SlideCfg) : Prop where
  mem : BufMem m
  cfg : ∀ ρ, SimpCfgOK S.cfg m ρ

/-- What `S` assumes about the variables is true. -/
abbrev SlideCfg.Holds (S : SlideCfg) (m : Mem) (ρ : Env) : Prop := Assumed m ρ S.bounds S.align

section
variable {m : Mem} {S : SlideCfg} (H : SlideOK m S)

theorem SlideOK.simp_ok (H : SlideOK m S) {e : Expr} (h : e.ok = true) : (S.simp e).ok = true := (simplify_sound_partial H.mem H.cfg S.fuel h).1
theorem SlideOK.simp_eval (H : SlideOK m S) {e : Expr} (h : e.ok = true) {ρ : Env} (ha : S.Holds m ρ) : eval m ρ (S.simp e) = eval m ρ e :=
  (simplify_sound_partial H.mem H.cfg S.fuel h).2 ρ ha
theorem SlideOK.proved (H : SlideOK m S) {e : Expr} (h : e.ok = true) (hp : S.prove e = true) {ρ : Env} (ha : S.Holds m ρ) : eval m ρ e ≠ 0 :=
  proveTrue_sound_partial H.mem H.cfg S.fuel h hp ρ ha

/-! ### The bounds that are simplified -/

theorem emptyCase_eq (i : Interval) : emptyCase i = i ∨ ∃ a b c, i.min = .select (.bin .lt b a) c a ∧ i.max = b ∧
    (c = .bin .add b (.const 1) ∨ c = .bin .add (.const 1) b) ∧ emptyCase i = ⟨a, b, false⟩ := by
  unfold emptyCase
  split
  · next b a c a' hm =>
    split
    · next h =>
      simp only [Bool.and_eq_true, Bool.or_eq_true, match_iff] at h
      obtain ⟨⟨h1, rfl⟩, rfl⟩ := h
      exact .inr ⟨a', _, c, hm, rfl, h1, rfl⟩
    · exact .inl rfl
  · exact .inl rfl

/-- The simplified interval has the same max and, unless it is empty, the same min. -/
theorem SlideOK.simpI_eval (H : SlideOK m S) {b : Interval} (hw : b.WF) (h1 : b.min.ok = true) (h2 : b.max.ok = true) {ρ : Env} (ha : S.Holds m ρ) :
    eval m ρ (S.simpI b).max = eval m ρ b.max ∧
    (eval m ρ (S.simpI b).min = eval m ρ b.min ∨ (eval m ρ b.min = eval m ρ b.max + 1 ∧ eval m ρ b.max < eval m ρ (S.simpI b).min)) := by
  unfold SlideCfg.simpI
  split
  · next hp =>
    have he : b.min = b.max := by
      unfold deepIsPoint Interval.isPoint at hp
      simp only [Bool.or_eq_true, Bool.and_eq_true, match_iff] at hp
      rcases hp with ⟨-, h⟩ | h
      · exact hw h
      · exact h
    simp only [Interval.point, H.simp_eval h1 ha]
    exact ⟨by rw [he], .inl trivial⟩
  · have key : ∀ r : Interval, (eval m ρ r.max = eval m ρ b.max ∧ (eval m ρ r.min = eval m ρ b.min ∨
        (eval m ρ b.min = eval m ρ b.max + 1 ∧ eval m ρ b.max < eval m ρ r.min))) →
        (eval m ρ (if matchE r.min r.max then Interval.point r.min else r).max = eval m ρ b.max ∧
          (eval m ρ (if matchE r.min r.max then Interval.point r.min else r).min = eval m ρ b.min ∨
        (eval m ρ b.min = eval m ρ b.max + 1 ∧ eval m ρ b.max < eval m ρ (if matchE r.min r.max then Interval.point r.min else r).min))) := by
      intro r hr
      split
      · next hm =>
        simp only [match_iff] at hm
        simp only [Interval.point]
        rw [hm]
        exact ⟨hr.1, by rw [← hm]; exact hr.2⟩
      · exact hr
    refine key _ ?_
    rcases emptyCase_eq ⟨S.simp b.min, S.simp b.max, false⟩ with h | ⟨a, b', c, e1, e2, e3, h⟩
    · rw [h]
      exact ⟨H.simp_eval h2 ha, .inl (H.simp_eval h1 ha)⟩
    · rw [h]
      dsimp only at e1 e2 ⊢
      have v2 := H.simp_eval h2 ha
      have v1 := H.simp_eval h1 ha
      rw [e2] at v2
      rw [e1] at v1
      refine ⟨v2, ?_⟩
      have hc : eval m ρ c = eval m ρ b.max + 1 := by
        rcases e3 with rfl | rfl <;> simp only [eval, BinOp.denote, v2]
        omega
      simp only [eval, BinOp.denote, hc, v2] at v1
      by_cases hlt : eval m ρ b.max < eval m ρ a
      · right
        simp only [b2i, hlt, if_true, ne_eq, one_ne_zero, not_false_eq_true] at v1
        exact ⟨v1.symm, hlt⟩
      · left
        simp only [b2i, hlt, if_false, ne_eq, not_true_eq_false] at v1
        exact v1

theorem SlideOK.simpI_ok (H : SlideOK m S) {b : Interval} (h1 : b.min.ok = true) (h2 : b.max.ok = true) :
    (S.simpI b).min.ok = true ∧ (S.simpI b).max.ok = true := by
  unfold SlideCfg.simpI
  split
  · exact ⟨H.simp_ok h1, H.simp_ok h1⟩
  · have key : ∀ r : Interval, r.min.ok = true → r.max.ok = true →
        (if matchE r.min r.max then Interval.point r.min else r).min.ok = true ∧ (if matchE r.min r.max then Interval.point r.min else r).max.ok = true := by
      intro r a1 a2
      split
      · exact ⟨a1, a1⟩
      · exact ⟨a1, a2⟩
    rcases emptyCase_eq ⟨S.simp b.min, S.simp b.max, false⟩ with h | ⟨a, b', c, e1, e2, e3, h⟩
    · exact key _ (by rw [h]; exact H.simp_ok h1) (by rw [h]; exact H.simp_ok h2)
    · dsimp only at e1 e2
      have o1 := H.simp_ok h1
      have o2 := H.simp_ok h2
      rw [e1] at o1
      rw [e2] at o2
      simp only [Expr.ok, Bool.and_eq_true] at o1
      exact key _ (by rw [h]; exact o1.2) (by rw [h]; exact o2)

/-- The bound of a factor. -/
theorem SlideOK.upper (H : SlideOK m S) {e : Expr} (h : e.ok = true) {c : Int} (hc : constantUpperBound S.cfg.trust e = .const c) (ρ : Env) : eval m ρ e ≤ c :=
  constantUpperBound_sound_partial (H.cfg ρ).trust h hc

theorem SlideOK.simplify_eval (H : SlideOK m S) {e : Expr} (h : e.ok = true) {bounds align} {ρ : Env} (ha : Assumed m ρ bounds align) :
    eval m ρ (simplify S.cfg S.fuel e bounds align) = eval m ρ e := (simplify_sound_partial H.mem H.cfg S.fuel h).2 ρ ha

/-- The max of the bounds of an expression has a value, and its upper bound is a constant: then we know what the fold factor or the overlap means. -/
def BoundKnown (S : SlideCfg) (e : Expr) (align : Nat → Option MR) : Prop :=
  (boundsOf S.cfg S.fuel e S.bounds align).max.ok = true ∧
    (asConst (constantUpperBound S.cfg.trust (S.simp (boundsOf S.cfg S.fuel e S.bounds align).max))).isSome ∧
    (asConst (constantUpperBound S.cfg.trust (boundsOf S.cfg S.fuel e S.bounds align).max)).isSome

theorem SlideOK.foldFactor_sound (H : SlideOK m S) {loop : SlideLoop} {e : Expr} {align : Nat → Option MR} (he : e.ok = true) (hk : BoundKnown S e align)
    {ρ : Env} (ha : S.Holds m ρ) (ha' : Assumed m ρ S.bounds align) {f : Int}
    (hf : S.foldFactor loop (boundsOf S.cfg S.fuel e S.bounds align).max = .const f) : eval m ρ e ≤ f := by
  obtain ⟨k1, k2, k3⟩ := hk
  obtain ⟨c, hc⟩ := Option.isSome_iff_exists.1 k2
  have hc' := asConst_eq hc
  have h1 := (boundsOf_sound_partial H.mem H.cfg S.fuel he ρ ha').hi.2 k1
  have h2 := H.upper (H.simp_ok k1) hc' ρ
  rw [H.simp_eval k1 ha] at h2
  have h3 : (f : Int) = c := by
    unfold SlideCfg.foldFactor at hf
    rw [hc'] at hf
    dsimp only at hf
    have h4 := H.simp_eval (e := .const c) (by simp [Expr.ok]) ha
    split at hf
    · rw [hf] at h4; simpa [eval] using h4
    · cases hf
  omega

theorem SlideOK.overlap_sound (H : SlideOK m S) {e : Expr} (he : e.ok = true) (hk : BoundKnown S e S.align) {ρ : Env} (ha : S.Holds m ρ) {f : Int}
    (hf : simplify S.cfg S.fuel (constantUpperBound S.cfg.trust (boundsOf S.cfg S.fuel e S.bounds S.align).max) S.bounds (fun _ => none) = .const f) :
    eval m ρ e ≤ f := by
  obtain ⟨k1, k2, k3⟩ := hk
  obtain ⟨c, hc⟩ := Option.isSome_iff_exists.1 k3
  have hc' := asConst_eq hc
  have h1 := (boundsOf_sound_partial H.mem H.cfg S.fuel he ρ ha).hi.2 k1
  have h2 := H.upper k1 hc' ρ
  rw [hc'] at hf
  have h4 := H.simplify_eval (e := .const c) (by simp [Expr.ok]) (bounds := S.bounds) (align := fun _ => none) (ρ := ρ) ⟨ha.bounds, fun _ _ h => by cases h⟩
  rw [hf] at h4
  simp only [eval] at h4
  omega


/-! ### Substitution -/

theorem substitute_plain (m : Mem) {t : Nat} {r e : Expr} (hr : r.defined = true) {X : List Nat} (ht : t ∈ X) (he : e.Plain X) (ρ : Env) :
    eval m ρ (substitute e t r) = eval m (ρ.set t (eval m ρ r)) e := by
  unfold substitute
  split
  · split
    · next hz => subst hz; simp [eval, Env.set_self]
    · exact substP_plain m t hr ht e he ρ
  · exact substP_plain m t hr ht e he ρ

theorem substitute_ok {t : Nat} {r e : Expr} (hr : r.defined = true) (h1 : r.ok = true) (h2 : r.WF) {X : List Nat} (ht : t ∈ X) (h3 : r.Plain X)
    (he : e.Plain X) : (e.ok = true → (substitute e t r).ok = true) ∧ (substitute e t r).Plain X := by
  unfold substitute
  split
  · split
    · exact ⟨id, he⟩
    · exact ⟨(substP_ok t hr h1 h2 ht h3 e he).1, (substP_ok t hr h1 h2 ht h3 e he).2.2⟩
  · exact ⟨(substP_ok t hr h1 h2 ht h3 e he).1, (substP_ok t hr h1 h2 ht h3 e he).2.2⟩

/-! ### The input -/

/-- The first index that is new in an iteration (slide_and_fold_storage.cc:407). -/
def SlideCfg.newMin (S : SlideCfg) (loop : SlideLoop) (b : Interval) : Expr := S.simp (mkBin .add (prevBounds loop (S.simpI b)).max (.const 1))

/-- An expression that does not depend on the loop variable, and is free of lets and `buffer_at`. -/
structure Expr.Outside (x : Nat) (e : Expr) : Prop where
  ok : e.ok = true
  wf : e.WF
  plain : e.Plain [x]
  free : ¬ FreeIn x e

/-- The loop and the bounds of the dimension are as the pass expects them: the step and the min of the loop do not depend on its variable, and the bounds have
values and are free of lets and `buffer_at`. -/
structure SlideInput (S : SlideCfg) (loop : SlideLoop) (b : Interval) : Prop where
  wf : b.WF
  min_ok : b.min.ok = true
  max_ok : b.max.ok = true
  min_plain : (S.simpI b).min.Plain [loop.sym]
  max_plain : (S.simpI b).max.Plain [loop.sym]
  new_plain : (S.newMin loop b).Plain [loop.sym]
  step : loop.step.Outside loop.sym
  lmin : loop.min.Outside loop.sym
  orig : loop.origMin ≠ loop.sym

/-- The value of an expression in the iteration `v`. -/
def SlideLoop.at (loop : SlideLoop) (m : Mem) (ρ : Env) (v : Int) (e : Expr) : Int := eval m (ρ.set loop.sym v) e

theorem Expr.Outside.at {loop : SlideLoop} {e : Expr} (h : e.Outside loop.sym) (m : Mem) (ρ : Env) (v : Int) : loop.at m ρ v e = eval m ρ e :=
  eval_set_not_free m e ρ loop.sym v h.free

section
variable {loop : SlideLoop} {b : Interval} (I : SlideInput S loop b)

theorem prevArg_ok (I : SlideInput S loop b) : (mkBin .sub (.v loop.sym) loop.step).ok = true ∧ (mkBin .sub (.v loop.sym) loop.step).WF ∧
    (mkBin .sub (.v loop.sym) loop.step).Plain [loop.sym] :=
  ⟨by simp [Expr.v, Expr.ok, I.step.ok], wf_mkBin (by simp [Expr.v, Expr.WF]) I.step.wf, plain_mkBin (by simp [Expr.v, Expr.Plain]) I.step.plain⟩

theorem prevArg_eval (I : SlideInput S loop b) (ρ : Env) (v : Int) :
    eval m (ρ.set loop.sym v) (mkBin .sub (.v loop.sym) loop.step) = v - eval m ρ loop.step := by
  rw [eval_mkBin, BinOp.denote]
  have := I.step.at m ρ v
  unfold SlideLoop.at at this
  rw [this]
  simp [Expr.v, eval]

/-- The bounds of the previous iteration are those. -/
theorem prev_at (I : SlideInput S loop b) (ρ : Env) (v : Int) :
    loop.at m ρ v (prevBounds loop (S.simpI b)).min = loop.at m ρ (v - eval m ρ loop.step) (S.simpI b).min ∧
    loop.at m ρ v (prevBounds loop (S.simpI b)).max = loop.at m ρ (v - eval m ρ loop.step) (S.simpI b).max := by
  unfold SlideLoop.at prevBounds
  have hd := ok_defined (prevArg_ok I).1
  constructor
  · rw [substitute_plain m hd (X := [loop.sym]) (by simp) I.min_plain, prevArg_eval I, Env.set_set]
  · rw [substitute_plain m hd (X := [loop.sym]) (by simp) I.max_plain, prevArg_eval I, Env.set_set]

theorem prev_ok (H : SlideOK m S) (I : SlideInput S loop b) : (prevBounds loop (S.simpI b)).min.ok = true ∧ (prevBounds loop (S.simpI b)).max.ok = true := by
  obtain ⟨o1, o2, o3⟩ := prevArg_ok I
  obtain ⟨c1, c2⟩ := H.simpI_ok I.min_ok I.max_ok
  exact ⟨(substitute_ok (ok_defined o1) o1 o2 (by simp) o3 I.min_plain).1 c1, (substitute_ok (ok_defined o1) o1 o2 (by simp) o3 I.max_plain).1 c2⟩

theorem newMin_ok (H : SlideOK m S) (I : SlideInput S loop b) : (S.newMin loop b).ok = true :=
  H.simp_ok (by simp [(prev_ok H I).2])

/-- In the iteration `v`, the first index that is new comes after the last one of the previous iteration. -/
theorem newMin_at (H : SlideOK m S) (I : SlideInput S loop b) {ρ : Env} {v : Int} (ha : S.Holds m (ρ.set loop.sym v)) :
    loop.at m ρ v (S.newMin loop b) = loop.at m ρ (v - eval m ρ loop.step) (S.simpI b).max + 1 := by
  rw [← (prev_at I ρ v).2]
  unfold SlideLoop.at SlideCfg.newMin
  rw [H.simp_eval (by simp [(prev_ok H I).2]) ha, eval_mkBin]
  simp [BinOp.denote, eval]

theorem monotonic_at (H : SlideOK m S) (I : SlideInput S loop b) {ρ : Env} {v : Int} (ha : S.Holds m (ρ.set loop.sym v))
    (hp : S.prove (monotonicE (prevBounds loop (S.simpI b)) (S.simpI b)) = true) :
    loop.at m ρ (v - eval m ρ loop.step) (S.simpI b).min ≤ loop.at m ρ v (S.simpI b).min ∧
    loop.at m ρ (v - eval m ρ loop.step) (S.simpI b).max ≤ loop.at m ρ v (S.simpI b).max := by
  obtain ⟨c1, c2⟩ := H.simpI_ok I.min_ok I.max_ok
  obtain ⟨p1, p2⟩ := prev_ok H I
  have h := H.proved (by simp [monotonicE, c1, c2, p1, p2]) hp ha
  unfold monotonicE at h
  rw [← (prev_at I ρ v).1, ← (prev_at I ρ v).2]
  unfold SlideLoop.at
  simp only [eval_mkBin, BinOp.denote, b2i] at h
  by_contra hcon
  apply h
  rw [not_and_or] at hcon
  rcases hcon with hcon | hcon <;> simp [hcon]

end

end

end Slinky
