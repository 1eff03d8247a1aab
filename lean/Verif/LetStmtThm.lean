import Verif.LetStmt

/-!
# C62: lets in statements. Theorems
-/

namespace Slinky.LT

open Slinky

variable {w : World} {l : List Ev}

theorem extend_append (ρ : SEnv) (σ : List (Nat × Expr)) (p : Nat × Expr) : extend ρ (σ ++ [p]) = (extend ρ σ).set p.1 (simple (extend ρ σ) p.2) := by
  simp [extend, List.foldl_append]

theorem extend_other : ∀ (σ : List (Nat × Expr)) (ρ : SEnv) (y : Nat), (∀ p ∈ σ, p.1 ≠ y) → extend ρ σ y = ρ y
  | [], _, _, _ => rfl
  | p :: σ, ρ, y, h => by
    have := extend_other σ (ρ.set p.1 (simple ρ p.2)) y fun q hq => h q (by simp [hq])
    simp only [extend, List.foldl_cons] at this ⊢
    rw [this]
    simp [SEnv.set, Ne.symm (h p (by simp))]

theorem set_comm (ρ : SEnv) {x y : Nat} (h : x ≠ y) (u v : Val) : (ρ.set x u).set y v = (ρ.set y v).set x u := by
  funext z
  simp only [SEnv.set]
  split
  · rename_i hz; subst hz; simp [Ne.symm h]
  · rfl

theorem simple_set {ρ : SEnv} {e : Expr} {x : Nat} (h : ¬ FreeIn x e) (u : Val) : simple (ρ.set x u) e = simple ρ e := by
  cases e with
  | var y f d =>
    simp only [FreeIn] at h
    cases f <;> simp [simple, SEnv.set, h]
  | _ => rfl

theorem extend_set : ∀ (σ : List (Nat × Expr)) (ρ : SEnv) (x : Nat) (u : Val), (∀ p ∈ σ, p.1 ≠ x ∧ ¬ FreeIn x p.2) →
    extend (ρ.set x u) σ = (extend ρ σ).set x u
  | [], _, _, _, _ => rfl
  | p :: σ, ρ, x, u, h => by
    obtain ⟨h1, h2⟩ := h p (by simp)
    have := extend_set σ (ρ.set p.1 (simple ρ p.2)) x u fun q hq => h q (by simp [hq])
    simp only [extend, List.foldl_cons] at this ⊢
    rw [simple_set h2, set_comm ρ (Ne.symm h1), this]

theorem evalS_set {ρ : SEnv} {e : Expr} {x : Nat} (h : ¬ FreeIn x e) (u : Val) : evalS w l (ρ.set x u) e = evalS w l ρ e :=
  evalS_free fun y hy => by
    have : y ≠ x := by rintro rfl; exact h hy
    simp [SEnv.set, this]

theorem evalS_not_undef {ρ : SEnv} {y : Nat} {d : Int} {u : Val} (h : evalS w l ρ (.var y .none d) = some u) : u = ρ y := by
  simp only [evalS] at h
  split at h
  · cases h
  · exact (Option.some.inj h).symm

/-- Values that have a name. -/
def RevOK (w : World) (l : List Ev) (ρ : SEnv) (σ : List (Nat × Expr)) (rev : List (Expr × Nat)) : Prop :=
  ∀ p ∈ rev, evalS w l ρ p.1 = some (extend ρ σ p.2)

theorem named_cases (rev : List (Expr × Nat)) (v : Expr) : (named rev v = v ∧ revAdd rev v = fun x => (v, x) :: rev) ∨
    ∃ p ∈ rev, p.1 = v ∧ named rev v = .v p.2 ∧ revAdd rev v = fun _ => rev := by
  unfold named
  cases h : rev.find? (fun p => decide (p.1 = v)) with
  | none => exact .inl ⟨rfl, by funext x; simp [revAdd, h]⟩
  | some p =>
    have h1 := List.mem_of_find?_eq_some h
    have h2 := List.find?_some h
    simp only [decide_eq_true_eq] at h2
    exact .inr ⟨p, h1, h2, rfl, by funext x; simp [revAdd, h]⟩

/-- The lets that are left, and the substituted variables, are the old environment. -/
theorem letLoop_eval {simp : List (Nat × Expr) → Expr → Expr} : ∀ (ls σ : List (Nat × Expr)) (rev : List (Expr × Nat)) (ρ ρ' : SEnv), StepsOK w simp ls σ rev →
    RevOK w l ρ σ rev → evalBindsS w l (extend ρ σ) (.ofList ls) = some ρ' →
    ∃ ρ2, evalBindsS w l ρ (.ofList (letLoop simp ls σ rev).1) = some ρ2 ∧ ρ' = extend ρ2 (letLoop simp ls σ rev).2
  | [], σ, rev, ρ, ρ', _, _, h => by
    simp only [Binds.ofList, evalBindsS, Option.some.injEq] at h
    exact ⟨ρ, by simp [letLoop, Binds.ofList, evalBindsS], by simp [letLoop, h]⟩
  | (x, e) :: ls, σ, rev, ρ, ρ', hs, hR, h => by
    simp only [StepsOK] at hs
    obtain ⟨hs, hrest⟩ := hs
    simp only [Binds.ofList, evalBindsS, Option.bind_eq_some_iff] at h
    obtain ⟨u, hu, h⟩ := h
    split at h
    · rename_i hb
      obtain ⟨i, rfl⟩ : ∃ i, u = .int i := by
        cases u with
        | undef => simp [bindable] at hb
        | int i => exact ⟨i, rfl⟩
        | buf b =>
          exfalso
          cases e with
          | var y f d =>
            cases f <;> simp [bindable] at hb
            exact hs.newE (by simp [FreeIn, hb])
          | _ => simp [bindable] at hb
      have hv := hs.sound ρ l _ hu
      generalize hvE : simp σ e = v at *
      rcases named_cases rev v with ⟨hn, hr⟩ | ⟨p, hp, hpv, hn, hr⟩
      · -- a new value
        simp only [letLoop, hvE, hn, hr] at hrest ⊢
        split
        · rename_i hsub
          rw [if_pos hsub] at hrest
          have hval : simple (extend ρ σ) v = .int i := by
            cases v with
            | const c => simpa [evalS, simple] using hv
            | var z f d =>
              simp only [shouldSubstitute, beq_iff_eq] at hsub
              subst hsub
              simp only [simple]
              rw [extend_other σ ρ z fun q hq => fun e => hs.gone q hq (by simp [FreeIn, e])]
              exact (evalS_not_undef hv).symm
            | _ => simp [shouldSubstitute] at hsub
          have he := extend_append ρ σ (x, v)
          simp only [hval] at he
          rw [← he] at h
          refine letLoop_eval ls _ _ ρ ρ' hrest ?_ h
          intro q hq
          rw [he]
          rcases List.mem_cons.1 hq with rfl | hq
          · simpa [SEnv.set] using hv
          · have := (hs.newR q hq).1
            simp only [SEnv.set, if_neg this]
            exact hR q hq
        · rename_i hsub
          rw [if_neg hsub] at hrest
          have he := extend_set σ ρ x (.int i) hs.newS
          rw [← he] at h
          obtain ⟨ρ2, h1, h2⟩ := letLoop_eval ls σ _ (ρ.set x (.int i)) ρ' hrest (by
            intro q hq
            rw [he]
            rcases List.mem_cons.1 hq with rfl | hq
            · rw [evalS_set hs.newV]; simpa [SEnv.set] using hv
            · obtain ⟨a1, a2⟩ := hs.newR q hq
              rw [evalS_set a2]
              simp only [SEnv.set, if_neg a1]
              exact hR q hq) h
          exact ⟨ρ2, by simp only [Binds.ofList, evalBindsS, hv, Option.bind_some, bindable, if_true]; exact h1, h2⟩
      · -- the value has a name
        have hsub : shouldSubstitute (.v p.2) = true := rfl
        simp only [letLoop, hvE, hn, hr, hsub, if_true] at hrest ⊢
        have hval : simple (extend ρ σ) (.v p.2) = .int i := by
          have := hR p hp
          rw [hpv, hv] at this
          simpa [simple, Expr.v] using (Option.some.inj this).symm
        have he := extend_append ρ σ (x, .v p.2)
        simp only [hval] at he
        rw [← he] at h
        refine letLoop_eval ls _ _ ρ ρ' hrest ?_ h
        intro q hq
        rw [he]
        have := (hs.newR q hq).1
        simp only [SEnv.set, if_neg this]
        exact hR q hq
    · cases h

/-- The lets that are removed are not used. -/
theorem prune_eval (used : Nat → Bool) : ∀ (ls : List (Nat × Expr)) (a b ρ2 : SEnv),
    (∀ y, used y = true ∨ (∃ p ∈ prune used ls, FreeIn y p.2) → a y = b y) → evalBindsS w l a (.ofList ls) = some ρ2 →
    ∃ ρ3, evalBindsS w l b (.ofList (prune used ls)) = some ρ3 ∧ ∀ y, used y = true → ρ2 y = ρ3 y
  | [], a, b, ρ2, hab, h => by
    simp only [Binds.ofList, evalBindsS, Option.some.injEq] at h
    subst h
    exact ⟨b, by simp [prune, Binds.ofList, evalBindsS], fun y hy => hab y (.inl hy)⟩
  | (x, e) :: ls, a, b, ρ2, hab, h => by
    simp only [Binds.ofList, evalBindsS, Option.bind_eq_some_iff] at h
    obtain ⟨u, hu, h⟩ := h
    split at h
    · rename_i hb
      simp only [prune] at hab ⊢
      split
      · rename_i hx
        rw [if_pos hx] at hab
        have he : evalS w l b e = some u := by
          rw [← hu]
          exact evalS_free fun y hy => (hab y (.inr ⟨(x, e), by simp, hy⟩)).symm
        obtain ⟨ρ3, h1, h2⟩ := prune_eval used ls (a.set x u) (b.set x u) ρ2 (fun y hy => by
          simp only [SEnv.set]
          split
          · rfl
          · exact hab y (hy.imp id fun ⟨p, hp, hf⟩ => ⟨p, by simp [hp], hf⟩)) h
        exact ⟨ρ3, by simp only [Binds.ofList, evalBindsS, he, Option.bind_some, hb, if_true]; exact h1, h2⟩
      · rename_i hx
        rw [if_neg hx] at hab
        simp only [Bool.or_eq_true, List.any_eq_true, freeInB_iff, not_or, not_exists, not_and] at hx
        refine prune_eval used ls (a.set x u) b ρ2 (fun y hy => ?_) h
        have hne : y ≠ x := by
          rintro rfl
          rcases hy with hy | ⟨p, hp, hf⟩
          · exact hx.1 hy
          · exact hx.2 p hp hf
        simp only [SEnv.set, if_neg hne]
        exact hab y hy
    · cases h

theorem evalBinds_append : ∀ (as bs : List (Nat × Expr)) (ρ : SEnv),
    evalBindsS w l ρ (.ofList (as ++ bs)) = (evalBindsS w l ρ (.ofList as)).bind fun ρ1 => evalBindsS w l ρ1 (.ofList bs)
  | [], bs, ρ => by simp [Binds.ofList, evalBindsS]
  | (x, e) :: as, bs, ρ => by
    simp only [List.cons_append, Binds.ofList, evalBindsS, Option.bind_assoc]
    congr 1
    funext v
    split
    · exact evalBinds_append as bs _
    · rfl

theorem ofList_toList : ∀ bs : Binds, Binds.ofList bs.toList = bs
  | .nil => rfl
  | .cons x e bs => by simp only [Binds.toList, Binds.ofList, ofList_toList bs]

/-- Flattened lets. -/
theorem flatten_sem : ∀ (s : Stmt) (bs : List (Nat × Expr)) (ρ : SEnv),
    sem w false (flatten bs s) ρ l = (evalBindsS w l ρ (.ofList bs)).bind fun ρ1 => sem w false s ρ1 l
  | .lets cs b c, bs, ρ => by
    simp only [flatten]
    rw [flatten_sem b (bs ++ cs.toList) ρ, evalBinds_append, Option.bind_assoc, ofList_toList]
    congr 1
  | .undef, bs, ρ => flat_other rfl
  | .call .., bs, ρ => flat_other rfl
  | .copy .., bs, ρ => flat_other rfl
  | .block .., bs, ρ => flat_other rfl
  | .loop .., bs, ρ => flat_other rfl
  | .allocate .., bs, ρ => flat_other rfl
  | .makeBuffer .., bs, ρ => flat_other rfl
  | .constantBuffer .., bs, ρ => flat_other rfl
  | .cloneBuffer .., bs, ρ => flat_other rfl
  | .cropBuffer .., bs, ρ => flat_other rfl
  | .cropDim .., bs, ρ => flat_other rfl
  | .sliceBuffer .., bs, ρ => flat_other rfl
  | .sliceDim .., bs, ρ => flat_other rfl
  | .transpose .., bs, ρ => flat_other rfl
  | .async .., bs, ρ => flat_other rfl
  | .check .., bs, ρ => flat_other rfl
where
  flat_other {s : Stmt} {bs : List (Nat × Expr)} {ρ : SEnv} (h : flatten bs s = if bs = [] then s else .lets (.ofList bs) s false) :
      sem w false (flatten bs s) ρ l = (evalBindsS w l ρ (.ofList bs)).bind fun ρ1 => sem w false s ρ1 l := by
    rw [h]
    split
    · rename_i hb; subst hb; simp [Binds.ofList, evalBindsS]
    · simp [sem]

theorem letLoop_names (simp : List (Nat × Expr) → Expr → Expr) : ∀ (ls σ : List (Nat × Expr)) (rev : List (Expr × Nat)) (p : Nat × Expr),
    p ∈ (letLoop simp ls σ rev).1 → p.1 ∈ ls.map Prod.fst
  | [], _, _, p, h => by simp [letLoop] at h
  | (x, e) :: ls, σ, rev, p, h => by
    simp only [letLoop] at h
    split at h
    · simp [letLoop_names simp ls _ _ p h]
    · rcases List.mem_cons.1 h with rfl | h
      · simp
      · have := letLoop_names simp ls _ _ p h
        simp only [List.map_cons, List.mem_cons]; exact .inr this

theorem syms_ofList : ∀ L : List (Nat × Expr), (Binds.ofList L).syms = L.map Prod.fst
  | [] => rfl
  | (x, e) :: L => by simp [Binds.ofList, Binds.syms, syms_ofList L]

theorem prune_sub (used : Nat → Bool) : ∀ (L : List (Nat × Expr)), ∀ p ∈ prune used L, p ∈ L
  | [], p, h => by simp [prune] at h
  | (x, e) :: L, p, h => by
    simp only [prune] at h
    split at h
    · rcases List.mem_cons.1 h with rfl | h
      · simp
      · simp [prune_sub used L p h]
    · simp [prune_sub used L p h]

/-- C62: the simplified let statement does what the let statement does. -/
theorem visitLet_sem_partial {simp : List (Nat × Expr) → Expr → Expr} {simpS : List (Nat × Expr) → Stmt → Stmt} {bs : List (Nat × Expr)} {body b : Stmt} {ρ : SEnv}
    {r : Int × List Ev} (hs : StepsOK w simp bs [] []) (hbE : b = simpS (letLoop simp bs [] []).2 body)
    (hS : ∀ ρ r, sem w false body (extend ρ (letLoop simp bs [] []).2) l = some r → sem w false b ρ l = some r)
    (hb : b.BufOK) (hc : b.ClosOK) (hn : ∀ x ∈ bs.map Prod.fst, ¬ b.Uses none x)
    (h : sem w false (.lets (.ofList bs) body false) ρ l = some r) : sem w false (visitLet simp simpS bs body) ρ l = some r := by
  simp only [sem, Bool.false_and, if_neg Bool.false_ne_true, Option.bind_eq_some_iff] at h
  obtain ⟨ρ', h1, h2⟩ := h
  obtain ⟨ρ2, h3, rfl⟩ := letLoop_eval (w := w) (l := l) (simp := simp) bs [] [] ρ ρ' hs (fun p hp => by simp at hp) h1
  have h4 := hS ρ2 r h2
  simp only [visitLet, ← hbE]
  rw [flatten_sem]
  obtain ⟨ρ3, h5, h6⟩ := prune_eval (w := w) (l := l) (fun x => !(dependsOnS b x).isEmpty) (letLoop simp bs [] []).1 ρ ρ ρ2 (fun _ _ => rfl) h3
  rw [h5, Option.bind_some, ← h4]
  symm
  refine sem_congr_eq hb hc fun y => ?_
  by_cases hy : (!(dependsOnS b y).isEmpty) = true
  · exact .inl (h6 y hy)
  · by_cases hyn : y ∈ bs.map Prod.fst
    · refine .inr ⟨fun p hp => hy ?_, fun h => absurd h (hn y hyn)⟩
      have hp : Stmt.Uses (some p) y b := hp
      rw [← dependsOnS_flags b hb] at hp
      cases hd : dependsOnS b y with
      | nil => rw [hd] at hp; simp at hp
      | cons _ _ => rfl
    · left
      rw [evalBindsS_other h3 y (by
          rw [syms_ofList]; intro hm
          obtain ⟨p, hp, rfl⟩ := List.mem_map.1 hm
          exact hyn (letLoop_names simp bs [] [] p hp)),
        evalBindsS_other h5 y (by
          rw [syms_ofList]; intro hm
          obtain ⟨p, hp, rfl⟩ := List.mem_map.1 hm
          exact hyn (letLoop_names simp bs [] [] p (prune_sub _ _ p hp)))]

end Slinky.LT
