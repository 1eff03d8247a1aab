import Verif.DependsStmt
import Verif.RenameSem

/-!
# What does not depend on a symbol does not change with it

The dependencies of `depends_on.cc` (`DependsStmt.lean`) and the meaning of statements (`Sem.lean`).
-/

namespace Slinky

/-- The symbols in `D` have the same value in both environments. -/
def idScope (D : Nat → Prop) : Scope := ⟨D, id, fun _ => False, fun _ => False⟩

/-- The scope after a declaration. -/
def declD (D : Nat → Prop) (x : Nat) : Nat → Prop := fun y => y = x ∨ (D y ∧ y ≠ x)

theorem idScope_decl (D : Nat → Prop) (x : Nat) : (idScope D).Decl (idScope (declD D x)) x x := by
  refine ⟨?_, fun y hy => ?_, fun y hy => hy.elim, fun y hy => hy.elim⟩
  · funext y; simp only [idScope, upd, id]; split
    · rename_i h; exact h
    · rfl
  · exact hy

theorem idScope_inv (ρ ρ' : SEnv) : (idScope fun y => ρ y = ρ' y).Inv ρ ρ' := ⟨fun _ h => Eq.symm h, fun _ h => h.elim, fun _ h => h.elim⟩

mutual
theorem renE_refl : ∀ (e : Expr) (D : Nat → Prop), (∀ y, FreeIn y e → D y) → RenE (idScope D) e e
  | .undef, _, _ => rfl
  | .var x f d, D, h => ⟨h x (by simp [FreeIn]), rfl⟩
  | .const _, _, _ => rfl
  | .lets bs b, D, h => by
    obtain ⟨D', h1, h2⟩ := renB_refl bs D fun y hy => h y (Or.inl hy)
    refine ⟨bs, b, idScope D', h1, renE_refl b D' fun y hy => h2 y ?_, rfl⟩
    by_cases e : y ∈ bs.syms
    · exact Or.inl e
    · exact Or.inr ⟨h y (Or.inr ⟨e, hy⟩), e⟩
  | .bin _ a b, D, h => ⟨a, b, renE_refl a D fun y hy => h y (Or.inl hy), renE_refl b D fun y hy => h y (Or.inr hy), Or.inl rfl⟩
  | .not a, D, h => ⟨a, renE_refl a D h, rfl⟩
  | .select c t f, D, h => ⟨c, t, f, renE_refl c D fun y hy => h y (Or.inl hy), renE_refl t D fun y hy => h y (Or.inr (Or.inl hy)),
      renE_refl f D fun y hy => h y (Or.inr (Or.inr hy)), rfl⟩
  | .call _ as, D, h => ⟨as, renA_refl as D h, Or.inl rfl⟩
theorem renA_refl : ∀ (es : Exprs) (D : Nat → Prop), (∀ y, FreeInArgs y es → D y) → RenA (idScope D) es es
  | .nil, _, _ => rfl
  | .cons e es, D, h => ⟨e, es, renE_refl e D fun y hy => h y (Or.inl hy), renA_refl es D fun y hy => h y (Or.inr hy), rfl⟩
theorem renB_refl : ∀ (bs : Binds) (D : Nat → Prop), (∀ y, FreeInBinds y bs → D y) →
    ∃ D', RenB (idScope D) bs bs (idScope D') ∧ ∀ y, (y ∈ bs.syms ∨ (D y ∧ y ∉ bs.syms)) → D' y
  | .nil, D, _ => ⟨D, ⟨rfl, rfl⟩, fun y hy => by simpa [Binds.syms] using hy⟩
  | .cons x e bs, D, h => by
    obtain ⟨D', h1, h2⟩ := renB_refl bs (declD D x) fun y hy => by
      by_cases e : y = x
      · exact Or.inl e
      · exact Or.inr ⟨h y (Or.inr ⟨e, hy⟩), e⟩
    refine ⟨D', ⟨x, e, bs, idScope (declD D x), renE_refl e D fun y hy => h y (Or.inl hy), fun _ _ => rfl, idScope_decl D x, h1, rfl⟩, fun y hy => h2 y ?_⟩
    simp only [Binds.syms, List.mem_cons, not_or] at hy
    by_cases hb : y ∈ bs.syms
    · exact Or.inl hb
    · refine Or.inr ⟨?_, hb⟩
      rcases hy with (hy | hy) | hy
      · exact Or.inl hy
      · exact absurd hy hb
      · exact Or.inr ⟨hy.1, hy.2.1⟩
end

theorem freeIn_iff_reads {e : Expr} (h : e.BufOK) (x : Nat) : FreeIn x e ↔ ∃ p, ReadsO p x e := by
  have h2 : ∀ y, findDeps true [] y = some (some x) ↔ y = x := fun y => at_nil
  have h1 := depsE_iff true x e [] h
  have h3 := fun p => depsE_flag_iff true x p e [] h
  simp only [h2, exists_eq_left] at h1 h3
  rw [← h1]
  simp only [h3, ReadsO]
  constructor
  · rintro ⟨q, hq⟩; exact ⟨some q, q, rfl, hq⟩
  · rintro ⟨_, q, _, hq⟩; exact ⟨q, hq⟩

theorem freeInBinds_iff_reads {bs : Binds} (h : bs.BufOK) (x : Nat) : FreeInBinds x bs ↔ ∃ p, ReadsBinds p x bs := by
  have h2 : ∀ y, findDeps true [] y = some (some x) ↔ y = x := fun y => at_nil
  have h1 := depsBinds_iff true x bs [] h
  have h3 := fun p => depsBinds_flag_iff true x p bs [] h
  simp only [h2, exists_eq_left] at h1 h3
  rw [← h1]
  simp only [h3]

/-- The symbols of a closure are those of the context. -/
def Binds.Self : Binds → Prop
  | .nil => True
  | .cons x e bs => (∃ d, e = .var x .none d) ∧ bs.Self

mutual
/-- The lets of closures are of the form `x = x`. -/
def Stmt.ClosOK : Stmt → Prop
  | .lets bs b c => (c = true → bs.Self) ∧ b.ClosOK
  | .block ss => ss.ClosOK
  | .loop _ _ _ _ s => s.ClosOK
  | .allocate _ _ _ _ s => s.ClosOK
  | .makeBuffer _ _ _ _ s => s.ClosOK
  | .constantBuffer _ _ s => s.ClosOK
  | .cloneBuffer _ _ s => s.ClosOK
  | .cropBuffer _ _ _ s => s.ClosOK
  | .cropDim _ _ _ _ s => s.ClosOK
  | .sliceBuffer _ _ _ s => s.ClosOK
  | .sliceDim _ _ _ _ s => s.ClosOK
  | .transpose _ _ _ s => s.ClosOK
  | .async _ t s => t.ClosOK ∧ s.ClosOK
  | _ => True
/-- See `Stmt.ClosOK`. -/
def Stmts.ClosOK : Stmts → Prop
  | .nil => True
  | .cons s ss => s.ClosOK ∧ ss.ClosOK
end

/-- The environments agree on what a statement depends on. `U` is what it depends on: `U p y` if it uses part `p` of `y` (see `Stmt.Uses`). -/
def Agree (U : DepO → Nat → Prop) (ρ ρ' : SEnv) : Prop :=
  ∀ y, ρ y = ρ' y ∨ ((∀ p : Dep, ¬ U (some p) y) ∧ (U none y → (∃ b, ρ y = .buf b) ∧ ∃ b, ρ' y = .buf b))

variable {w : World} {l : List Ev} {U : DepO → Nat → Prop} {ρ ρ' : SEnv}

theorem Agree.eq (h : Agree U ρ ρ') {p : Dep} {y : Nat} (hy : U (some p) y) : ρ y = ρ' y :=
  (h y).resolve_right fun h1 => h1.1 p hy

theorem Agree.mono (h : Agree U ρ ρ') {V : DepO → Nat → Prop} (hv : ∀ p y, V p y → U p y) : Agree V ρ ρ' := fun y =>
  (h y).imp id fun ⟨h1, h2⟩ => ⟨fun p hp => h1 p (hv _ _ hp), fun hp => h2 (hv _ _ hp)⟩

theorem Agree.set (h : Agree U ρ ρ') {V : DepO → Nat → Prop} {x : Nat} (hv : ∀ p y, y ≠ x → V p y → U p y) (v : Val) :
    Agree V (ρ.set x v) (ρ'.set x v) := fun y => by
  by_cases e : y = x
  · exact Or.inl (by simp [SEnv.set_get, e])
  · rw [SEnv.set_get, SEnv.set_get, if_neg e, if_neg e]
    exact (h y).imp id fun ⟨h1, h2⟩ => ⟨fun p hp => h1 p (hv _ _ e hp), fun hp => h2 (hv _ _ e hp)⟩

theorem Agree.symm (h : Agree U ρ ρ') : Agree U ρ' ρ := fun y => (h y).imp Eq.symm fun ⟨h1, h2⟩ => ⟨h1, fun hp => (h2 hp).symm⟩

/-- The scope of the symbols that are equal. -/
abbrev eqScope (ρ ρ' : SEnv) : Scope := idScope fun y => ρ y = ρ' y

theorem Agree.renE (h : Agree U ρ ρ') {e : Expr} (he : e.BufOK) (hu : ∀ p y, ReadsO p y e → U p y) : RenE (eqScope ρ ρ') e e := by
  refine renE_refl e _ fun y hy => ?_
  obtain ⟨p, q, rfl, hp⟩ := (freeIn_iff_reads he y).mp hy
  exact h.eq (hu (some q) y ⟨q, rfl, hp⟩)

theorem Agree.renI (h : Agree U ρ ρ') {i : Interval} (hi : i.BufOK) (hu : ∀ p y, i.Reads p y → U p y) : RenI (eqScope ρ ρ') i i := by
  refine ⟨rfl, h.renE hi.1 fun p y hp => hu p y (Or.inl hp), ?_⟩
  by_cases hp : i.isPoint = true
  · exact Or.inl hp
  · right
    have h1 := h.renE hi.2 fun p y hp => hu p y (Or.inr hp)
    have h2 : i.maxEnd = i.max := by simp [Interval.maxEnd, hp]
    rwa [h2] at h1

theorem Agree.renD (h : Agree U ρ ρ') {d : DimE} (hd : d.BufOK) (hu : ∀ p y, d.Reads p y → U p y) : RenD (eqScope ρ ρ') d d :=
  ⟨h.renI hd.1 fun p y hp => hu p y (Or.inl hp), h.renE hd.2.1 fun p y hp => hu p y (Or.inr (Or.inl hp)),
    h.renE hd.2.2 fun p y hp => hu p y (Or.inr (Or.inr hp))⟩

theorem forall₂_refl {α : Type} {R : α → α → Prop} : ∀ {xs : List α}, (∀ x ∈ xs, R x x) → List.Forall₂ R xs xs
  | [], _ => .nil
  | x :: _, h => .cons (h x (by simp)) (forall₂_refl fun y hy => h y (by simp [hy]))

theorem Agree.renC (h : Agree U ρ ρ') {i : Interval} (hi : i.BufOK) (hu : ∀ p y, i.Reads p y → U p y) (z d : Nat) :
    RenC (eqScope ρ ρ') (eqScope ρ ρ') z d i i := by
  obtain ⟨_, h1, h2⟩ := h.renI hi hu
  by_cases hp : i.isPoint = true
  · exact Or.inl ⟨hp, hp, Or.inl h1⟩
  · right
    rw [if_neg hp]
    exact ⟨by simpa using hp, Or.inl h1, Or.inl (h2.resolve_left hp)⟩

theorem Agree.renCs (h : Agree U ρ ρ') (z : Nat) : ∀ {is : List Interval} (d : Nat), (∀ i ∈ is, i.BufOK) → (∀ p y, (∃ i ∈ is, i.Reads p y) → U p y) →
    RenCs (eqScope ρ ρ') (eqScope ρ ρ') z d is is
  | [], _, _, _ => rfl
  | i :: is, d, hi, hu => ⟨i, is, h.renC (hi i (by simp)) (fun p y hp => hu p y ⟨i, by simp, hp⟩) z d,
      h.renCs z (d + 1) (fun j hj => hi j (by simp [hj])) (fun p y ⟨j, hj, hp⟩ => hu p y ⟨j, by simp [hj], hp⟩), rfl⟩

theorem Agree.evalI (h : Agree U ρ ρ') {e : Expr} (he : e.BufOK) (hu : ∀ p y, ReadsO p y e → U p y) {i : Int} (hv : evalI w l ρ e = some i) :
    evalI w l ρ' e = some i := evalI_ren (idScope_inv ρ ρ') (h.renE he hu) hv

theorem Agree.binds {bs : Binds} (hb : bs.BufOK) {V : DepO → Nat → Prop} (h : Agree U ρ ρ') (hu : ∀ q y, ReadsBinds q y bs → U (some q) y)
    (hv : ∀ p y, y ∉ bs.syms → V p y → U p y) {ρ1 : SEnv} (he : evalBindsS w l ρ bs = some ρ1) :
    ∃ ρ1', evalBindsS w l ρ' bs = some ρ1' ∧ Agree V ρ1 ρ1' := by
  obtain ⟨D', h1, h2⟩ := renB_refl bs (fun y => ρ y = ρ' y) fun y hy => by
    obtain ⟨q, hq⟩ := (freeInBinds_iff_reads hb y).mp hy
    exact h.eq (hu q y hq)
  obtain ⟨ρ1', g1, g2⟩ := evalBindsS_ren h1 (idScope_inv ρ ρ') he
  refine ⟨ρ1', g1, fun y => ?_⟩
  by_cases hy : y ∈ bs.syms
  · exact Or.inl (g2.D y (h2 y (Or.inl hy))).symm
  · rw [evalBindsS_other he y hy, evalBindsS_other g1 y hy]
    exact (h y).imp id fun ⟨h1, h2⟩ => ⟨fun p hp => h1 p (hv _ _ hy hp), fun hp => h2 (hv _ _ hy hp)⟩

theorem initEnvS_congr {excl : Option Nat} : ∀ {bs : Binds}, bs.Self → (∀ q y, ReadsBinds q y bs → some y ≠ excl → ρ y = ρ' y) →
    initEnvS ρ' excl bs = initEnvS ρ excl bs
  | .nil, _, _ => rfl
  | .cons x e bs, hs, h => by
    obtain ⟨⟨d, rfl⟩, hs⟩ := hs
    have hb : initEnvS ρ' excl bs = initEnvS ρ excl bs := by
      refine initEnvS_congr hs fun q y hq hne => ?_
      by_cases hy : y = x
      · subst hy; exact h .var y (Or.inl ⟨rfl, Or.inl rfl⟩) hne
      · exact h q y (Or.inr ⟨hy, hq⟩) hne
    unfold initEnvS
    rw [hb]
    by_cases hx : some x = excl
    · simp only [if_pos hx]
    · have := h .var x (Or.inl ⟨rfl, Or.inl rfl⟩) hx
      simp only [if_neg hx]
      rw [this]

theorem Agree.bufs (h : Agree U ρ ρ') {p : Dep} : ∀ {xs : List Nat}, (∀ x ∈ xs, U (some p) x) → xs.mapM ρ.buf? = xs.mapM ρ'.buf?
  | [], _ => rfl
  | x :: xs, hx => by
    have := h.bufs (xs := xs) fun y hy => hx y (by simp [hy])
    simp only [List.mapM_cons, this]
    simp only [SEnv.buf?, h.eq (hx x (by simp))]

/-- The statement means the same in environments that agree on what it uses. -/
def CongrOk (w : World) (s : Stmt) : Prop := ∀ {ρ ρ' : SEnv} {l : List Ev} {r : Int × List Ev},
  Agree (fun p y => s.Uses p y) ρ ρ' → sem w false s ρ l = some r → sem w false s ρ' l = some r

/-- The body of a loop that is run by tasks. -/
theorem CongrOk.iter {s : Stmt} (ih : CongrOk w s) (hb : s.BufOK) (hc : s.ClosOK) {x : Nat} (h : Agree U ρ ρ') (hu : ∀ p y, y ≠ x → s.Uses p y → U p y)
    {init : SEnv} (h1 : newEnvS ρ (some x) s = some init) : ∃ init', newEnvS ρ' (some x) s = some init' ∧
      ∀ (v : Int) (l : List Ev) (r : Int × List Ev), sem w true s (init.set x (.int v)) l = some r → sem w true s (init'.set x (.int v)) l = some r := by
  cases hcl : s.closure? with
  | none =>
    rw [newEnvS_none hcl] at h1 ⊢
    cases h1
    refine ⟨ρ', rfl, fun v l r hh => ?_⟩
    rw [sem_skip hcl] at hh ⊢
    exact ih (h.set hu _) hh
  | some bs =>
    refine ⟨init, ?_, fun v l r hh => hh⟩
    rw [← h1]
    cases s with
    | lets bs' b c =>
      cases c with
      | false => simp [Stmt.closure?] at hcl
      | true =>
        simp only [Stmt.closure?, Option.some.injEq] at hcl
        subst hcl
        simp only [newEnvS, Stmt.closure?]
        refine initEnvS_congr (hc.1 rfl) fun q y hq hne => ?_
        exact h.eq (hu (some q) y (by simpa using hne) (Or.inl ⟨q, rfl, hq⟩))
    | _ => simp [Stmt.closure?] at hcl

/-- A task. -/
theorem CongrOk.task {s : Stmt} (ih : CongrOk w s) (hb : s.BufOK) (hc : s.ClosOK) (h : Agree (fun p y => s.Uses p y) ρ ρ')
    {init : SEnv} (h1 : newEnvS ρ none s = some init) : ∃ init', newEnvS ρ' none s = some init' ∧
      ∀ (l : List Ev) (r : Int × List Ev), sem w true s init l = some r → sem w true s init' l = some r := by
  cases hcl : s.closure? with
  | none =>
    rw [newEnvS_none hcl] at h1 ⊢
    cases h1
    refine ⟨ρ', rfl, fun l r hh => ?_⟩
    rw [sem_skip hcl] at hh ⊢
    exact ih h hh
  | some bs =>
    refine ⟨init, ?_, fun l r hh => hh⟩
    rw [← h1]
    cases s with
    | lets bs' b c =>
      cases c with
      | false => simp [Stmt.closure?] at hcl
      | true =>
        simp only [Stmt.closure?, Option.some.injEq] at hcl
        subst hcl
        simp only [newEnvS, Stmt.closure?]
        exact initEnvS_congr (hc.1 rfl) fun q y hq _ => h.eq (p := q) (Or.inl ⟨q, rfl, hq⟩)
    | _ => simp [Stmt.closure?] at hcl

mutual
theorem sem_congr : ∀ (s : Stmt) {ρ ρ' : SEnv} {l : List Ev} {r : Int × List Ev}, s.BufOK → s.ClosOK → Agree (fun p y => s.Uses p y) ρ ρ' →
    sem w false s ρ l = some r → sem w false s ρ' l = some r
  | .undef, _, _, _, _, _, _, _, h => by simp [sem] at h
  | .copy .., _, _, _, _, _, _, _, h => by simp [sem] at h
  | .call t i o xs, ρ, ρ', l, r, hb, hc, ha, h => by
    simp only [sem, Option.bind_eq_bind, Option.bind_eq_some_iff] at h ⊢
    obtain ⟨is, g1, os, g2, vs, g3, g4⟩ := h
    refine ⟨is, ?_, os, ?_, vs, ?_, g4⟩
    · rw [← ha.bufs (p := .var) fun x hx => Or.inl ⟨hx, Or.inl rfl⟩, g1]
    · rw [← ha.bufs (p := .var) fun x hx => Or.inr (Or.inl ⟨hx, Or.inl rfl⟩), g2]
    · exact mapM_ren (f := Slinky.evalI w l ρ) (g := Slinky.evalI w l ρ') (R := RenE (eqScope ρ ρ')) (fun a b c hab hc => evalI_ren (idScope_inv ρ ρ') hab hc)
        (forall₂_refl fun e he => ha.renE (hb e he) fun p y hp => Or.inr (Or.inr ⟨e, he, hp⟩)) g3
  | .lets bs body c, ρ, ρ', l, r, hb, hc, ha, h => by
    simp only [sem, Bool.false_and, Bool.false_eq_true, if_false, Option.bind_eq_some_iff] at h ⊢
    obtain ⟨ρ1, g1, g2⟩ := h
    obtain ⟨ρ1', g3, g4⟩ := ha.binds (V := fun p y => body.Uses p y) hb.1 (fun q y hq => Or.inl ⟨q, rfl, hq⟩) (fun p y hy hp => Or.inr ⟨hy, hp⟩) g1
    exact ⟨ρ1', g3, sem_congr body hb.2 hc.2 g4 g2⟩
  | .block ss, ρ, ρ', l, r, hb, hc, ha, h => by
    simp only [sem] at h ⊢
    exact semAll_congr ss hb hc ha h
  | .loop x wk b st body, ρ, ρ', l, r, hb, hc, ha, h => by
    have ih : CongrOk w body := fun h1 h2 => sem_congr body hb.2.2.2 hc h1 h2
    have hu : ∀ p y, y ≠ x → body.Uses p y → (Stmt.loop x wk b st body).Uses p y := fun p y hy hp => Or.inr (Or.inr (Or.inr ⟨hy, hp⟩))
    have hi := idScope_inv ρ ρ'
    simp only [sem, Option.bind_eq_bind, Option.bind_eq_some_iff] at h ⊢
    obtain ⟨n, g1, v, g2, s, g3, g4⟩ := h
    refine ⟨n, ha.evalI hb.2.2.1 (fun p y hp => Or.inr (Or.inr (Or.inl hp))) g1, v, evalIvS_ren hi (ha.renI hb.1 fun p y hp => Or.inl hp) g2, s,
      evalDefS_ren hi (ha.renE hb.2.1 fun p y hp => Or.inr (Or.inl hp)) g3, ?_⟩
    split at g4
    · cases g4
    · rename_i hs
      rw [if_neg hs]
      split at g4
      · rename_i hn
        rw [if_pos hn]
        simp only [Option.bind_eq_some_iff] at g4 ⊢
        obtain ⟨k, g5, g6⟩ := g4
        refine ⟨k, g5, ?_⟩
        by_cases k0 : k = 0
        · rw [if_pos k0] at g6 ⊢; exact g6
        · rw [if_neg k0] at g6 ⊢
          by_cases k1 : k = 1
          · rw [if_pos k1] at g6 ⊢
            exact ih (ha.set hu _) g6
          · rw [if_neg k1] at g6 ⊢
            split at g6
            · rename_i hp
              rw [if_pos hp]
              obtain ⟨i1, e0, g7⟩ := Option.bind_eq_some_iff.1 g6
              obtain ⟨init, e1, e2⟩ := CongrOk.iter ih hb.2.2.2 hc ha hu e0
              rw [e1, Option.bind_some]
              exact parS_congr (fun i l p hh => e2 i l p hh) g7
            · cases g6
      · rename_i hn
        rw [if_neg hn]
        exact serialS_congr (fun i l p hh => ih (ha.set hu _) hh) g4
  | .allocate x sto e ds body, ρ, ρ', l, r, hb, hc, ha, h => by
    have hi := idScope_inv ρ ρ'
    have hu : ∀ p y, y ≠ x → body.Uses p y → (Stmt.allocate x sto e ds body).Uses p y := fun p y hy hp => Or.inr (Or.inr ⟨hy, hp⟩)
    simp only [sem, Option.bind_eq_bind, Option.bind_eq_some_iff] at h ⊢
    obtain ⟨n, g1, v, g2, g3⟩ := h
    refine ⟨n, ha.evalI hb.1 (fun p y hp => Or.inl hp) g1, v,
      evalDimsS_ren hi (forall₂_refl fun d hd => ha.renD (hb.2.1 d hd) fun p y hp => Or.inr (Or.inl ⟨d, hd, hp⟩)) g2, ?_⟩
    split at g3
    · exact g3
    · split at g3
      · rename_i hc'; rw [if_pos hc']; exact g3
      · rename_i hc'
        rw [if_neg hc']
        simp only [Option.map_eq_some_iff] at g3 ⊢
        obtain ⟨q, g4, g5⟩ := g3
        exact ⟨q, sem_congr body hb.2.2 hc (ha.set hu _) g4, g5⟩
  | .makeBuffer x p e ds body, ρ, ρ', l, r, hb, hc, ha, h => by
    have hi := idScope_inv ρ ρ'
    have hu : ∀ q y, y ≠ x → body.Uses q y → (Stmt.makeBuffer x p e ds body).Uses q y := fun q y hy hp => Or.inr (Or.inr (Or.inr ⟨hy, hp⟩))
    simp only [sem, Option.bind_eq_bind, Option.bind_eq_some_iff] at h ⊢
    obtain ⟨n, g1, v, g2, d, g3, g4⟩ := h
    refine ⟨n, evalDefS_ren hi (ha.renE hb.2.1 fun p y hp => Or.inr (Or.inl hp)) g1, v, evalDefS_ren hi (ha.renE hb.1 fun p y hp => Or.inl hp) g2, d,
      evalDimsS_ren hi (forall₂_refl fun d hd => ha.renD (hb.2.2.1 d hd) fun p y hp => Or.inr (Or.inr (Or.inl ⟨d, hd, hp⟩))) g3, ?_⟩
    generalize hB : Buf.mk (if v = 0 then none else some v) n (d.take (trimRank d)) = B at g4 ⊢
    by_cases hv : B.validate = true
    · rw [if_pos hv] at g4 ⊢; exact sem_congr body hb.2.2.2 hc (ha.set hu _) g4
    · rw [if_neg hv] at g4 ⊢; exact g4
  | .constantBuffer x b body, ρ, ρ', l, r, hb, hc, ha, h => by
    simp only [sem] at h ⊢
    exact sem_congr body hb hc (ha.set (fun p y hy hp => ⟨hy, hp⟩) _) h
  | .cloneBuffer x src body, ρ, ρ', l, r, hb, hc, ha, h => by
    simp only [sem, Option.bind_eq_some_iff] at h ⊢
    obtain ⟨b, g1, g2⟩ := h
    have hb1 := buf?_some g1
    have hex : ∃ b', ρ' src = .buf b' := by
      rcases ha src with h1 | ⟨_, h1⟩
      · exact ⟨b, by rw [← h1, hb1]⟩
      · exact (h1 (Or.inl ⟨rfl, rfl⟩)).2
    obtain ⟨b', hb'⟩ := hex
    refine ⟨b', by simp [SEnv.buf?, hb', Val.buf?], ?_⟩
    refine sem_congr body hb hc (fun y => ?_) g2
    rw [SEnv.set_get, SEnv.set_get]
    by_cases hy : y = x
    · subst hy
      simp only [if_true]
      rcases ha src with h1 | ⟨h1, h2⟩
      · left; rw [hb1, hb'] at h1; exact h1
      · right
        exact ⟨fun p hp => h1 p (Or.inr (Or.inr ⟨rfl, hp⟩)), fun _ => ⟨⟨_, rfl⟩, ⟨_, rfl⟩⟩⟩
    · rw [if_neg hy, if_neg hy]
      exact (ha y).imp id fun ⟨h1, h2⟩ => ⟨fun p hp => h1 p (Or.inr (Or.inl ⟨hy, hp⟩)), fun hp => h2 (Or.inr (Or.inl ⟨hy, hp⟩))⟩
  | .cropBuffer x src bs body, ρ, ρ', l, r, hb, hc, ha, h => by
    have hi := idScope_inv ρ ρ'
    have hs : ρ src = ρ' src := ha.eq (p := .bounds) (Or.inr (Or.inl ⟨rfl, Or.inl rfl⟩))
    have hcs := ha.renCs src 0 hb.1 fun p y hp => Or.inl hp
    simp only [sem, Option.bind_eq_some_iff] at h ⊢
    obtain ⟨b, g1, b1, g2, g3⟩ := h
    have hb' : ρ' src = .buf b := by rw [← hs, buf?_some g1]
    refine ⟨b, by simp [SEnv.buf?, hb', Val.buf?], b1, cropS_ren hi hb' hcs (fun _ _ => rfl) g2, ?_⟩
    split at g3
    · rename_i hcc
      rw [if_pos]
      · exact sem_congr body hb.2 hc (ha.set (fun p y hy hp => Or.inr (Or.inr (Or.inl ⟨hy, hp⟩))) _) g3
      · rintro rfl
        exact cropSeqS_ren hi hs rfl (buf?_some g1) (fun y _ hy => hy) hcs (hcc rfl)
    · cases g3
  | .cropDim x src d b body, ρ, ρ', l, r, hb, hc, ha, h => by
    have hi := idScope_inv ρ ρ'
    have hs : ρ src = ρ' src := ha.eq (p := .bounds) (Or.inr (Or.inl ⟨rfl, Or.inl rfl⟩))
    have hcs := ha.renC hb.1 (fun p y hp => Or.inl hp) src d
    simp only [sem, Option.bind_eq_some_iff] at h ⊢
    obtain ⟨b0, g1, v, g2, g3⟩ := h
    have hb' : ρ' src = .buf b0 := by rw [← hs, buf?_some g1]
    refine ⟨b0, by simp [SEnv.buf?, hb', Val.buf?], v, cropIv_ren hi ⟨b0, hb', rfl⟩ ?_ hcs g2,
      sem_congr body hb.2 hc (ha.set (fun p y hy hp => Or.inr (Or.inr (Or.inl ⟨hy, hp⟩))) _) g3⟩
    rintro y _ rfl
    exact ⟨b0, buf?_some g1, rfl⟩
  | .sliceBuffer x src es body, ρ, ρ', l, r, hb, hc, ha, h => by
    have hi := idScope_inv ρ ρ'
    have hs : ρ src = ρ' src := ha.eq (p := .bounds) (Or.inr (Or.inl ⟨rfl, Or.inl rfl⟩))
    simp only [sem, Option.bind_eq_some_iff] at h ⊢
    obtain ⟨b0, g1, v, g2, g3⟩ := h
    exact ⟨b0, by rw [← g1]; simp only [SEnv.buf?, hs], v, sliceS_ren hi (forall₂_refl fun e he => ha.renE (hb.1 e he) fun p y hp => Or.inl ⟨e, he, hp⟩) g2,
      sem_congr body hb.2 hc (ha.set (fun p y hy hp => Or.inr (Or.inr (Or.inl ⟨hy, hp⟩))) _) g3⟩
  | .sliceDim x src d e body, ρ, ρ', l, r, hb, hc, ha, h => by
    have hs : ρ src = ρ' src := ha.eq (p := .bounds) (Or.inr (Or.inl ⟨rfl, Or.inl rfl⟩))
    have hst : ∀ v, Agree (fun p y => body.Uses p y) (ρ.set x v) (ρ'.set x v) := fun v => ha.set (fun p y hy hp => Or.inr (Or.inr (Or.inl ⟨hy, hp⟩))) _
    simp only [sem, Option.bind_eq_some_iff] at h ⊢
    obtain ⟨b0, g1, g2⟩ := h
    refine ⟨b0, by rw [← g1]; simp only [SEnv.buf?, hs], ?_⟩
    by_cases hd : d ≥ b0.rank
    · rw [if_pos hd] at g2 ⊢
      exact sem_congr body hb.2 hc (hst _) g2
    · rw [if_neg hd] at g2 ⊢
      cases hbb : b0.base with
      | none =>
        simp only [hbb] at g2 ⊢
        exact sem_congr body hb.2 hc (hst _) g2
      | some q =>
        simp only [hbb, Option.bind_eq_some_iff] at g2 ⊢
        obtain ⟨i, g3, g4⟩ := g2
        exact ⟨i, ha.evalI hb.1 (fun p y hp => Or.inl hp) g3, sem_congr body hb.2 hc (hst _) g4⟩
  | .transpose x src ds body, ρ, ρ', l, r, hb, hc, ha, h => by
    have hs : ρ src = ρ' src := ha.eq (p := .bounds) (Or.inl ⟨rfl, Or.inl rfl⟩)
    simp only [sem, Option.bind_eq_some_iff] at h ⊢
    obtain ⟨b0, g1, g2⟩ := h
    refine ⟨b0, by rw [← g1]; simp only [SEnv.buf?, hs], ?_⟩
    split at g2
    · rename_i hcc
      rw [if_pos hcc]
      exact sem_congr body hb hc (ha.set (fun p y hy hp => Or.inr (Or.inl ⟨hy, hp⟩)) _) g2
    · cases g2
  | .async x task body, ρ, ρ', l, r, hb, hc, ha, h => by
    obtain ⟨rfl, hb1, hb2⟩ := hb
    have iht : CongrOk w task := fun h1 h2 => sem_congr task hb1 hc.1 h1 h2
    have ihb : CongrOk w body := fun h1 h2 => sem_congr body hb2 hc.2 h1 h2
    have hat : Agree (fun p y => task.Uses p y) ρ ρ' := ha.mono fun p y hp => ⟨by simp, Or.inl hp⟩
    have hab : Agree (fun p y => body.Uses p y) ρ ρ' := ha.mono fun p y hp => ⟨by simp, Or.inr hp⟩
    simp only [sem, asyncOk, if_true, SEnv.setOpt, ite_self] at h ⊢
    split at h
    · rename_i hc'
      rw [if_pos hc']
      simp only [Option.bind_eq_some_iff, Option.map_eq_some_iff] at h ⊢
      obtain ⟨ρt, g1, q, g2, ρb, g3, q2, g4, g5⟩ := h
      obtain ⟨i1, e1, e2⟩ := CongrOk.task iht hb1 hc.1 hat g1
      obtain ⟨i2, e3, e4⟩ := CongrOk.task ihb hb2 hc.2 hab g3
      exact ⟨i1, e1, q, e2 _ _ g2, i2, e3, q2, e4 _ _ g4, g5⟩
    · rename_i hc'
      rw [if_neg hc']
      simp only [Option.bind_eq_some_iff, Option.map_eq_some_iff] at h ⊢
      obtain ⟨ρt, g1, q, g2, ρb, g3, q2, g4, g5⟩ := h
      obtain ⟨i1, e1, e2⟩ := CongrOk.task ihb hb2 hc.2 hab g1
      obtain ⟨i2, e3, e4⟩ := CongrOk.task iht hb1 hc.1 hat g3
      exact ⟨i1, e1, q, e2 _ _ g2, i2, e3, q2, e4 _ _ g4, g5⟩
  | .check c, ρ, ρ', l, r, hb, hc, ha, h => by
    simp only [sem] at h ⊢
    split at h
    · cases h
    · rename_i hf
      rw [if_neg hf]
      simp only [Option.map_eq_some_iff] at h ⊢
      obtain ⟨v, h2, h3⟩ := h
      exact ⟨v, ha.evalI hb (fun p y hp => hp) h2, h3⟩
termination_by structural s => s
theorem semAll_congr : ∀ (ss : Stmts) {ρ ρ' : SEnv} {l : List Ev} {r : Int × List Ev}, ss.BufOK → ss.ClosOK → Agree (fun p y => ss.Uses p y) ρ ρ' →
    semAll w ss ρ l = some r → semAll w ss ρ' l = some r
  | .nil, _, _, _, _, _, _, _, h => by simpa [semAll] using h
  | .cons s ss, ρ, ρ', l, r, hb, hc, ha, h => by
    simp only [semAll, Option.bind_eq_some_iff] at h ⊢
    obtain ⟨q, g1, g2⟩ := h
    refine ⟨q, sem_congr s hb.1 hc.1 (ha.mono fun p y hp => Or.inl hp) g1, ?_⟩
    split at g2
    · rename_i h0; rw [if_pos h0]; exact g2
    · rename_i h0; rw [if_neg h0]; exact semAll_congr ss hb.2 hc.2 (ha.mono fun p y hp => Or.inr hp) g2
termination_by structural ss => ss
end

theorem sem_congr_eq {s : Stmt} (hb : s.BufOK) (hc : s.ClosOK) (h : Agree (fun p y => s.Uses p y) ρ ρ') : sem w false s ρ l = sem w false s ρ' l := by
  cases h1 : sem w false s ρ l with
  | some r => exact (sem_congr s hb hc h h1).symm
  | none =>
    cases h2 : sem w false s ρ' l with
    | none => rfl
    | some r => rw [sem_congr s hb hc h.symm h2] at h1; cases h1

/-- C09: a statement means the same whatever the values of the symbols are that are not in `find_dependencies`. -/
theorem findDependenciesS_sound (w : World) (s : Stmt) (hb : s.BufOK) (hc : s.ClosOK) (ρ ρ' : SEnv) (h : ∀ x ∈ findDependenciesS s, ρ x = ρ' x) (l : List Ev) :
    sem w false s ρ l = sem w false s ρ' l := by
  refine sem_congr_eq hb hc fun y => ?_
  by_cases hy : y ∈ findDependenciesS s
  · exact Or.inl (h y hy)
  · rw [findDependenciesS_iff s hb] at hy
    exact Or.inr ⟨fun p hp => hy ⟨_, hp⟩, fun hp => (hy ⟨_, hp⟩).elim⟩

/-- C09: if `depends_on(s, x)` has no flag, the statement means the same whatever buffer `x` is. (It may make a clone of `x` that is not used, so
`x` must be a buffer.) -/
theorem dependsOnS_sound (w : World) (s : Stmt) (hb : s.BufOK) (hc : s.ClosOK) (x : Nat) (h : dependsOnS s x = []) (ρ : SEnv) (b b' : Buf) (l : List Ev) :
    sem w false s (ρ.set x (.buf b)) l = sem w false s (ρ.set x (.buf b')) l := by
  refine sem_congr_eq hb hc fun y => ?_
  by_cases hy : y = x
  · subst hy
    refine Or.inr ⟨fun p hp => ?_, fun _ => ⟨⟨b, by simp [SEnv.set_get]⟩, ⟨b', by simp [SEnv.set_get]⟩⟩⟩
    have := (dependsOnS_flags s hb y p).mpr hp
    rw [h] at this
    cases this
  · exact Or.inl (by simp [SEnv.set_get, hy])

/-- The hypotheses of `dependsOnS_sound` are met by a statement that has a meaning. -/
theorem dependsOnS_sound_example :
    let s : Stmt := .cloneBuffer 3 1 (.cropDim 4 2 0 ⟨.const 1, .const 2, false⟩ (.call 7 [4] [2] [.var 2 .min 0]))
    s.BufOK ∧ s.ClosOK ∧ dependsOnS s 1 = [] ∧ ∀ x, x ∈ findDependenciesS s ↔ x = 1 ∨ x = 2 := by
  intro s
  have e : findDependenciesS s = 1 :: List.replicate 11 2 := by decide +kernel
  refine ⟨?_, ?_, by decide +kernel, fun x => by rw [e]; simp⟩
  · simp [s, Stmt.BufOK, Interval.BufOK, Interval.maxEnd, Interval.isPoint, Expr.defined, Expr.BufOK]
  · simp [s, Stmt.ClosOK]

end Slinky
