import Verif.RenameStmt

/-!
# Statements that are the same up to the names of symbols have the same meaning

See `Rename.lean`.
-/

namespace Slinky

variable {w : World}

/-- The scopes of a statement that is run by a task. -/
def RenT (sc : Scope) (s s' : Stmt) : Prop :=
  RenS sc s s' ∨ ∃ sy s1, s' = .lets (selfBinds sy) s1 true ∧ sy.Nodup ∧ (∀ z ∈ sy, sc.V z) ∧ RenS (sc.restrict sy) s s1

/-- The statement means the same whatever it is renamed to. -/
def RenOk (w : World) (s : Stmt) : Prop := ∀ {s' : Stmt} {sc : Scope} {ρ ρ' : SEnv} {l : List Ev} {p : Int × List Ev},
  RenS sc s s' → sc.Inv ρ ρ' → sem w false s ρ l = some p → sem w false s' ρ' l = some p

theorem RenT.closure? {sc : Scope} {s s' : Stmt} (h : RenT sc s s') : s.closure? = none := by
  rcases h with h | ⟨_, _, _, _, _, h⟩ <;> exact h.closure?

/-- Without a task. -/
theorem RenT.here {s s' : Stmt} (ih : RenOk w s) {sc : Scope} (hr : RenT sc s s') {ρ ρ' : SEnv} (hi : sc.Inv ρ ρ') {l : List Ev} {p : Int × List Ev}
    (h : sem w false s ρ l = some p) : sem w false s' ρ' l = some p := by
  rcases hr with hr | ⟨sy, s1, rfl, h1, h2, h3⟩
  · exact ih hr hi h
  · simp only [sem, Bool.false_and, Bool.false_eq_true, if_false, evalBindsS_self fun z hz => hi.V z (h2 z hz), Option.bind_some]
    refine ih h3 ⟨fun y hy => hi.D y hy.1, hi.U, fun y hy => hi.V y hy.1⟩ h

/-- An iteration of a parallel loop. -/
theorem RenT.iter {s s' : Stmt} (ih : RenOk w s) {sc sc' : Scope} {x x' : Nat} (hd : sc.Decl sc' x x') (hr : RenT sc' s s') {ρ ρ' : SEnv} (hi : sc.Inv ρ ρ') :
    ∃ init, newEnvS ρ' (some x') s' = some init ∧ ∀ (v : Int) (l : List Ev) (p : Int × List Ev), sem w true s (ρ.set x (.int v)) l = some p →
      sem w true s' (init.set x' (.int v)) l = some p := by
  have hc := hr.closure?
  rcases hr with hr | ⟨sy, s1, rfl, h1, h2, h3⟩
  · have hc' := hr.topOk.closure?
    refine ⟨ρ', newEnvS_none hc' _ _, fun v l p h => ?_⟩
    rw [sem_skip hc] at h
    rw [sem_skip hc']
    exact ih hr (hi.decl hd (by simp)) h
  · obtain ⟨ρ1, g1, g2⟩ := initEnvS_self h1 (ρ := ρ') (excl := some x')
    refine ⟨ρ1, by simpa [newEnvS, Stmt.closure?] using g1, fun v l p h => ?_⟩
    rw [sem_skip hc] at h
    simp only [sem, Bool.and_true, if_true]
    have hI := hi.decl hd (v := .int v) (by simp)
    have key : ∀ y, y ∈ sy → (ρ1.set x' (.int v)) y = (ρ'.set x' (.int v)) y := by
      intro y hy
      rw [SEnv.set_get, SEnv.set_get]
      split
      · rfl
      · rename_i hne
        rw [g2 y, if_pos ⟨hy, by simpa using hne⟩]
    refine ih h3 ⟨fun y hy => ?_, fun y hy => ?_, fun y hy => ?_⟩ h
    · have := hI.D y hy.1
      rw [← this]
      exact key _ hy.2
    · have h4 := (hd.U y hy).1
      have h5 := hI.U y hy
      rw [SEnv.set_get, if_neg h4] at h5 ⊢
      rw [g2 y, h5]
      split <;> rfl
    · rw [key y hy.2]
      exact hI.V y hy.1

/-- A task. -/
theorem RenT.task {s s' : Stmt} (ih : RenOk w s) {sc : Scope} (hr : RenT sc s s') {ρ ρ' : SEnv} (hi : sc.Inv ρ ρ') {ρ0 : SEnv}
    (h0 : newEnvS ρ none s = some ρ0) :
    ∃ init, newEnvS ρ' none s' = some init ∧ ∀ (l : List Ev) (p : Int × List Ev), sem w true s ρ0 l = some p → sem w true s' init l = some p := by
  have hc := hr.closure?
  rw [newEnvS_none hc] at h0
  simp only [Option.some.injEq] at h0
  subst h0
  rcases hr with hr | ⟨sy, s1, rfl, h1, h2, h3⟩
  · have hc' := hr.topOk.closure?
    refine ⟨ρ', newEnvS_none hc' _ _, fun l p h => ?_⟩
    rw [sem_skip hc] at h
    rw [sem_skip hc']
    exact ih hr hi h
  · obtain ⟨ρ1, g1, g2⟩ := initEnvS_self h1 (ρ := ρ') (excl := none)
    refine ⟨ρ1, by simpa [newEnvS, Stmt.closure?] using g1, fun l p h => ?_⟩
    rw [sem_skip hc] at h
    simp only [sem, Bool.and_true, if_true]
    have key : ∀ y, y ∈ sy → ρ1 y = ρ' y := fun y hy => by rw [g2 y, if_pos ⟨hy, by simp⟩]
    refine ih h3 ⟨fun y hy => ?_, fun y hy => ?_, fun y hy => ?_⟩ h
    · rw [← hi.D y hy.1]; exact key _ hy.2
    · rw [g2 y, hi.U y hy]; split <;> rfl
    · rw [key y hy.2]; exact hi.V y hy.1

theorem mapM_ren {α β γ : Type} {f : α → Option γ} {g : β → Option γ} {R : α → β → Prop} (h : ∀ a b c, R a b → f a = some c → g b = some c) :
    ∀ {xs : List α} {ys : List β}, List.Forall₂ R xs ys → ∀ {r : List γ}, xs.mapM f = some r → ys.mapM g = some r
  | _, _, .nil, r, h1 => by simpa using h1
  | _, _, .cons (a := a) (b := b) hab ht, r, h1 => by
    simp only [List.mapM_cons, Option.bind_eq_bind, Option.bind_eq_some_iff] at h1 ⊢
    obtain ⟨c, h2, cs, h3, h4⟩ := h1
    exact ⟨c, h a b c hab h2, cs, mapM_ren h ht h3, h4⟩

theorem buf?_ren {sc : Scope} {ρ ρ' : SEnv} (hi : sc.Inv ρ ρ') {x : Nat} (hx : sc.D x) : ρ'.buf? (sc.σ x) = ρ.buf? x := by
  simp only [SEnv.buf?, hi.D x hx]

theorem bufs_ren {sc : Scope} {ρ ρ' : SEnv} (hi : sc.Inv ρ ρ') {xs : List Nat} (hx : ∀ x ∈ xs, sc.D x) {r : List Buf} (h : xs.mapM ρ.buf? = some r) :
    (xs.map sc.σ).mapM ρ'.buf? = some r := by
  rw [← h, List.mapM_map]
  clear h
  induction xs with
  | nil => rfl
  | cons a as ih =>
    simp only [List.mapM_cons]
    rw [ih fun x hx' => hx x (by simp [hx'])]
    have := buf?_ren hi (hx a (by simp))
    simp only [Function.comp_apply, this]

mutual
theorem sem_ren : ∀ {s : Stmt} {s' : Stmt} {sc : Scope} {ρ ρ' : SEnv} {l : List Ev} {p : Int × List Ev},
    RenS sc s s' → sc.Inv ρ ρ' → sem w false s ρ l = some p → sem w false s' ρ' l = some p
  | .undef, _, _, _, _, _, _, _, _, h => by simp [sem] at h
  | .copy .., _, _, _, _, _, _, _, _, h => by simp [sem] at h
  | .call t i o xs, s', sc, ρ, ρ', l, p, hr, hi, h => by
    simp only [RenS] at hr
    obtain ⟨xs', rfl, h1, h2, h3⟩ := hr
    simp only [sem, Option.bind_eq_bind, Option.bind_eq_some_iff] at h ⊢
    obtain ⟨is, g1, os, g2, vs, g3, g4⟩ := h
    exact ⟨is, bufs_ren hi h1 g1, os, bufs_ren hi h2 g2, vs, mapM_ren (f := evalI w l ρ) (g := evalI w l ρ') (R := RenE sc) (fun a b c hab hc => evalI_ren hi hab hc) h3 g3, g4⟩
  | .lets bs body c, s', sc, ρ, ρ', l, p, hr, hi, h => by
    simp only [RenS] at hr
    obtain ⟨rfl, bs', body', sc', h1, h2, rfl⟩ := hr
    simp only [sem, Bool.false_and, Bool.false_eq_true, if_false, Option.bind_eq_some_iff] at h ⊢
    obtain ⟨ρ1, g1, g2⟩ := h
    obtain ⟨ρ1', g3, g4⟩ := evalBindsS_ren h1 hi g1
    exact ⟨ρ1', g3, sem_ren h2 g4 g2⟩
  | .block ss, s', sc, ρ, ρ', l, p, hr, hi, h => by
    simp only [RenS] at hr
    obtain ⟨ss', h1, h2⟩ := hr
    simp only [sem] at h
    have := semAll_ren h1 hi h
    rcases h2 with rfl | ⟨rfl, hu⟩
    · simpa only [sem] using this
    · exact sem_blockMake (semAll_semSeq this) hu
  | .loop x wk b st body, s', sc, ρ, ρ', l, p, hr, hi, h => by
    simp only [RenS] at hr
    obtain ⟨x', wk', b', st', body', sc', h1, h2, h3, h4, h5, rfl⟩ := hr
    have ih : RenOk w body := fun h1 h2 h3 => sem_ren h1 h2 h3
    have hT : RenT sc' body body' := h5
    simp only [sem, Option.bind_eq_bind, Option.bind_eq_some_iff] at h ⊢
    obtain ⟨n, g1, v, g2, s, g3, g4⟩ := h
    refine ⟨n, evalI_ren hi h1 g1, v, evalIvS_ren hi h2 g2, s, evalDefS_ren hi h3 g3, ?_⟩
    split at g4
    · cases g4
    · rename_i hs
      rw [if_neg hs]
      split at g4
      · rename_i hn
        rw [if_pos hn]
        simp only [Option.bind_eq_some_iff] at g4 ⊢
        obtain ⟨k, g5, g6⟩ := g4
        refine ⟨k, g5, ?_⟩
        by_cases k0 : k = 0
        · rw [if_pos k0] at g6 ⊢; exact g6
        · rw [if_neg k0] at g6 ⊢
          by_cases k1 : k = 1
          · rw [if_pos k1] at g6 ⊢
            exact hT.here ih (hi.decl h4 (by simp)) g6
          · rw [if_neg k1] at g6 ⊢
            split at g6
            · rename_i hp
              rw [if_pos hp]
              obtain ⟨init, e1, e2⟩ := RenT.iter ih h4 hT hi
              rw [newEnvS_none hT.closure?] at g6
              simp only [Option.bind_some] at g6
              rw [e1, Option.bind_some]
              exact parS_congr (fun i l p hh => e2 i l p hh) g6
            · cases g6
      · rename_i hn
        rw [if_neg hn]
        exact serialS_congr (fun i l p hh => hT.here ih (hi.decl h4 (by simp)) hh) g4
  | .allocate x sto e ds body, s', sc, ρ, ρ', l, p, hr, hi, h => by
    simp only [RenS] at hr
    obtain ⟨x', e', ds', body', sc', h1, h2, h3, h4, rfl⟩ := hr
    simp only [sem, Option.bind_eq_bind, Option.bind_eq_some_iff] at h ⊢
    obtain ⟨n, g1, v, g2, g3⟩ := h
    refine ⟨n, evalI_ren hi h1 g1, v, evalDimsS_ren hi h2 g2, ?_⟩
    split at g3
    · exact g3
    · split at g3
      · rename_i hc; rw [if_pos hc]; exact g3
      · rename_i hc
        rw [if_neg hc]
        simp only [Option.map_eq_some_iff] at g3 ⊢
        obtain ⟨q, g4, g5⟩ := g3
        exact ⟨q, sem_ren h4 (hi.decl h3 (by simp)) g4, g5⟩
  | .makeBuffer x p e ds body, s', sc, ρ, ρ', l, q, hr, hi, h => by
    simp only [RenS] at hr
    obtain ⟨x', p', e', ds', body', sc', h0, h1, h2, h3, h4, rfl⟩ := hr
    simp only [sem, Option.bind_eq_bind, Option.bind_eq_some_iff] at h ⊢
    obtain ⟨n, g1, v, g2, d, g3, g4⟩ := h
    refine ⟨n, evalDefS_ren hi h1 g1, v, evalDefS_ren hi h0 g2, d, evalDimsS_ren hi h2 g3, ?_⟩
    generalize hB : Buf.mk (if v = 0 then none else some v) n (d.take (trimRank d)) = B at g4 ⊢
    by_cases hc : B.validate = true
    · rw [if_pos hc] at g4 ⊢; exact sem_ren h4 (hi.decl h3 (by simp)) g4
    · rw [if_neg hc] at g4 ⊢; exact g4
  | .constantBuffer x b body, s', sc, ρ, ρ', l, p, hr, hi, h => by
    simp only [RenS] at hr
    obtain ⟨x', body', sc', h1, h2, rfl⟩ := hr
    simp only [sem] at h ⊢
    exact sem_ren h2 (hi.decl h1 (by simp)) h
  | .cloneBuffer x src body, s', sc, ρ, ρ', l, p, hr, hi, h => by
    simp only [RenS] at hr
    obtain ⟨x', body', sc', h0, h1, h2, rfl⟩ := hr
    simp only [sem, Option.bind_eq_some_iff] at h ⊢
    obtain ⟨b, g1, g2⟩ := h
    exact ⟨b, by rw [buf?_ren hi h0, g1], sem_ren h2 (hi.decl h1 (by simp)) g2⟩
  | .cropBuffer x src bs body, s', sc, ρ, ρ', l, p, hr, hi, h => by
    simp only [RenS] at hr
    obtain ⟨x', bs', body', sc', h0, h1, h2, h3, rfl, h5⟩ := hr
    simp only [sem, Option.bind_eq_some_iff] at h ⊢
    obtain ⟨b, g1, b1, g2, g3⟩ := h
    have hb' : ρ' (sc.σ src) = .buf b := by rw [hi.D src h0, buf?_some g1]
    refine ⟨b, by rw [buf?_ren hi h0, g1], b1, cropS_ren hi hb' h1 (fun _ _ => rfl) g2, ?_⟩
    split at g3
    · rename_i hc
      rw [if_pos]
      · exact sem_ren h3 (hi.decl h2 (by simp)) g3
      · intro hx
        rcases h5 hx with ⟨rfl, hu⟩ | hw
        · exact cropSeqS_ren hi h0 hx.symm (buf?_some g1) hu (hx ▸ h1) (hc rfl)
        · rw [hx]
          rw [hx] at hw
          exact cropSeqS_of_cropS hi hb' hw (fun _ _ => rfl) g2
    · cases g3
  | .cropDim x src d b body, s', sc, ρ, ρ', l, p, hr, hi, h => by
    simp only [RenS] at hr
    obtain ⟨x', b', body', sc', h0, h1, h2, h3, rfl⟩ := hr
    simp only [sem, Option.bind_eq_some_iff] at h ⊢
    obtain ⟨b0, g1, v, g2, g3⟩ := h
    have hb' : ρ' (sc.σ src) = .buf b0 := by rw [hi.D src h0, buf?_some g1]
    refine ⟨b0, by rw [buf?_ren hi h0, g1], v, cropIv_ren hi ⟨b0, hb', rfl⟩ ?_ h1 g2, sem_ren h3 (hi.decl h2 (by simp)) g3⟩
    intro y hy1 hy2
    exact ⟨b0, by rw [← hi.D y hy1, hy2, hb'], rfl⟩
  | .sliceBuffer x src es body, s', sc, ρ, ρ', l, p, hr, hi, h => by
    simp only [RenS] at hr
    obtain ⟨x', es', body', sc', h0, h1, h2, h3, rfl⟩ := hr
    simp only [sem, Option.bind_eq_some_iff] at h ⊢
    obtain ⟨b0, g1, v, g2, g3⟩ := h
    exact ⟨b0, by rw [buf?_ren hi h0, g1], v, sliceS_ren hi h1 g2, sem_ren h3 (hi.decl h2 (by simp)) g3⟩
  | .sliceDim x src d e body, s', sc, ρ, ρ', l, p, hr, hi, h => by
    simp only [RenS] at hr
    obtain ⟨x', e', body', sc', h0, h1, h2, h3, rfl⟩ := hr
    simp only [sem, Option.bind_eq_some_iff] at h ⊢
    obtain ⟨b0, g1, g2⟩ := h
    refine ⟨b0, by rw [buf?_ren hi h0, g1], ?_⟩
    by_cases hd : d ≥ b0.rank
    · rw [if_pos hd] at g2 ⊢
      exact sem_ren h3 (hi.decl h2 (by simp)) g2
    · rw [if_neg hd] at g2 ⊢
      cases hb : b0.base with
      | none =>
        simp only [hb] at g2 ⊢
        exact sem_ren h3 (hi.decl h2 (by simp)) g2
      | some q =>
        simp only [hb, Option.bind_eq_some_iff] at g2 ⊢
        obtain ⟨i, g3, g4⟩ := g2
        exact ⟨i, evalI_ren hi h1 g3, sem_ren h3 (hi.decl h2 (by simp)) g4⟩
  | .transpose x src ds body, s', sc, ρ, ρ', l, p, hr, hi, h => by
    simp only [RenS] at hr
    obtain ⟨x', body', sc', h0, h2, h3, rfl, h4⟩ := hr
    simp only [sem, Option.bind_eq_some_iff] at h ⊢
    obtain ⟨b0, g1, g2⟩ := h
    refine ⟨b0, by rw [buf?_ren hi h0, g1], ?_⟩
    split at g2
    · rename_i hc
      rw [if_pos]
      · exact sem_ren h3 (hi.decl h2 (by simp)) g2
      · unfold transposeOk at hc ⊢
        simp only [Bool.or_eq_true, Bool.not_eq_true', decide_eq_false_iff_not, decide_eq_true_eq] at hc ⊢
        rcases hc with hc | hc
        · left
          rintro ⟨k1, k2⟩
          rcases h4 k1 with k3 | k3
          · exact hc ⟨k3, k2⟩
          · exact k3 k2
        · exact Or.inr hc
    · cases g2
  | .async none task body, s', sc, ρ, ρ', l, p, hr, hi, h => by
    simp only [RenS] at hr
    obtain ⟨task', body', h1, h2, rfl⟩ := hr
    have iht : RenOk w task := fun h1 h2 h3 => sem_ren h1 h2 h3
    have ihb : RenOk w body := fun h1 h2 h3 => sem_ren h1 h2 h3
    have hT : RenT sc task task' := h1
    have hB : RenT sc body body' := h2
    simp only [sem, asyncOk, if_true, SEnv.setOpt, ite_self] at h ⊢
    split at h
    · rename_i hc
      rw [if_pos hc]
      simp only [Option.bind_eq_some_iff, Option.map_eq_some_iff] at h ⊢
      obtain ⟨ρt, g1, q, g2, ρb, g3, q2, g4, g5⟩ := h
      obtain ⟨i1, e1, e2⟩ := hT.task iht hi g1
      obtain ⟨i2, e3, e4⟩ := hB.task ihb hi g3
      exact ⟨i1, e1, q, e2 _ _ g2, i2, e3, q2, e4 _ _ g4, g5⟩
    · rename_i hc
      rw [if_neg hc]
      simp only [Option.bind_eq_some_iff, Option.map_eq_some_iff] at h ⊢
      obtain ⟨ρt, g1, q, g2, ρb, g3, q2, g4, g5⟩ := h
      obtain ⟨i1, e1, e2⟩ := hB.task ihb hi g1
      obtain ⟨i2, e3, e4⟩ := hT.task iht hi g3
      exact ⟨i1, e1, q, e2 _ _ g2, i2, e3, q2, e4 _ _ g4, g5⟩
  | .async (some x) task body, s', sc, ρ, ρ', l, p, hr, hi, h => by
    simp only [RenS] at hr
    obtain ⟨x', task', body', sct, scb, h1, h1', h2, h3, h4, h5, rfl⟩ := hr
    have iht : RenOk w task := fun h1 h2 h3 => sem_ren h1 h2 h3
    have ihb : RenOk w body := fun h1 h2 h3 => sem_ren h1 h2 h3
    have hT : RenT sct task task' := h4
    have hB : RenT scb body body' := h5
    simp only [sem] at h ⊢
    split at h
    · rename_i hok
      have hu : ρ x = .undef := by simpa [asyncOk] using hok
      have hu' : ρ' x' = .undef := by
        rcases h3 with h3 | ⟨h3, rfl⟩
        · exact hi.U _ h3
        · rw [hi.D x h3, hu]
      rw [if_pos (by simpa [asyncOk] using hu')]
      have hit0 : sct.Inv ρ ρ' := by
        refine ⟨fun y hy => ?_, fun y hy => hi.U y (h1.U y hy).2, fun y hy => hi.V y (h1' y hy).2⟩
        rw [h1.σ]
        unfold upd
        by_cases e : y = x
        · simp [e, hu, hu']
        · rw [if_neg e, hi.D y ((h1.D y hy).resolve_left e).1]
      have hit1 : ∀ v, sct.Inv (ρ.set x (.int v)) (ρ'.set x' (.int v)) := fun v => hi.decl h1 (by simp)
      have hib : ∀ v, scb.Inv (ρ.set x (.int v)) (ρ'.set x' (.int v)) := fun v => hi.decl h2 (by simp)
      split at h
      · rename_i hc
        rw [if_pos hc]
        simp only [Option.bind_eq_some_iff, Option.map_eq_some_iff, SEnv.setOpt] at h ⊢
        obtain ⟨ρt, g1, q, g2, ρb, g3, q2, g4, g5⟩ := h
        obtain ⟨i1, e1, e2⟩ := hT.task iht hit0 g1
        obtain ⟨i2, e3, e4⟩ := hB.task ihb (hib _) g3
        exact ⟨i1, e1, q, e2 _ _ g2, i2, e3, q2, e4 _ _ g4, g5⟩
      · rename_i hc
        rw [if_neg hc]
        simp only [Option.bind_eq_some_iff, Option.map_eq_some_iff, SEnv.setOpt] at h ⊢
        obtain ⟨ρt, g1, q, g2, ρb, g3, q2, g4, g5⟩ := h
        obtain ⟨i1, e1, e2⟩ := hB.task ihb (hib _) g1
        have : ∃ i2, newEnvS (if w.taskLate q.2 = true then ρ' else ρ'.set x' (.int (if w.pool = true then w.taskHandle l else 0))) none task' = some i2 ∧
            ∀ (l : List Ev) (p : Int × List Ev), sem w true task ρb l = some p → sem w true task' i2 l = some p := by
          split at g3
          · rename_i hl; rw [if_pos hl]; exact hT.task iht hit0 g3
          · rename_i hl; rw [if_neg hl]; exact hT.task iht (hit1 _) g3
        obtain ⟨i2, e3, e4⟩ := this
        exact ⟨i1, e1, q, e2 _ _ g2, i2, e3, q2, e4 _ _ g4, g5⟩
    · cases h
  | .check c, s', sc, ρ, ρ', l, p, hr, hi, h => by
    simp only [RenS] at hr
    obtain ⟨c', h1, rfl⟩ := hr
    simp only [sem] at h ⊢
    split at h
    · cases h
    · rename_i hf
      have hf' : ¬ isFree c' = true := by
        intro hh
        apply hf
        unfold isFree at hh
        split at hh
        · rename_i z d
          cases c with
          | call fn as =>
            simp only [RenE] at h1
            obtain ⟨as', k1, k2⟩ := h1
            rcases k2 with k2 | ⟨rfl, _, _, _, _, k2⟩
            · simp only [Expr.call.injEq] at k2
              obtain ⟨rfl, rfl⟩ := k2
              cases as with
              | nil => simp [RenA] at k1
              | cons e es =>
                simp only [RenA, Exprs.cons.injEq] at k1
                obtain ⟨e1, es1, k3, k4, rfl, rfl⟩ := k1
                cases es with
                | cons _ _ => simp [RenA] at k4
                | nil =>
                  cases e with
                  | var y f d =>
                    simp only [RenE, Expr.var.injEq] at k3
                    obtain ⟨_, _, rfl, _⟩ := k3
                    rfl
                  | bin op a b => simp only [RenE] at k3; obtain ⟨_, _, _, _, k | ⟨_, k⟩⟩ := k3 <;> cases k
                  | call fn as => simp only [RenE] at k3; obtain ⟨_, _, k | ⟨_, _, _, _, _, k⟩⟩ := k3 <;> cases k
                  | _ => simp [RenE] at k3
            · cases k2
          | bin op a b => simp only [RenE] at h1; obtain ⟨_, _, _, _, k | ⟨_, k⟩⟩ := h1 <;> cases k
          | _ => simp [RenE] at h1
        · cases hh
      rw [if_neg hf']
      simp only [Option.map_eq_some_iff] at h ⊢
      obtain ⟨v, h2, h3⟩ := h
      exact ⟨v, evalI_ren hi h1 h2, h3⟩
termination_by structural s => s
theorem semAll_ren : ∀ {s : Stmts} {s' : Stmts} {sc : Scope} {ρ ρ' : SEnv} {l : List Ev} {p : Int × List Ev},
    RenSs sc s s' → sc.Inv ρ ρ' → semAll w s ρ l = some p → semAll w s' ρ' l = some p
  | .nil, _, _, _, _, _, _, hr, _, h => by
    simp only [RenSs] at hr
    subst hr
    simpa [semAll] using h
  | .cons s ss, _, sc, ρ, ρ', l, p, hr, hi, h => by
    simp only [RenSs] at hr
    obtain ⟨s1, ss1, h1, h2, rfl⟩ := hr
    simp only [semAll, Option.bind_eq_some_iff] at h ⊢
    obtain ⟨q, g1, g2⟩ := h
    refine ⟨q, sem_ren h1 hi g1, ?_⟩
    split at g2
    · rename_i h0; rw [if_pos h0]; exact g2
    · rename_i h0; rw [if_neg h0]; exact semAll_ren h2 hi g2
termination_by structural s => s
end

end Slinky
