import Verif.Pipelined
import Mathlib.Data.Finset.Card
import Mathlib.Data.Finset.Range
import Mathlib.Algebra.Order.BigOperators.Group.Finset
import Mathlib.Algebra.BigOperators.Intervals

/-!
# C46: pipelined loops, proofs
-/

namespace Slinky

/-- What is needed of a pipelined loop: see `pipelineOf_ok`. -/
structure PLoop.OK (L : PLoop) : Prop where
  step : 0 < L.step
  slots : L.workers ≤ L.slots
  workers : 0 < L.workers
  distinct : ∀ (j j' st : Nat), L.segs[j]? = some (some st) → L.segs[j']? = some (some st) → j = j'

variable {L : PLoop} {s s' : PState}

theorem PLoop.index_eq (h : L.OK) (k : Nat) : L.index k = ediv L.min L.step + k := by
  unfold PLoop.index ediv
  exact Int.add_mul_ediv_right _ _ (by have := h.step; omega)

theorem PLoop.slots_pos (h : L.OK) : (0 : Int) < L.slots := by have := h.slots; have := h.workers; omega

theorem PLoop.signalSlot_eq (h : L.OK) (k : Nat) : L.signalSlot k = L.waitSlot (k + 1) := by
  unfold PLoop.signalSlot PLoop.waitSlot
  rw [L.index_eq h, L.index_eq h]
  congr 1
  push_cast; ring

theorem PLoop.waitSlot_eq (h : L.OK) {k d : Nat} (he : L.waitSlot k = L.waitSlot d) (hd : d ≤ k) (hk : k < d + L.slots) : k = d := by
  have hp := L.slots_pos h
  unfold PLoop.waitSlot emod at he
  rw [if_neg (by omega), if_neg (by omega), L.index_eq h, L.index_eq h] at he
  have := eq_of_emod_eq he (by omega) (by omega)
  omega

/-- The token of stage `st`, which is the statement `j`: `d` iterations have completed it. -/
structure StageInv (L : PLoop) (s : PState) (j st d : Nat) : Prop where
  before : ∀ k, k < d → j < s.pos k
  after : ∀ k, d < k → s.pos k ≤ j ∧ (s.pos k = j → s.phase k = .ready)
  now : (s.pos d ≤ j ∧ (s.pos d = j → s.phase d = .ready) ∧ ∀ x, s.sem st x = if x = L.waitSlot d then 1 else 0) ∨
    (s.pos d = j ∧ s.phase d ≠ .ready ∧ ∀ x, s.sem st x = 0)

/-- The invariant of the loop. -/
structure PInv (L : PLoop) (s : PState) : Prop where
  next : s.next ≤ L.n
  taken : ∀ w k, s.worker w = some k → w < L.workers ∧ k < s.next
  inj : ∀ w w' k, s.worker w = some k → s.worker w' = some k → w = w'
  fresh : ∀ k, s.next ≤ k → s.pos k = 0 ∧ s.phase k = .ready
  busy : ∀ k, k < s.next → s.pos k < L.segs.length → ∃ w, s.worker w = some k
  posle : ∀ k, s.pos k ≤ L.segs.length
  phase : ∀ k, s.phase k ≠ .ready → s.pos k < L.segs.length ∧ (s.phase k = .ran → ∃ st, L.segs[s.pos k]? = some (some st))
  stages : ∀ (j st : Nat), L.segs[j]? = some (some st) → ∃ d, StageInv L s j st d

/-- No more iterations can be under way than there are workers. -/
theorem PInv.lead (I : PInv L s) {d e : Nat} (h : ∀ k, d ≤ k → k < e → k < s.next ∧ s.pos k < L.segs.length) : e ≤ d + L.workers := by
  choose! f hf using fun k (hk : k ∈ Finset.Ico d e) => I.busy k (h k (Finset.mem_Ico.1 hk).1 (Finset.mem_Ico.1 hk).2).1 (h k (Finset.mem_Ico.1 hk).1 (Finset.mem_Ico.1 hk).2).2
  have hc : (Finset.Ico d e).card ≤ (Finset.range L.workers).card := by
    refine Finset.card_le_card_of_injOn f (fun k hk => ?_) (fun k hk k' hk' he => ?_)
    · simpa using (I.taken _ _ (hf k hk)).1
    · have h1 := hf k hk
      have h2 := hf k' hk'
      rw [he, h2] at h1
      exact (Option.some.inj h1).symm
  simp only [Nat.card_Ico, Finset.card_range] at hc
  omega

theorem segs_lt {j : Nat} {o : Option Nat} (h : L.segs[j]? = some o) : j < L.segs.length := (List.getElem?_eq_some_iff.1 h).1

/-- A stage that has not been completed holds back the counter of the loop. -/
theorem StageInv.lead (I : PInv L s) {j st d : Nat} (hj : L.segs[j]? = some (some st)) (D : StageInv L s j st d) : s.next ≤ d + L.workers := by
  refine I.lead fun k h1 h2 => ⟨h2, ?_⟩
  have := segs_lt hj
  rcases Nat.lt_or_ge d k with h | h
  · have := (D.after k h).1; omega
  · obtain rfl : k = d := by omega
    rcases D.now with ⟨h, -⟩ | ⟨h, -⟩ <;> omega

theorem StageInv.mono {j st d : Nat} (D : StageInv L s j st d) (hsem : s'.sem st = s.sem st)
    (h1 : ∀ k, j < s.pos k → j < s'.pos k) (h2 : ∀ k, s.pos k = j → s'.pos k = j ∧ s'.phase k = s.phase k)
    (h3 : ∀ k, s.pos k < j → s'.pos k ≤ j ∧ (s'.pos k = j → s'.phase k = .ready)) : StageInv L s' j st d := by
  have key : ∀ k, s.pos k ≤ j → (s.pos k = j → s.phase k = .ready) → s'.pos k ≤ j ∧ (s'.pos k = j → s'.phase k = .ready) := by
    intro k a b
    rcases Nat.lt_or_ge (s.pos k) j with h | h
    · exact h3 k h
    · have e : s.pos k = j := by omega
      exact ⟨by rw [(h2 k e).1], fun _ => by rw [(h2 k e).2]; exact b e⟩
  refine ⟨fun k hk => h1 k (D.before k hk), fun k hk => key k (D.after k hk).1 (D.after k hk).2, ?_⟩
  rcases D.now with ⟨a, b, c⟩ | ⟨a, b, c⟩
  · exact .inl ⟨(key d a b).1, (key d a b).2, by rw [hsem]; exact c⟩
  · exact .inr ⟨(h2 d a).1, by rw [(h2 d a).2]; exact b, by rw [hsem]; exact c⟩

/-- Only the iteration `d` can be in the stage. -/
theorem StageInv.eq {j st d k : Nat} (D : StageInv L s j st d) (h1 : s.pos k = j) (h2 : s.phase k ≠ .ready) : k = d := by
  rcases lt_trichotomy k d with h | h | h
  · have := D.before k h; omega
  · exact h
  · exact absurd ((D.after k h).2 h1) h2

/-- An iteration that gets the token is the right one. -/
theorem StageInv.token (h : L.OK) (I : PInv L s) {j st d k : Nat} (hj : L.segs[j]? = some (some st)) (D : StageInv L s j st d) (hk : k < s.next) (hp : s.pos k = j)
    (hs : 1 ≤ s.sem st (L.waitSlot k)) : k = d ∧ s.phase d = .ready ∧ ∀ x, s.sem st x = if x = L.waitSlot d then 1 else 0 := by
  have hl := D.lead I hj
  have hdk : d ≤ k := by
    by_contra hc
    have := D.before k (by omega); omega
  rcases D.now with ⟨a, b, c⟩ | ⟨a, b, c⟩
  · rw [c] at hs
    split at hs
    · next he =>
      have := L.waitSlot_eq h he hdk (by have := h.slots; omega)
      subst this
      exact ⟨rfl, b hp, c⟩
    · omega
  · rw [c] at hs; omega

theorem PInv.init (h : L.OK) : PInv L L.init where
  next := Nat.zero_le _
  taken w k hw := by simp [PLoop.init] at hw
  inj w w' k hw := by simp [PLoop.init] at hw
  fresh k _ := ⟨rfl, rfl⟩
  busy k hk := by simp [PLoop.init] at hk
  posle k := Nat.zero_le _
  phase k hk := by simp [PLoop.init] at hk
  stages j st hj := by
    refine ⟨0, fun k hk => by omega, fun k hk => ⟨Nat.zero_le _, fun _ => rfl⟩, .inl ⟨Nat.zero_le _, fun _ => rfl, fun x => ?_⟩⟩
    simp only [PLoop.init, PLoop.waitSlot, L.index_eq h]
    simp

/-- The stages when one iteration `k` moves on and the semaphores of the other stages do not change. -/
theorem PInv.stages_step (h : L.OK) (I : PInv L s) {k : Nat} {j0 : Nat} {o : Option Nat} (hj0 : L.segs[j0]? = some o) (hp : s.pos k = j0)
    (hother : ∀ k', k' ≠ k → s'.pos k' = s.pos k' ∧ s'.phase k' = s.phase k') (hpos : s'.pos k = j0 ∨ (s'.pos k = j0 + 1 ∧ s'.phase k = .ready))
    (hsem : ∀ st, o ≠ some st → s'.sem st = s.sem st)
    (hst : ∀ st d, o = some st → StageInv L s j0 st d → ∃ d', StageInv L s' j0 st d') :
    ∀ (j st : Nat), L.segs[j]? = some (some st) → ∃ d, StageInv L s' j st d := by
  intro j st hj
  obtain ⟨d, D⟩ := I.stages j st hj
  by_cases he : j = j0
  · subst he
    rw [hj0] at hj
    exact hst st d (Option.some.inj hj) D
  · refine ⟨d, D.mono (hsem st fun ho => he (h.distinct j j0 st hj (by rw [hj0, ho]))) (fun k' hk' => ?_) (fun k' hk' => ?_) (fun k' hk' => ?_)⟩
    · by_cases hkk : k' = k
      · subst hkk; omega
      · rw [(hother k' hkk).1]; exact hk'
    · by_cases hkk : k' = k
      · subst hkk; omega
      · rw [(hother k' hkk).1]; exact ⟨hk', (hother k' hkk).2⟩
    · by_cases hkk : k' = k
      · subst hkk
        rcases hpos with hpos | hpos
        · exact ⟨by omega, fun _ => by omega⟩
        · exact ⟨by omega, fun _ => hpos.2⟩
      · rw [(hother k' hkk).1]; exact ⟨by omega, fun _ => by omega⟩

theorem upd_same {α β} [DecidableEq α] (f : α → β) (a : α) (b : β) : Function.update f a b a = b := Function.update_self ..
theorem upd_other {α β} [DecidableEq α] (f : α → β) {a a' : α} (b : β) (h : a' ≠ a) : Function.update f a b a' = f a' := Function.update_of_ne h ..

theorem PInv.act (h : L.OK) (I : PInv L s) {a : PAct} (ha : ∀ w, a ≠ .fail w) (hs : L.act s a = some s') : PInv L s' := by
  cases a with
  | fail w => exact absurd rfl (ha w)
  | take w =>
    simp only [PLoop.act, Option.ite_none_right_eq_some, Option.some.injEq] at hs
    obtain ⟨⟨h1, h2, h3⟩, rfl⟩ := hs
    refine ⟨h3, fun w' k hw => ?_, fun w1 w2 k hw1 hw2 => ?_, fun k hk => I.fresh k (by dsimp only at hk; omega), fun k hk hp => ?_, I.posle, I.phase, fun j st hj => ?_⟩
    · dsimp only at hw ⊢
      by_cases e : w' = w
      · subst e
        rw [upd_same] at hw
        cases hw
        exact ⟨h1, by omega⟩
      · rw [upd_other _ _ e] at hw
        have := I.taken _ _ hw
        exact ⟨this.1, by omega⟩
    · dsimp only at hw1 hw2
      by_cases e1 : w1 = w <;> by_cases e2 : w2 = w
      · rw [e1, e2]
      · subst e1
        rw [upd_same] at hw1
        rw [upd_other _ _ e2] at hw2
        cases hw1
        have := (I.taken _ _ hw2).2; omega
      · subst e2
        rw [upd_same] at hw2
        rw [upd_other _ _ e1] at hw1
        cases hw2
        have := (I.taken _ _ hw1).2; omega
      · rw [upd_other _ _ e1] at hw1
        rw [upd_other _ _ e2] at hw2
        exact I.inj _ _ _ hw1 hw2
    · dsimp only at hk ⊢
      by_cases e : k = s.next
      · exact ⟨w, by rw [upd_same, e]⟩
      · obtain ⟨w', hw'⟩ := I.busy k (by omega) hp
        refine ⟨w', ?_⟩
        rw [upd_other]
        · exact hw'
        · rintro rfl; rw [h2] at hw'; cases hw'
    · obtain ⟨d, D⟩ := I.stages j st hj
      exact ⟨d, D.mono rfl (fun _ h => h) (fun _ h => ⟨h, rfl⟩) (fun _ h => ⟨le_of_lt h, fun e => absurd e (ne_of_lt h)⟩)⟩
  | leave w =>
    simp only [PLoop.act] at hs
    split at hs
    · cases hs
    · next k hw =>
      simp only [Option.ite_none_right_eq_some, Option.some.injEq] at hs
      obtain ⟨⟨h1, h2⟩, rfl⟩ := hs
      have hne : ∀ w' k', Function.update s.worker w none w' = some k' → s.worker w' = some k' := by
        intro w' k' hw'
        by_cases e : w' = w
        · subst e; rw [upd_same] at hw'; cases hw'
        · rwa [upd_other _ _ e] at hw'
      refine ⟨I.next, fun w' k hw => I.taken _ _ (hne _ _ hw), fun w1 w2 k hw1 hw2 => I.inj _ _ _ (hne _ _ hw1) (hne _ _ hw2), I.fresh, fun k' hk hp => ?_, I.posle, I.phase, fun j st hj => ?_⟩
      · dsimp only at hk hp ⊢
        obtain ⟨w', hw'⟩ := I.busy k' hk hp
        refine ⟨w', ?_⟩
        rw [upd_other]
        · exact hw'
        · rintro rfl
          rw [hw] at hw'
          cases hw'
          omega
      · obtain ⟨d, D⟩ := I.stages j st hj
        exact ⟨d, D.mono rfl (fun _ h => h) (fun _ h => ⟨h, rfl⟩) (fun _ h => ⟨le_of_lt h, fun e => absurd e (ne_of_lt h)⟩)⟩
  | enter w =>
    simp only [PLoop.act] at hs
    split at hs
    · cases hs
    · next k hw =>
      split at hs
      · next hph =>
        have hkn := (I.taken _ _ hw).2
        have hfr : ∀ k', s.next ≤ k' → k' ≠ k := fun k' h e => by omega
        split at hs
        · cases hs
        · next hseg =>
          cases hs
          refine ⟨I.next, I.taken, I.inj, fun k' hk' => ⟨(I.fresh k' hk').1, by dsimp only; rw [upd_other _ _ (hfr k' hk')]; exact (I.fresh k' hk').2⟩, I.busy, I.posle, fun k' hk' => ?_, ?_⟩
          · dsimp only at hk' ⊢
            by_cases e : k' = k
            · subst e; exact ⟨segs_lt hseg, fun h => by rw [upd_same] at h; cases h⟩
            · rw [upd_other _ _ e] at hk' ⊢; exact I.phase k' hk'
          · exact I.stages_step h hseg rfl (fun k' e => ⟨rfl, upd_other _ _ e⟩) (.inl rfl) (fun _ _ => rfl) (fun st d ho => by cases ho)
        · next st hseg =>
          split at hs
          · next htok =>
            cases hs
            refine ⟨I.next, I.taken, I.inj, fun k' hk' => ⟨(I.fresh k' hk').1, by dsimp only; rw [upd_other _ _ (hfr k' hk')]; exact (I.fresh k' hk').2⟩, I.busy, I.posle, fun k' hk' => ?_, ?_⟩
            · dsimp only at hk' ⊢
              by_cases e : k' = k
              · subst e; exact ⟨segs_lt hseg, fun h => by rw [upd_same] at h; cases h⟩
              · rw [upd_other _ _ e] at hk' ⊢; exact I.phase k' hk'
            · refine I.stages_step h hseg rfl (fun k' e => ⟨rfl, upd_other _ _ e⟩) (.inl rfl) (fun st' ho => upd_other _ _ fun e => ho (by rw [e])) (fun st' d ho D => ?_)
              cases ho
              obtain ⟨rfl, hr, hsem⟩ := D.token h I hseg hkn rfl htok
              refine ⟨k, D.before, fun k' hk' => ?_, .inr ⟨rfl, by dsimp only; rw [upd_same]; decide, fun x => ?_⟩⟩
              · dsimp only
                rw [upd_other _ _ (by omega)]
                exact D.after k' hk'
              · dsimp only
                rw [upd_same]
                by_cases e : x = L.waitSlot k
                · subst e; rw [upd_same, hsem]; simp
                · rw [upd_other _ _ e, hsem, if_neg e]
          · cases hs
      · cases hs
  | finish w =>
    simp only [PLoop.act] at hs
    split at hs
    · cases hs
    · next k hw =>
      split at hs
      · next hph =>
        have hkn := (I.taken _ _ hw).2
        have hfr : ∀ k', s.next ≤ k' → k' ≠ k := fun k' h e => by omega
        split at hs
        · cases hs
        · next hseg =>
          cases hs
          refine ⟨I.next, I.taken, I.inj, fun k' hk' => ?_, fun k' hk' hp => ?_, fun k' => ?_, fun k' hk' => ?_, ?_⟩
          · dsimp only
            rw [upd_other _ _ (hfr k' hk'), upd_other _ _ (hfr k' hk')]; exact I.fresh k' hk'
          · dsimp only at hk' hp ⊢
            by_cases e : k' = k
            · subst e; exact ⟨w, hw⟩
            · rw [upd_other _ _ e] at hp; exact I.busy k' hk' hp
          · dsimp only
            by_cases e : k' = k
            · subst e; rw [upd_same]; have := segs_lt hseg; omega
            · rw [upd_other _ _ e]; exact I.posle k'
          · dsimp only at hk' ⊢
            by_cases e : k' = k
            · subst e; rw [upd_same] at hk'; exact absurd rfl hk'
            · rw [upd_other _ _ e] at hk' ⊢; rw [upd_other _ _ e]; exact I.phase k' hk'
          · refine I.stages_step h hseg rfl (fun k' e => ⟨upd_other _ _ e, upd_other _ _ e⟩) (.inr ⟨upd_same .., upd_same ..⟩) (fun _ _ => rfl) (fun st d ho => by cases ho)
        · next st hseg =>
          cases hs
          refine ⟨I.next, I.taken, I.inj, fun k' hk' => ⟨(I.fresh k' hk').1, by dsimp only; rw [upd_other _ _ (hfr k' hk')]; exact (I.fresh k' hk').2⟩, I.busy, I.posle, fun k' hk' => ?_, ?_⟩
          · dsimp only at hk' ⊢
            by_cases e : k' = k
            · subst e; exact ⟨segs_lt hseg, fun _ => ⟨st, hseg⟩⟩
            · rw [upd_other _ _ e] at hk' ⊢; exact I.phase k' hk'
          · refine I.stages_step h hseg rfl (fun k' e => ⟨rfl, upd_other _ _ e⟩) (.inl rfl) (fun _ _ => rfl) (fun st' d ho D => ?_)
            have hkd := D.eq rfl (by rw [hph]; decide)
            subst hkd
            refine ⟨k, D.before, fun k' hk' => ?_, ?_⟩
            · dsimp only
              rw [upd_other _ _ (by omega)]
              exact D.after k' hk'
            · rcases D.now with ⟨a, b, c⟩ | ⟨a, b, c⟩
              · have := b rfl; rw [hph] at this; cases this
              · exact .inr ⟨a, by dsimp only; rw [upd_same]; decide, c⟩
      · cases hs
  | signal w =>
    simp only [PLoop.act] at hs
    split at hs
    · cases hs
    · next k hw =>
      split at hs
      · next hph =>
        have hkn := (I.taken _ _ hw).2
        have hfr : ∀ k', s.next ≤ k' → k' ≠ k := fun k' h e => by omega
        split at hs
        · next st hseg =>
          cases hs
          refine ⟨I.next, I.taken, I.inj, fun k' hk' => ?_, fun k' hk' hp => ?_, fun k' => ?_, fun k' hk' => ?_, ?_⟩
          · dsimp only
            rw [upd_other _ _ (hfr k' hk'), upd_other _ _ (hfr k' hk')]; exact I.fresh k' hk'
          · dsimp only at hk' hp ⊢
            by_cases e : k' = k
            · subst e; exact ⟨w, hw⟩
            · rw [upd_other _ _ e] at hp; exact I.busy k' hk' hp
          · dsimp only
            by_cases e : k' = k
            · subst e; rw [upd_same]; have := segs_lt hseg; omega
            · rw [upd_other _ _ e]; exact I.posle k'
          · dsimp only at hk' ⊢
            by_cases e : k' = k
            · subst e; rw [upd_same] at hk'; exact absurd rfl hk'
            · rw [upd_other _ _ e] at hk' ⊢; rw [upd_other _ _ e]; exact I.phase k' hk'
          · refine I.stages_step h hseg rfl (fun k' e => ⟨upd_other _ _ e, upd_other _ _ e⟩) (.inr ⟨upd_same .., upd_same ..⟩)
              (fun st' ho => upd_other _ _ fun e => ho (by rw [e])) (fun st' d ho D => ?_)
            cases ho
            have hkd := D.eq rfl (by rw [hph]; decide)
            subst hkd
            refine ⟨k + 1, fun k' hk' => ?_, fun k' hk' => ?_, .inl ?_⟩
            · dsimp only
              by_cases e : k' = k
              · subst e; rw [upd_same]; omega
              · rw [upd_other _ _ e]; exact D.before k' (by omega)
            · dsimp only
              rw [upd_other _ _ (by omega), upd_other _ _ (by omega)]
              exact D.after k' (by omega)
            · dsimp only
              rw [upd_other _ _ (by omega), upd_other _ _ (by omega)]
              refine ⟨(D.after (k + 1) (by omega)).1, (D.after (k + 1) (by omega)).2, fun x => ?_⟩
              rw [upd_same]
              rcases D.now with ⟨a, b, c⟩ | ⟨a, b, c⟩
              · have := b rfl; rw [hph] at this; cases this
              · rw [L.signalSlot_eq h]
                by_cases e : x = L.waitSlot (k + 1)
                · subst e; rw [upd_same, c]; simp
                · rw [upd_other _ _ e, c, if_neg e]
        · cases hs
      · cases hs

theorem PInv.reachable (h : L.OK) (R : L.Reachable s) : PInv L s := by
  induction R with
  | init => exact .init h
  | step _ ha hs ih => exact ih.act h ha hs

/-- C46: a synchronised stage is run in the order of the iterations: when an iteration is in it (or has completed it), all iterations before have completed it. -/
theorem pipeline_in_order (h : L.OK) (R : L.Reachable s) {j st k k' : Nat} (hj : L.segs[j]? = some (some st)) (hk : s.In k j ∨ s.Completed k j) (hlt : k' < k) :
    s.Completed k' j := by
  have I := PInv.reachable h R
  obtain ⟨d, D⟩ := I.stages j st hj
  refine D.before k' ?_
  by_contra hc
  have := D.after k (by omega)
  rcases hk with ⟨h1, h2⟩ | h1
  · have := this.2 h1
    rw [h2] at this; cases this
  · unfold PState.Completed at h1; omega

/-- C46: at most one iteration is in a synchronised stage. -/
theorem pipeline_exclusive (h : L.OK) (R : L.Reachable s) {j st k k' : Nat} (hj : L.segs[j]? = some (some st)) (hk : s.In k j) (hk' : s.In k' j) : k = k' := by
  have I := PInv.reachable h R
  obtain ⟨d, D⟩ := I.stages j st hj
  rw [D.eq hk.1 (by rw [hk.2]; decide), D.eq hk'.1 (by rw [hk'.2]; decide)]

/-- C46: as long as an iteration has not completed a synchronised stage, only as many iterations as there are workers are started, counted from it. -/
theorem pipeline_lead (h : L.OK) (R : L.Reachable s) {j st d k : Nat} (hj : L.segs[j]? = some (some st)) (hd : ¬ s.Completed d j) (hk : s.In k 0 ∨ 0 < s.pos k) :
    k < d + L.workers := by
  have I := PInv.reachable h R
  obtain ⟨e, D⟩ := I.stages j st hj
  have h1 := D.lead I hj
  have h2 : e ≤ d := by
    by_contra hc
    exact hd (D.before d (by omega))
  have h3 : k < s.next := by
    by_contra hc
    have := I.fresh k (by omega)
    rcases hk with hk | hk
    · rw [hk.2] at this; cases this.2
    · omega
  omega

/-- C46: no deadlock. If the loop is not done, some thread can take a step. -/
theorem pipeline_progress (h : L.OK) (R : L.Reachable s) (hn : ¬ L.Done s) : ∃ a s', (∀ w, a ≠ .fail w) ∧ L.act s a = some s' := by
  have I := PInv.reachable h R
  by_cases hb : ∃ k w, s.worker w = some k
  · -- the first iteration that is under way
    classical
    obtain ⟨w, hw⟩ := Nat.find_spec hb
    have hmin : ∀ k', k' < Nat.find hb → ∀ w, s.worker w ≠ some k' := fun k' hk' w hw => Nat.find_min hb hk' ⟨w, hw⟩
    generalize Nat.find hb = k at hw hmin
    have hkn := (I.taken _ _ hw).2
    cases hph : s.phase k with
    | running =>
      refine ⟨.finish w, ?_⟩
      have hlt := (I.phase k (by rw [hph]; decide)).1
      simp only [PLoop.act, hw, hph, if_true, List.getElem?_eq_getElem hlt]
      cases L.segs[s.pos k] with
      | none => exact ⟨_, by simp, rfl⟩
      | some st => exact ⟨_, by simp, rfl⟩
    | ran =>
      refine ⟨.signal w, ?_⟩
      obtain ⟨st, hst⟩ := (I.phase k (by rw [hph]; decide)).2 hph
      simp only [PLoop.act, hw, hph, if_true, hst]
      exact ⟨_, by simp, rfl⟩
    | ready =>
      rcases Nat.lt_or_ge (s.pos k) L.segs.length with hlt | hge
      · refine ⟨.enter w, ?_⟩
        simp only [PLoop.act, hw, hph, if_true]
        cases hseg : L.segs[s.pos k]? with
        | none => rw [List.getElem?_eq_none_iff] at hseg; omega
        | some o =>
          cases o with
          | none => exact ⟨_, by simp, rfl⟩
          | some st =>
            obtain ⟨d, D⟩ := I.stages _ _ hseg
            have hdk : d = k := by
              rcases lt_trichotomy d k with hh | hh | hh
              · exfalso
                have hp : s.pos d < L.segs.length := by rcases D.now with ⟨a, -⟩ | ⟨a, -⟩ <;> omega
                obtain ⟨w', hw'⟩ := I.busy d (by omega) hp
                exact hmin d hh w' hw'
              · exact hh
              · have := D.before k hh; omega
            subst hdk
            have htok : 1 ≤ s.sem st (L.waitSlot d) := by
              rcases D.now with ⟨-, -, c⟩ | ⟨-, b, -⟩
              · rw [c]; simp
              · exact absurd hph b
            simp only [htok, if_true]
            exact ⟨_, by simp, rfl⟩
      · refine ⟨.leave w, ?_⟩
        have : s.pos k = L.segs.length := le_antisymm (I.posle k) hge
        simp only [PLoop.act, hw, hph, this, and_self, if_true]
        exact ⟨_, by simp, rfl⟩
  · -- all threads are idle
    have hidle : ∀ w, s.worker w = none := by
      intro w
      cases hw : s.worker w with
      | none => rfl
      | some k => exact absurd ⟨k, w, hw⟩ hb
    have hlt : s.next < L.n := by
      have := I.next
      rcases Nat.lt_or_ge s.next L.n with h | h
      · exact h
      · exact absurd ⟨le_antisymm this h, hidle⟩ hn
    refine ⟨.take 0, ?_⟩
    simp only [PLoop.act, h.workers, hidle, hlt, and_self, if_true]
    exact ⟨_, by simp, rfl⟩

end Slinky
