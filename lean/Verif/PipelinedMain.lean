import Verif.PipelinedThm
import Verif.SlideFoldMain

/-!
# C46: pipelined loops, the main theorems

* `pipeline_terminates`: every execution without errors is finite; with `pipeline_progress` this means that the loop always completes;
* `pipeline_buffer`: a folded buffer between two stages, as in C45;
* `pipelineOf_ok`: what the pass builds meets the conditions.
-/

namespace Slinky

variable {L : PLoop} {s s' : PState}

/-! ### Termination -/

/-- How many actions are left in the statement. -/
def PPhase.left : PPhase → Nat
  | .ready => 0 | .running => 1 | .ran => 2

/-- How many actions a thread can still do in its iteration. -/
def PLoop.workLeft (L : PLoop) (s : PState) (w : Nat) : Nat :=
  match s.worker w with
  | none => 0
  | some k => 1 + 3 * (L.segs.length - s.pos k) - (s.phase k).left

/-- How many actions can be done at most. -/
def PLoop.fuel (L : PLoop) (s : PState) : Nat := (L.n - s.next) * (3 * L.segs.length + 2) + ∑ w ∈ Finset.range L.workers, L.workLeft s w

theorem fuel_lt {f g : Nat → Nat} {N w : Nat} (hw : w < N) (h : ∀ w', w' ≠ w → f w' = g w') (hlt : f w < g w) : ∑ i ∈ Finset.range N, f i < ∑ i ∈ Finset.range N, g i := by
  refine Finset.sum_lt_sum (fun i _ => ?_) ⟨w, Finset.mem_range.2 hw, hlt⟩
  by_cases e : i = w
  · subst e; exact le_of_lt hlt
  · rw [h i e]

theorem PInv.fuel_act (I : PInv L s) {a : PAct} (ha : ∀ w, a ≠ .fail w) (hs : L.act s a = some s') : L.fuel s' < L.fuel s := by
  -- a thread in iteration `k` that changes only `k`
  have key : ∀ w k, s.worker w = some k → s'.worker = s.worker → s'.next = s.next → (∀ k', k' ≠ k → s'.pos k' = s.pos k' ∧ s'.phase k' = s.phase k') →
      1 + 3 * (L.segs.length - s'.pos k) - (s'.phase k).left < 1 + 3 * (L.segs.length - s.pos k) - (s.phase k).left → L.fuel s' < L.fuel s := by
    intro w k hw h1 h2 h3 h4
    unfold PLoop.fuel
    rw [h2]
    refine Nat.add_lt_add_left (fuel_lt (I.taken _ _ hw).1 (fun w' e => ?_) ?_) _
    · unfold PLoop.workLeft
      rw [h1]
      cases hw' : s.worker w' with
      | none => rfl
      | some k' =>
        have : k' ≠ k := fun e' => e (I.inj _ _ k (by rw [hw', e']) hw)
        dsimp only
        rw [(h3 k' this).1, (h3 k' this).2]
    · unfold PLoop.workLeft
      rw [h1, hw]
      exact h4
  cases a with
  | fail w => exact absurd rfl (ha w)
  | take w =>
    simp only [PLoop.act, Option.ite_none_right_eq_some, Option.some.injEq] at hs
    obtain ⟨⟨h1, h2, h3⟩, rfl⟩ := hs
    have hf := I.fresh s.next (le_refl _)
    have hsum : ∑ i ∈ Finset.range L.workers, L.workLeft { s with next := s.next + 1, worker := Function.update s.worker w (some s.next) } i
        = ∑ i ∈ Finset.range L.workers, L.workLeft s i + (3 * L.segs.length + 1) := by
      have hw : w ∈ Finset.range L.workers := Finset.mem_range.2 h1
      rw [← Finset.add_sum_erase _ _ hw, ← Finset.add_sum_erase _ _ hw]
      have e1 : L.workLeft { s with next := s.next + 1, worker := Function.update s.worker w (some s.next) } w = 3 * L.segs.length + 1 := by
        unfold PLoop.workLeft
        simp only [upd_same, hf.1, hf.2, PPhase.left]
        omega
      have e2 : L.workLeft s w = 0 := by unfold PLoop.workLeft; rw [h2]
      have e3 : ∑ i ∈ (Finset.range L.workers).erase w, L.workLeft { s with next := s.next + 1, worker := Function.update s.worker w (some s.next) } i =
          ∑ i ∈ (Finset.range L.workers).erase w, L.workLeft s i := by
        refine Finset.sum_congr rfl fun i hi => ?_
        unfold PLoop.workLeft
        dsimp only
        rw [upd_other _ _ (Finset.ne_of_mem_erase hi)]
      rw [e1, e2, e3]
      omega
    unfold PLoop.fuel
    rw [hsum]
    dsimp only
    obtain ⟨m, hm⟩ : ∃ m, L.n - s.next = m + 1 := ⟨L.n - s.next - 1, by omega⟩
    have : L.n - (s.next + 1) = m := by omega
    rw [hm, this, Nat.add_mul]
    omega
  | leave w =>
    simp only [PLoop.act] at hs
    split at hs
    · cases hs
    · next k hw =>
      simp only [Option.ite_none_right_eq_some, Option.some.injEq] at hs
      obtain ⟨⟨h1, h2⟩, rfl⟩ := hs
      unfold PLoop.fuel
      refine Nat.add_lt_add_left (fuel_lt (I.taken _ _ hw).1 (fun w' e => ?_) ?_) _
      · unfold PLoop.workLeft
        dsimp only
        rw [upd_other _ _ e]
      · unfold PLoop.workLeft
        simp only [upd_same, hw, h1, h2, PPhase.left]
        omega
  | enter w =>
    simp only [PLoop.act] at hs
    split at hs
    · cases hs
    · next k hw =>
      split at hs
      · next hph =>
        split at hs
        · cases hs
        · next hseg =>
          cases hs
          refine key w k hw rfl rfl (fun k' e => ⟨rfl, upd_other _ _ e⟩) ?_
          have := segs_lt hseg
          simp only [upd_same, hph, PPhase.left]
          omega
        · next st hseg =>
          split at hs
          · cases hs
            refine key w k hw rfl rfl (fun k' e => ⟨rfl, upd_other _ _ e⟩) ?_
            have := segs_lt hseg
            simp only [upd_same, hph, PPhase.left]
            omega
          · cases hs
      · cases hs
  | finish w =>
    simp only [PLoop.act] at hs
    split at hs
    · cases hs
    · next k hw =>
      split at hs
      · next hph =>
        split at hs
        · cases hs
        · next hseg =>
          cases hs
          refine key w k hw rfl rfl (fun k' e => ⟨upd_other _ _ e, upd_other _ _ e⟩) ?_
          have := segs_lt hseg
          simp only [upd_same, hph, PPhase.left]
          omega
        · next st hseg =>
          cases hs
          refine key w k hw rfl rfl (fun k' e => ⟨rfl, upd_other _ _ e⟩) ?_
          have := segs_lt hseg
          simp only [upd_same, hph, PPhase.left]
          omega
      · cases hs
  | signal w =>
    simp only [PLoop.act] at hs
    split at hs
    · cases hs
    · next k hw =>
      split at hs
      · next hph =>
        split at hs
        · next st hseg =>
          cases hs
          refine key w k hw rfl rfl (fun k' e => ⟨upd_other _ _ e, upd_other _ _ e⟩) ?_
          have := segs_lt hseg
          simp only [upd_same, hph, PPhase.left]
          omega
        · cases hs
      · cases hs

/-- The executions without errors with their number of steps. -/
inductive PLoop.Run (L : PLoop) : Nat → PState → Prop
  | init : L.Run 0 L.init
  | step {c : Nat} {s s' : PState} {a : PAct} : L.Run c s → (∀ w, a ≠ .fail w) → L.act s a = some s' → L.Run (c + 1) s'

theorem PLoop.Run.reachable {c : Nat} (R : L.Run c s) : L.Reachable s := by
  induction R with
  | init => exact .init
  | step _ ha hs ih => exact .step ih ha hs

/-- C46: the loop terminates: an execution of `n` iterations with `m` statements in the body has at most `n * (3 m + 2)` steps, however the threads are interleaved.
(When no step is possible, it is done: `pipeline_progress`.) -/
theorem pipeline_terminates (h : L.OK) {c : Nat} (R : L.Run c s) : c ≤ L.n * (3 * L.segs.length + 2) := by
  have : c + L.fuel s ≤ L.fuel L.init := by
    induction R with
    | init => omega
    | step R ha hs ih =>
      have := (PInv.reachable h R.reachable).fuel_act ha hs
      omega
  have h0 : L.fuel L.init = L.n * (3 * L.segs.length + 2) := by
    unfold PLoop.fuel PLoop.workLeft PLoop.init
    simp
  omega

/-- C46: when it is done, every iteration has run all statements. -/
theorem pipeline_complete (h : L.OK) (R : L.Reachable s) (hd : L.Done s) {k : Nat} (hk : k < L.n) : s.pos k = L.segs.length := by
  have I := PInv.reachable h R
  by_contra hc
  have := I.posle k
  obtain ⟨w, hw⟩ := I.busy k (by rw [hd.1]; exact hk) (by omega)
  rw [hd.2 w] at hw; cases hw

/-! ### The pass -/

theorem LoopSync.add_spec (cfg : SimpCfg) (fuel : Nat) (l : LoopSync) :
    (l.add cfg fuel).maxWorkers = l.maxWorkers ∧ (l.add cfg fuel = l ∨ (l.stage = none ∧ (l.add cfg fuel).stage = some l.syncStages ∧ (l.add cfg fuel).syncStages = l.syncStages + 1)) := by
  unfold LoopSync.add
  split
  · exact ⟨rfl, .inl rfl⟩
  · split
    · exact ⟨rfl, .inl rfl⟩
    · next h => exact ⟨rfl, .inr ⟨h, rfl, rfl⟩⟩

theorem LoopSync.iter_some (cfg : SimpCfg) (fuel : Nat) : ∀ (c : Nat) (l : LoopSync) (st : Nat), l.stage = some st → (LoopSync.add cfg fuel)^[c] l = l
  | 0, _, _, _ => rfl
  | c + 1, l, st, h => by
    rw [Function.iterate_succ_apply]
    have : l.add cfg fuel = l := by
      rcases (l.add_spec cfg fuel).2 with h' | ⟨h', -⟩
      · exact h'
      · rw [h] at h'; cases h'
    rw [this]
    exact LoopSync.iter_some cfg fuel c l st h

theorem LoopSync.iter_none (cfg : SimpCfg) (fuel : Nat) : ∀ (c : Nat) (l : LoopSync), l.stage = none →
    (LoopSync.add cfg fuel)^[c] l = l ∨
    (((LoopSync.add cfg fuel)^[c] l).stage = some l.syncStages ∧ ((LoopSync.add cfg fuel)^[c] l).syncStages = l.syncStages + 1 ∧
      ((LoopSync.add cfg fuel)^[c] l).maxWorkers = l.maxWorkers)
  | 0, _, _ => .inl rfl
  | c + 1, l, h => by
    rw [Function.iterate_succ_apply]
    rcases (l.add_spec cfg fuel).2 with h' | ⟨-, h1, h2⟩
    · rw [h']; exact LoopSync.iter_none cfg fuel c l h
    · rw [LoopSync.iter_some cfg fuel c _ _ h1]
      exact .inr ⟨h1, h2, (l.add_spec cfg fuel).1⟩

/-- The stages are numbered in order. -/
theorem stagesOf_spec (cfg : SimpCfg) (fuel : Nat) : ∀ (body : List Nat) (l : LoopSync), l.stage = none →
    (stagesOf cfg fuel l body).1.length = body.length ∧ l.syncStages ≤ (stagesOf cfg fuel l body).2.syncStages ∧
    (∀ (j st : Nat), (stagesOf cfg fuel l body).1[j]? = some (some st) → l.syncStages ≤ st ∧ st < (stagesOf cfg fuel l body).2.syncStages) ∧
    (∀ (j j' st st' : Nat), (stagesOf cfg fuel l body).1[j]? = some (some st) → (stagesOf cfg fuel l body).1[j']? = some (some st') → j < j' → st < st')
  | [], l, _ => ⟨rfl, le_refl _, fun j st h => by simp [stagesOf] at h, fun j j' st st' h => by simp [stagesOf] at h⟩
  | c :: cs, l, hl => by
    obtain ⟨i1, i2, i3, i4⟩ := stagesOf_spec cfg fuel cs { (LoopSync.add cfg fuel)^[c] l with stage := none } rfl
    dsimp only at i1 i2 i3 i4
    simp only [stagesOf]
    have hcase := LoopSync.iter_none cfg fuel c l hl
    have hle : l.syncStages ≤ ((LoopSync.add cfg fuel)^[c] l).syncStages := by
      rcases hcase with h | ⟨-, h, -⟩ <;> rw [h]; omega
    have hhead : ∀ st, ((LoopSync.add cfg fuel)^[c] l).stage = some st → st = l.syncStages ∧ ((LoopSync.add cfg fuel)^[c] l).syncStages = l.syncStages + 1 := by
      intro st h
      rcases hcase with h' | ⟨h1, h2, -⟩
      · rw [h', hl] at h; cases h
      · rw [h1] at h; cases h; exact ⟨rfl, h2⟩
    refine ⟨by simp [i1], by omega, fun j st h => ?_, fun j j' st st' h h' hlt => ?_⟩
    · cases j with
      | zero =>
        simp only [List.getElem?_cons_zero, Option.some.injEq] at h
        have := hhead st h
        omega
      | succ j =>
        simp only [List.getElem?_cons_succ] at h
        have := i3 j st h
        omega
    · cases j' with
      | zero => omega
      | succ j' =>
        simp only [List.getElem?_cons_succ] at h'
        cases j with
        | zero =>
          simp only [List.getElem?_cons_zero, Option.some.injEq] at h
          have := hhead st h
          have := i3 j' st' h'
          omega
        | succ j =>
          simp only [List.getElem?_cons_succ] at h
          exact i4 j j' st st' h h' (by omega)

/-- C46: what the pass builds meets the conditions: the stages have their own semaphores, and there are as many semaphores per stage as workers. -/
theorem pipelineOf_ok {cfg : SimpCfg} {fuel : Nat} {dp : Bool} {maxWorkers : Expr} {min step : Int} {n : Nat} {body : List Nat} (hstep : 0 < step)
    (h : pipelineOf cfg fuel dp maxWorkers min step n body = some L) : L.OK ∧ L.min = min ∧ L.step = step ∧ L.n = n ∧ L.segs.length = body.length ∧ 2 ≤ L.workers ∧ dp = false := by
  unfold pipelineOf at h
  dsimp only at h
  split at h
  · cases h
  · next hc =>
    cases h
    obtain ⟨i1, i2, i3, i4⟩ := stagesOf_spec cfg fuel body { maxWorkers := maxWorkers } rfl
    simp only [Bool.or_eq_true, decide_eq_true_eq, not_or, not_le, Bool.not_eq_true] at hc
    have hm : Nat.max 1 (stagesOf cfg fuel { maxWorkers := maxWorkers } body).2.syncStages = (stagesOf cfg fuel { maxWorkers := maxWorkers } body).2.syncStages :=
      Nat.max_eq_right (by omega)
    refine ⟨⟨hstep, le_of_eq hm, Nat.lt_of_lt_of_le Nat.zero_lt_one (Nat.le_max_left ..), fun j j' st h1 h2 => ?_⟩, rfl, rfl, rfl, i1, le_trans hc.2 (le_of_eq hm.symm), hc.1⟩
    rcases lt_trichotomy j j' with h | h | h
    · have := i4 j j' st st h1 h2 h; omega
    · exact h
    · have := i4 j' j st st h2 h1 h; omega

/-- C46: if the worker limit of the user can be larger than the number of stages plus one, every statement that needs synchronization gets it. -/
theorem stagesOf_synced (cfg : SimpCfg) (fuel : Nat) : ∀ (body : List Nat) (l : LoopSync), l.stage = none →
    (∀ i, i ≤ (stagesOf cfg fuel l body).2.syncStages →
      proveTrue cfg fuel (mkBin .le l.maxWorkers (.const ((i + 1 : Nat) : Int))) (fun _ => none) (fun _ => none) = false) →
    ∀ (j c : Nat), body[j]? = some c → 0 < c → ∃ st, (stagesOf cfg fuel l body).1[j]? = some (some st)
  | [], _, _, _ => fun j c h => by simp at h
  | c0 :: cs, l, hl, hp => by
    intro j c hj hc
    have hmw : ((LoopSync.add cfg fuel)^[c0] l).maxWorkers = l.maxWorkers := by
      rcases LoopSync.iter_none cfg fuel c0 l hl with h | ⟨-, -, h⟩
      · rw [h]
      · exact h
    cases j with
    | zero =>
      simp only [List.getElem?_cons_zero, Option.some.injEq] at hj
      subst hj
      obtain ⟨c', rfl⟩ : ∃ c', c0 = c' + 1 := ⟨c0 - 1, by omega⟩
      have hprove := hp l.syncStages (stagesOf_spec cfg fuel ((c' + 1) :: cs) l hl).2.1
      have hadd : (l.add cfg fuel).stage = some l.syncStages := by
        unfold LoopSync.add
        rw [if_neg (by rw [hprove]; decide), hl]
      refine ⟨l.syncStages, ?_⟩
      simp only [stagesOf, List.getElem?_cons_zero, Option.some.injEq]
      rw [Function.iterate_succ_apply, LoopSync.iter_some cfg fuel c' _ _ hadd]
      exact hadd
    | succ j =>
      simp only [List.getElem?_cons_succ] at hj
      simp only [stagesOf, List.getElem?_cons_succ]
      refine stagesOf_synced cfg fuel cs { (LoopSync.add cfg fuel)^[c0] l with stage := none } rfl (fun i hi => ?_) j c hj hc
      have := hp i (by simpa only [stagesOf] using hi)
      dsimp only
      rw [hmw]
      exact this

/-- C46: if the limit of the user, `M`, is more than the number of stages plus one, every statement that needs synchronization gets it. -/
theorem pipelineOf_synced {m : Mem} {cfg : SimpCfg} (hm : BufMem m) (hcfg : ∀ ρ, SimpCfgOK cfg m ρ) {fuel : Nat} {maxWorkers : Expr} (hok : maxWorkers.ok = true) {ρ : Env}
    {min step : Int} {n : Nat} {body : List Nat} (h : pipelineOf cfg fuel false maxWorkers min step n body = some L) (hr : InRange 64 (L.slots + 1 : Int)) (hM : (L.slots : Int) + 1 < eval m ρ maxWorkers)
    {j c : Nat} (hj : body[j]? = some c) (hc : 0 < c) : ∃ st, L.segs[j]? = some (some st) := by
  unfold pipelineOf at h
  dsimp only at h
  split at h
  · cases h
  · cases h
    refine stagesOf_synced cfg fuel body { maxWorkers := maxWorkers } rfl (fun i hi => ?_) j c hj hc
    cases hp : proveTrue cfg fuel (mkBin .le maxWorkers (.const ((i + 1 : Nat) : Int))) (fun _ => none) (fun _ => none) with
    | false => rfl
    | true =>
      exfalso
      have hir : InRange 64 ((i + 1 : Nat) : Int) := by
        unfold InRange at hr ⊢
        dsimp only at hr
        constructor <;> omega
      have := proveTrue_sound_partial hm hcfg fuel (by simp [ok_mkBin, hok, Expr.ok]) hp ρ ⟨fun _ _ h => by simp at h, fun _ _ h => by simp at h⟩
      rw [eval_mkBin] at this
      simp only [BinOp.denote, eval] at this
      dsimp only at hM
      have : ¬ eval m ρ maxWorkers ≤ ((i + 1 : Nat) : Int) := by push_cast; omega
      simp_all [b2i]

/-! ### A buffer between two stages -/

/-- The invariant of a buffer: `d` iterations have completed the producer. -/
structure PBInv (L : PLoop) (B : PBuf) (t : PBState) (st d : Nat) : Prop where
  stage : StageInv L t.s B.prod st d
  store : ∃ st0, Produced B.F B.lo B.hi d st0 ∧ t.buf = st0.writes B.F (t.written d)
  within : ∀ i ∈ t.written d, B.lo d ≤ i ∧ i ≤ B.hi d
  all : t.s.pos d = B.prod → t.s.phase d = .ran → ∀ i, B.lo d ≤ i → i ≤ B.hi d → i ∈ t.written d
  now : ¬ (t.s.pos d = B.prod ∧ t.s.phase d ≠ .ready) → t.written d = []
  later : ∀ k, d < k → t.written k = []

/-- A step moves at most one iteration. -/
theorem act_one {a : PAct} (ha : ∀ w, a ≠ .fail w) (hs : L.act s a = some s') :
    (s'.pos = s.pos ∧ s'.phase = s.phase) ∨ ∃ w k, s.worker w = some k ∧ (∀ k', k' ≠ k → s'.pos k' = s.pos k' ∧ s'.phase k' = s.phase k') ∧
      ((s'.pos k = s.pos k ∧ s.phase k = .ready ∧ s'.phase k = .running) ∨
       (s'.pos k = s.pos k + 1 ∧ L.segs[s.pos k]? = some none ∧ s'.phase k = .ready) ∨
       (a = .finish w ∧ s'.pos k = s.pos k ∧ s.phase k = .running ∧ s'.phase k = .ran) ∨
       (s'.pos k = s.pos k + 1 ∧ s.phase k = .ran ∧ s'.phase k = .ready)) := by
  cases a with
  | fail w => exact absurd rfl (ha w)
  | take w =>
    simp only [PLoop.act, Option.ite_none_right_eq_some, Option.some.injEq] at hs
    obtain ⟨-, rfl⟩ := hs
    exact .inl ⟨rfl, rfl⟩
  | leave w =>
    simp only [PLoop.act] at hs
    split at hs
    · cases hs
    · simp only [Option.ite_none_right_eq_some, Option.some.injEq] at hs
      obtain ⟨-, rfl⟩ := hs
      exact .inl ⟨rfl, rfl⟩
  | enter w =>
    simp only [PLoop.act] at hs
    split at hs
    · cases hs
    next k hw =>
    split at hs
    · next hph =>
      split at hs
      · cases hs
      · cases hs
        exact .inr ⟨w, k, hw, fun k' e => ⟨rfl, upd_other _ _ e⟩, .inl ⟨rfl, hph, upd_same ..⟩⟩
      · split at hs
        · cases hs
          exact .inr ⟨w, k, hw, fun k' e => ⟨rfl, upd_other _ _ e⟩, .inl ⟨rfl, hph, upd_same ..⟩⟩
        · cases hs
    · cases hs
  | finish w =>
    simp only [PLoop.act] at hs
    split at hs
    · cases hs
    next k hw =>
    split at hs
    · next hph =>
      split at hs
      · cases hs
      · next hseg =>
        cases hs
        exact .inr ⟨w, k, hw, fun k' e => ⟨upd_other _ _ e, upd_other _ _ e⟩, .inr (.inl ⟨upd_same .., hseg, upd_same ..⟩)⟩
      · cases hs
        exact .inr ⟨w, k, hw, fun k' e => ⟨rfl, upd_other _ _ e⟩, .inr (.inr (.inl ⟨rfl, rfl, hph, upd_same ..⟩))⟩
    · cases hs
  | signal w =>
    simp only [PLoop.act] at hs
    split at hs
    · cases hs
    next k hw =>
    split at hs
    · next hph =>
      split at hs
      · cases hs
        exact .inr ⟨w, k, hw, fun k' e => ⟨upd_other _ _ e, upd_other _ _ e⟩, .inr (.inr (.inr ⟨upd_same .., hph, upd_same ..⟩))⟩
      · cases hs
    · cases hs

/-- What a step of a thread does to a stage: the stage is completed in one more iteration, or not. -/
theorem stage_step (h : L.OK) (I : PInv L s) {j st d : Nat} (hj : L.segs[j]? = some (some st)) (D : StageInv L s j st d) {a : PAct} (ha : ∀ w, a ≠ .fail w) (hs : L.act s a = some s') :
    (StageInv L s' j st d ∧ (s.pos d = j ∧ s.phase d ≠ .ready → s'.pos d = j ∧ s'.phase d ≠ .ready) ∧
      (s'.pos d = j → s'.phase d = .ran → (s.pos d = j ∧ s.phase d = .ran) ∨ ∃ w, a = .finish w ∧ s.worker w = some d ∧ s.pos d = j)) ∨
    (StageInv L s' j st (d + 1) ∧ s.pos d = j ∧ s.phase d = .ran ∧ (s'.pos (d + 1) = j → s'.phase (d + 1) = .ready)) := by
  obtain ⟨d', D'⟩ := (I.act h ha hs).stages j st hj
  have hdj : s.pos d ≤ j := by rcases D.now with ⟨h, -⟩ | ⟨h, -⟩ <;> omega
  have hd'j : s'.pos d' ≤ j := by rcases D'.now with ⟨h, -⟩ | ⟨h, -⟩ <;> omega
  have hone := act_one ha hs
  have hpos : ∀ k, s.pos k ≤ s'.pos k := by
    intro k
    rcases hone with ⟨h1, -⟩ | ⟨w, k0, -, h1, h2⟩
    · rw [h1]
    · by_cases e : k = k0
      · subst e; rcases h2 with ⟨h2, -⟩ | ⟨h2, -⟩ | ⟨-, h2, -⟩ | ⟨h2, -⟩ <;> omega
      · rw [(h1 k e).1]
  have hdd : d ≤ d' := by
    by_contra hc
    have := D.before d' (by omega)
    have := hpos d'
    omega
  by_cases hnew : j < s'.pos d
  · right
    rcases hone with ⟨h1, -⟩ | ⟨w, k0, -, h1, h2⟩
    · rw [h1] at hnew; omega
    · have e : k0 = d := by
        by_contra e
        rw [(h1 d (fun h => e h.symm)).1] at hnew; omega
      subst e
      have hn1 := D.after (k0 + 1) (by omega)
      have h1' := h1 (k0 + 1) (by omega)
      have hd2 : d' = k0 + 1 := by
        rcases lt_trichotomy d' (k0 + 1) with hc | hc | hc
        · obtain rfl : d' = k0 := by omega
          omega
        · exact hc
        · have := D'.before (k0 + 1) hc
          rw [h1'.1] at this; omega
      subst hd2
      rcases h2 with ⟨h2, -⟩ | ⟨h2, h3, -⟩ | ⟨-, h2, -⟩ | ⟨h2, h3, -⟩
      · omega
      · have : s.pos k0 = j := by omega
        rw [this, hj] at h3; cases h3
      · omega
      · exact ⟨D', by omega, h3, by rw [h1'.1, h1'.2]; exact hn1.2⟩
  · left
    have hd : d' = d := by
      by_contra hc
      exact hnew (D'.before d (by omega))
    subst hd
    refine ⟨D', fun ⟨h1, h2⟩ => ?_, fun h1 h2 => ?_⟩
    · rcases hone with ⟨g1, g2⟩ | ⟨w, k0, -, g1, g2⟩
      · rw [g1, g2]; exact ⟨h1, h2⟩
      · by_cases e : k0 = d'
        · subst e
          rcases g2 with ⟨-, g2, -⟩ | ⟨g2, -⟩ | ⟨-, g2, -, g3⟩ | ⟨g2, -⟩
          · exact absurd g2 h2
          · omega
          · exact ⟨by omega, by rw [g3]; decide⟩
          · omega
        · rw [(g1 d' (fun h => e h.symm)).1, (g1 d' (fun h => e h.symm)).2]; exact ⟨h1, h2⟩
    · rcases hone with ⟨g1, g2⟩ | ⟨w, k0, hw, g1, g2⟩
      · rw [g1] at h1; rw [g2] at h2; exact .inl ⟨h1, h2⟩
      · by_cases e : k0 = d'
        · subst e
          rcases g2 with ⟨-, -, g3⟩ | ⟨-, -, g3⟩ | ⟨ga, g2, -, -⟩ | ⟨-, -, g3⟩
          · rw [g3] at h2; cases h2
          · rw [g3] at h2; cases h2
          · exact .inr ⟨w, ga, hw, by omega⟩
          · rw [g3] at h2; cases h2
        · have := g1 d' (fun h => e h.symm)
          exact .inl ⟨by rw [← this.1]; exact h1, by rw [← this.2]; exact h2⟩

theorem PBuf.Reachable.base {B : PBuf} {t : PBState} (R : PBuf.Reachable L B t) : L.Reachable t.s := by
  induction R with
  | init => exact .init
  | step _ hs ih =>
    cases hs with
    | act ha hs _ => exact .step ih ha hs
    | write => exact ih

theorem PBInv.reachable (h : L.OK) {B : PBuf} {t : PBState} (R : PBuf.Reachable L B t) {st : Nat} (hj : L.segs[B.prod]? = some (some st)) : ∃ d, PBInv L B t st d := by
  induction R with
  | init st0 =>
    obtain ⟨d, D⟩ := (PInv.init h).stages _ _ hj
    have hd : d = 0 := by
      by_contra hc
      have := D.before 0 (by omega)
      simp [PLoop.init] at this
    subst hd
    exact ⟨0, D, ⟨st0, .start st0, rfl⟩, by simp, fun _ h => by simp [PLoop.init] at h, fun _ => rfl, fun _ _ => rfl⟩
  | step R hs ih =>
    rename_i t t'
    obtain ⟨d, D⟩ := ih
    have I := PInv.reachable h R.base
    cases hs with
    | act ha hs hfin =>
      rcases stage_step h I hj D.stage ha hs with ⟨D', h1, h2⟩ | ⟨D', h1, h2, h3⟩
      · refine ⟨d, D', D.store, D.within, fun g1 g2 => ?_, fun hn => ?_, D.later⟩
        · rcases h2 g1 g2 with ⟨g3, g4⟩ | ⟨w, g3, g4, g5⟩
          · exact D.all g3 g4
          · exact hfin w d g3 g4 g5
        · exact D.now fun hc => hn (h1 hc)
      · refine ⟨d + 1, D', ?_, ?_, fun g1 g2 => ?_, fun _ => D.later _ (by omega), fun k hk => D.later k (by omega)⟩
        · obtain ⟨st0, hp, hb⟩ := D.store
          refine ⟨st0.writes B.F (t.written d), hp.next _ (fun i => ⟨fun hi => D.within i hi, fun hi => D.all h1 h2 i hi.1 hi.2⟩), ?_⟩
          dsimp only
          rw [D.later (d + 1) (by omega), hb]
          rfl
        · intro i hi
          dsimp only at hi
          rw [D.later (d + 1) (by omega)] at hi
          simp at hi
        · have := h3 g1
          dsimp only at g2
          rw [g2] at this; cases this
    | @write w k i hw hin h1 h2 =>
      have hkd : k = d := D.stage.eq hin.1 (by rw [hin.2]; decide)
      subst hkd
      refine ⟨k, D.stage, ?_, ?_, fun _ g2 => ?_, fun hn => ?_, fun k' hk' => ?_⟩
      · obtain ⟨st0, hp, hb⟩ := D.store
        refine ⟨st0, hp, ?_⟩
        dsimp only
        rw [upd_same, hb]
        simp [SlotStore.writes]
      · intro i' hi'
        dsimp only at hi'
        rw [upd_same] at hi'
        rcases List.mem_append.1 hi' with hi' | hi'
        · exact D.within i' hi'
        · simp only [List.mem_singleton] at hi'
          subst hi'
          exact ⟨h1, h2⟩
      · dsimp only at g2
        rw [hin.2] at g2; cases g2
      · exact absurd ⟨hin.1, by dsimp only; rw [hin.2]; decide⟩ hn
      · dsimp only
        rw [upd_other _ _ (by omega)]
        exact D.later k' hk'

/-- C46: a buffer between two synchronised stages. When the iteration `p` is in the consumer, the producer has completed `k > p` iterations and may be in the next one, and is less than
`workers` iterations ahead. This is what C45 needs. -/
theorem pipeline_buffer (h : L.OK) {B : PBuf} {t : PBState} (R : PBuf.Reachable L B t) {st st' c p : Nat} (hj : L.segs[B.prod]? = some (some st)) (hc : L.segs[c]? = some (some st'))
    (hlt : B.prod < c) (hin : t.s.In p c) :
    ∃ (k : Nat) (running : Bool), Producing B.F B.lo B.hi k running t.buf ∧ p < k ∧ k + (if running then 1 else 0) ≤ p + L.workers ∧ k + (if running then 1 else 0) ≤ L.n := by
  obtain ⟨d, D⟩ := PBInv.reachable h R hj
  have I := PInv.reachable h R.base
  obtain ⟨e, E⟩ := I.stages _ _ hc
  have hpe : p = e := E.eq hin.1 (by rw [hin.2]; decide)
  subst hpe
  have hlead := E.lead I hc
  have hpd : p < d := by
    by_contra hc
    have := hin.1
    rcases Nat.lt_or_ge d p with h | h
    · have := D.stage.after p h; omega
    · obtain rfl : d = p := by omega
      rcases D.stage.now with ⟨h, -⟩ | ⟨h, -⟩ <;> omega
  obtain ⟨st0, hp, hb⟩ := D.store
  have hdn : d ≤ t.s.next := by
    by_contra hc
    have h1 := D.stage.before t.s.next (by omega)
    have h2 := (I.fresh t.s.next (le_refl _)).1
    omega
  have hn := I.next
  by_cases hr : t.s.pos d = B.prod ∧ t.s.phase d ≠ .ready
  · have hd1 : d < t.s.next := by
      by_contra hc
      exact hr.2 (I.fresh d (by omega)).2
    refine ⟨d, true, ⟨st0, _, hp, hb, (fun h => by cases h), D.within⟩, hpd, ?_, ?_⟩ <;> simp only [if_true] <;> omega
  · refine ⟨d, false, ⟨st0, _, hp, hb, fun _ => D.now hr, D.within⟩, hpd, ?_, ?_⟩ <;> simp only [Bool.false_eq_true, if_false] <;> omega

/-- C46 and C45 (partial): **pipelined loops with sliding windows and folded buffers**. Whatever the threads do, when the iteration `p` is in the consumer stage `c`, everything it
needs is in its place in the folded buffer. The loop and its semaphores are as the pass builds them, and the producer and the consumer are synchronised stages
(`pipelineOf_synced`; see `pipeline_unsynced_counterexample` if the consumer is not). The other conditions are those of C45. -/
theorem pipeline_slide_and_fold_partial {m : Mem} {S : SlideCfg} {loop : SlideLoop} {b : Interval} (H : SlideOK m S) (I : SlideInput S loop b) (hk : FoldKnown S loop b)
    {fold : FoldInfo} {did : Bool} (hfin : isFinite fold.factor = false) {ρ : Env} {r : SlideRes} (hr : r = S.slideDim loop b fold did)
    {f ov : Int} (hf : r.fold.factor = .const f) (ho : r.fold.overlap = .const ov) (hov0 : 0 ≤ ov)
    {first n : Nat} (hrun : SlideRun m ρ S loop b r ov first n) {maxWorkers : Expr} {fuel : Nat} {body : List Nat}
    (hL : pipelineOf S.cfg fuel r.loop.dataParallel maxWorkers (eval m ρ r.loop.min) (eval m ρ loop.step) (n + 1) body = some L)
    (hfit : ∀ q : Nat, q ≤ n → loop.at m ρ (r.iter m ρ q) r.bounds.max - loop.at m ρ (r.iter m ρ q) r.bounds.min < f + (L.workers - 1) * ov)
    (htile : r.bounds = b → ∀ q : Nat, q < n → loop.at m ρ (r.iter m ρ (q + 1)) b.min = loop.at m ρ (r.iter m ρ q) b.max + 1 ∧
      loop.at m ρ (r.iter m ρ q) b.max ≤ loop.at m ρ (r.iter m ρ (q + 1)) b.max)
    {B : PBuf} (hF : B.F = f + (L.workers - 1) * ov) (hlo : ∀ q, B.lo q = loop.at m ρ (r.iter m ρ q) r.bounds.min) (hhi : ∀ q, B.hi q = loop.at m ρ (r.iter m ρ q) r.bounds.max)
    {t : PBState} (R : PBuf.Reachable L B t) {st st' c p : Nat} (hj : L.segs[B.prod]? = some (some st)) (hc : L.segs[c]? = some (some st')) (hlt : B.prod < c)
    (hin : t.s.In p c) (hp : first ≤ p) {i : Int} (h1 : loop.at m ρ (r.iter m ρ p) b.min ≤ i) (h2 : i ≤ loop.at m ρ (r.iter m ρ p) b.max) :
    t.buf (i % B.F) = some i := by
  obtain ⟨hok, -, -, hn, -, -, -⟩ := pipelineOf_ok hrun.step_pos hL
  obtain ⟨k, running, hprod, hpk, hw, hkn⟩ := pipeline_buffer hok R hj hc hlt hin
  rw [hn] at hkn
  have e1 : B.lo = fun q => loop.at m ρ (r.iter m ρ q) r.bounds.min := funext hlo
  have e2 : B.hi = fun q => loop.at m ρ (r.iter m ρ q) r.bounds.max := funext hhi
  rw [hF, e1, e2] at hprod
  rw [hF]
  refine slide_and_fold_sound_partial H I hk hfin hr hf ho hov0 hrun (W := L.workers) hfit (fun _ h => htile h) hprod hp hpk (by omega) (fun hr => by subst hr; simp only [if_true] at hkn; omega) ?_ h1 h2
  cases running <;> simp only [Bool.false_eq_true, if_false, if_true] at hw ⊢ <;> omega

/-- C46: the semaphores exist: the dimension of the semaphores for the iterations is from `floor_div(min, step) - 1` to `floor_div(max, step)` (slide_and_fold_storage.cc:660), and all iterations use
semaphores in these bounds. -/
theorem pipeline_semaphores (hstep : 0 < L.step) {max : Int} {k : Nat} (hk : L.min + k * L.step ≤ max) :
    ediv L.min L.step - 1 ≤ L.index k - 1 ∧ L.index k ≤ ediv max L.step := by
  unfold PLoop.index ediv
  have h1 : L.min / L.step ≤ (L.min + k * L.step) / L.step := Int.ediv_le_ediv hstep (by nlinarith)
  have h2 := Int.ediv_le_ediv hstep hk
  omega

end Slinky
