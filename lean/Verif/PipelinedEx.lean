import Verif.PipelinedMain
import Verif.SlideFoldEx

/-!
# C46: examples and counterexamples
-/

namespace Slinky

/-! ### Executions -/

/-- The actions are done one after the other. -/
def PLoop.acts (L : PLoop) : PState → List PAct → Option PState
  | s, [] => some s
  | s, a :: as => (L.act s a).bind fun s' => L.acts s' as

theorem PLoop.acts_reachableF (L : PLoop) : ∀ (as : List PAct) {s s' : PState}, L.ReachableF s → L.acts s as = some s' → L.ReachableF s'
  | [], s, s', R, h => by cases h; exact R
  | a :: as, s, s', R, h => by
    simp only [PLoop.acts, Option.bind_eq_some_iff] at h
    obtain ⟨t, h1, h2⟩ := h
    exact L.acts_reachableF as (.step R h1) h2

/-- An action, or writing an index (by a thread). -/
inductive PBAct
  | act (a : PAct) | write (w : Nat) (i : Int)

/-- One action with the buffer; the producer must have written everything when it finishes. -/
def PBuf.act (L : PLoop) (B : PBuf) (t : PBState) : PBAct → Option PBState
  | .act (.fail _) => none
  | .act (.finish w) =>
    match t.s.worker w with
    | none => none
    | some k =>
      if t.s.pos k = B.prod ∧ !((List.range (B.hi k - B.lo k + 1).toNat).all fun j => (t.written k).contains (B.lo k + j)) then none
      else (L.act t.s (.finish w)).map fun s' => ⟨s', t.buf, t.written⟩
  | .act a => (L.act t.s a).map fun s' => ⟨s', t.buf, t.written⟩
  | .write w i =>
    match t.s.worker w with
    | none => none
    | some k =>
      if (t.s.pos k = B.prod ∧ t.s.phase k = .running) ∧ B.lo k ≤ i ∧ i ≤ B.hi k then some ⟨t.s, t.buf.write B.F i, Function.update t.written k (t.written k ++ [i])⟩ else none

theorem PBuf.act_step {L : PLoop} {B : PBuf} {t t' : PBState} {a : PBAct} (h : PBuf.act L B t a = some t') : PBuf.Step L B t t' := by
  cases a with
  | write w i =>
    simp only [PBuf.act] at h
    split at h
    · cases h
    next k hw =>
    split at h
    · next hc => cases h; exact .write hw hc.1 hc.2.1 hc.2.2
    · cases h
  | act a =>
    cases a with
    | fail w => simp [PBuf.act] at h
    | finish w =>
      simp only [PBuf.act] at h
      split at h
      · cases h
      next k hw =>
      split at h
      · cases h
      next hc =>
      simp only [Option.map_eq_some_iff] at h
      obtain ⟨s', h1, rfl⟩ := h
      refine .act (a := .finish w) (by simp) h1 fun w' k' ha hw' hp i h1 h2 => ?_
      cases ha
      rw [hw] at hw'
      cases hw'
      simp only [hp, true_and, Bool.not_eq_true', Bool.not_eq_false, List.all_eq_true, List.mem_range, List.contains_iff_mem] at hc
      have := hc (i - B.lo k).toNat (by omega)
      have e : B.lo k + ((i - B.lo k).toNat : Int) = i := by omega
      rwa [e] at this
    | take w =>
      simp only [PBuf.act, Option.map_eq_some_iff] at h
      obtain ⟨s', h1, rfl⟩ := h
      exact .act (a := .take w) (by simp) h1 (fun _ _ h => by cases h)
    | enter w =>
      simp only [PBuf.act, Option.map_eq_some_iff] at h
      obtain ⟨s', h1, rfl⟩ := h
      exact .act (a := .enter w) (by simp) h1 (fun _ _ h => by cases h)
    | signal w =>
      simp only [PBuf.act, Option.map_eq_some_iff] at h
      obtain ⟨s', h1, rfl⟩ := h
      exact .act (a := .signal w) (by simp) h1 (fun _ _ h => by cases h)
    | leave w =>
      simp only [PBuf.act, Option.map_eq_some_iff] at h
      obtain ⟨s', h1, rfl⟩ := h
      exact .act (a := .leave w) (by simp) h1 (fun _ _ h => by cases h)

/-- The actions are done one after the other. -/
def PBuf.acts (L : PLoop) (B : PBuf) : PBState → List PBAct → Option PBState
  | t, [] => some t
  | t, a :: as => (PBuf.act L B t a).bind fun t' => PBuf.acts L B t' as

theorem PBuf.acts_reachable {L : PLoop} {B : PBuf} : ∀ (as : List PBAct) {t t' : PBState}, PBuf.Reachable L B t → PBuf.acts L B t as = some t' → PBuf.Reachable L B t'
  | [], _, _, R, h => by cases h; exact R
  | a :: as, _, _, R, h => by
    simp only [PBuf.acts, Option.bind_eq_some_iff] at h
    obtain ⟨t, h1, h2⟩ := h
    exact PBuf.acts_reachable as (.step R (PBuf.act_step h1)) h2

/-- A whole synchronised statement. -/
def stageActs (w : Nat) : List PBAct := [.act (.enter w), .act (.finish w), .act (.signal w)]
/-- The producer: writes the indices. -/
def prodActs (w : Nat) (is : List Int) : List PBAct := .act (.enter w) :: is.map (.write w) ++ [.act (.finish w), .act (.signal w)]

/-! ### The stencil of C45 in a pipeline -/

/-- The pipeline: the producer, and the consumer that needs the indices `v - 1` to `v + 1`. The user allows any number of workers. -/
def pipeEx : PLoop := ⟨[some 0, some 1], -2, 1, 12, 2, 2⟩

theorem pipeEx_eq : pipelineOf (safeCfg noHost) 8 false (.const 2147483647) (-2) 1 12 [1, 1] = some pipeEx := by decide +kernel

theorem pipeEx_ok : pipeEx.OK := (pipelineOf_ok (by decide) pipeEx_eq).1

/-- The buffer with the fold factor of C45. -/
def pipeBuf : PBuf := ⟨0, 3 + (2 - 1) * 1, fun q => (q : Int) - 2 + 1, fun q => (q : Int) - 2 + 1⟩

/-- In every execution, the consumer finds the three indices that it needs. -/
theorem pipeline_example {t : PBState} (R : PBuf.Reachable pipeEx pipeBuf t) {p : Nat} (hin : t.s.In p 1) (hp : 2 ≤ p) {i : Int} (h1 : (p : Int) - 2 - 1 ≤ i) (h2 : i ≤ (p : Int) - 2 + 1) :
    t.buf (i % 4) = some i := by
  have hit : ∀ q : Nat, sfR.iter memNoHost (fun _ => 0) q = q - 2 := fun q => by simp [SlideRes.iter, sfR, sfLoop, eval]; omega
  have hlo : ∀ q : Nat, sfLoop.at memNoHost (fun _ => 0) (sfR.iter memNoHost (fun _ => 0) q) sfR.bounds.min = (q : Int) - 2 + 1 := fun q => by
    rw [hit]; simp [SlideLoop.at, sfR, eval, sfV, Expr.v, BinOp.denote, sfLoop]
  have hhi : ∀ q : Nat, sfLoop.at memNoHost (fun _ => 0) (sfR.iter memNoHost (fun _ => 0) q) sfR.bounds.max = (q : Int) - 2 + 1 := fun q => by
    rw [hit]; simp [SlideLoop.at, sfR, eval, sfV, Expr.v, BinOp.denote, sfLoop]
  refine pipeline_slide_and_fold_partial (L := pipeEx) (B := pipeBuf) (t := t) (loop := sfLoop) (b := sfB) (fold := {}) (did := false) (ρ := fun _ => 0) (n := 11) (first := 2) (c := 1) (p := p)
    sfOK sfInput sfKnown rfl sfR_eq.symm rfl rfl (by decide) (sfRun _ rfl) pipeEx_eq ?_ ?_ rfl (fun q => (hlo q).symm) (fun q => (hhi q).symm) R rfl rfl (by decide) hin hp ?_ ?_
  · intro q _
    rw [hlo, hhi]
    simp [pipeEx]
  · intro h
    exact absurd h (by decide)
  · rw [hit]; simpa [SlideLoop.at, sfB, eval, sfV, Expr.v, BinOp.denote, sfLoop, eval_mkBin] using h1
  · rw [hit]; simpa [SlideLoop.at, sfB, eval, sfV, Expr.v, BinOp.denote, sfLoop, eval_mkBin] using h2

/-- An execution: the thread 0 runs the iterations 0, 1 and 2, and is in the consumer of iteration 2, while the thread 1 is in the producer of the iteration 3. -/
def pipeActs : List PBAct :=
  [.act (.take 0)] ++ prodActs 0 [-1] ++ stageActs 0 ++ [.act (.leave 0), .act (.take 0)] ++ prodActs 0 [0] ++ stageActs 0 ++
  [.act (.leave 0), .act (.take 0), .act (.take 1)] ++ prodActs 0 [1] ++ [.act (.enter 1), .act (.enter 0), .write 1 2]

theorem pipeActs_run : (PBuf.acts pipeEx pipeBuf ⟨pipeEx.init, fun _ => none, fun _ => []⟩ pipeActs).map
    (fun t => (t.s.pos 2, t.s.phase 2, t.s.pos 3, t.s.phase 3, t.buf 2)) =
    some (1, .running, 0, .running, some 2) := by decide +kernel

/-- The hypotheses of `pipeline_example` can be met. -/
theorem pipeActs_reachable : ∃ t, PBuf.Reachable pipeEx pipeBuf t ∧ t.s.In 2 1 ∧ t.s.In 3 0 := by
  have h := pipeActs_run
  simp only [Option.map_eq_some_iff, Prod.mk.injEq] at h
  obtain ⟨t, ht, h1, h2, h3, h4, -⟩ := h
  exact ⟨t, PBuf.acts_reachable _ (.init _) ht, ⟨h1, h2⟩, ⟨h3, h4⟩⟩

/-! ### Counterexamples -/

/-- C46, counterexample: a chain of three stages, and the user allows 3 workers. `add_synchronization` (slide_and_fold_storage.cc:221-226) gives up when there are two stages already, so the
last stage, which consumes a folded buffer, is not synchronised. There are 2 workers, and the buffer is folded for 2 workers. In the iteration `v`, the index `v` is produced and consumed
(the fold factor is 1, and 2 for 2 workers). One thread is still in the consumer of the iteration 0, while the other one has completed the iteration 1 and runs the producer of the
iteration 2: the index 0 is overwritten while it is needed. -/
theorem pipeline_unsynced_counterexample :
    ∃ (L : PLoop) (B : PBuf) (t : PBState) (b : Interval) (r : SlideRes), r = sfS.slideDim sfLoop b {} false ∧ b = ⟨.v 0, .v 0, true⟩ ∧ r.fold.factor = .const 1 ∧ r.fold.overlap = .const 1 ∧
      pipelineOf (safeCfg noHost) 8 false (.const 3) 0 1 10 [1, 1, 1] = some L ∧ L.workers = 2 ∧
      B = ⟨1, 1 + (L.workers - 1) * 1, fun q => q, fun q => q⟩ ∧ PBuf.Reachable L B t ∧
      -- the iteration 0 needs the index 0, and is running
      t.s.In 0 2 ∧ t.buf (0 % B.F) ≠ some 0 := by
  have h : (PBuf.acts ⟨[some 0, some 1, none], 0, 1, 10, 2, 2⟩ ⟨1, 1 + (2 - 1) * 1, fun q => q, fun q => q⟩ ⟨PLoop.init ⟨[some 0, some 1, none], 0, 1, 10, 2, 2⟩, fun _ => none, fun _ => []⟩
      ([.act (.take 0), .act (.take 1)] ++ stageActs 0 ++ prodActs 0 [0] ++ [.act (.enter 0)] ++ stageActs 1 ++ prodActs 1 [1] ++ [.act (.enter 1), .act (.finish 1), .act (.leave 1), .act (.take 1)] ++
        stageActs 1 ++ [.act (.enter 1), .write 1 2])).map (fun t => (t.s.pos 0, t.s.phase 0, t.buf 0)) = some (2, .running, some 2) := by decide +kernel
  simp only [Option.map_eq_some_iff, Prod.mk.injEq] at h
  obtain ⟨t, ht, h1, h2, h3⟩ := h
  refine ⟨_, _, t, ⟨.v 0, .v 0, true⟩, ⟨sfLoop, ⟨.v 0, .v 0, true⟩, ⟨.const 1, .const 1, 0⟩, false⟩, by decide +kernel, rfl, rfl, rfl, by decide +kernel, rfl, rfl, PBuf.acts_reachable _ (.init _) ht, ⟨h1, h2⟩, ?_⟩
  have e : (0 : Int) % (1 + (((2 : Nat) : Int) - 1) * 1) = 0 := by decide
  rw [e, h3]
  decide

theorem PLoop.ReachableF.worker_lt {L : PLoop} {s : PState} (R : L.ReachableF s) : ∀ w k, s.worker w = some k → w < L.workers := by
  induction R with
  | init => intro w k h; simp [PLoop.init] at h
  | @step s s' a _ hs ih =>
    have keep : s'.worker = s.worker → ∀ w k, s'.worker w = some k → w < L.workers := fun e w k h => ih w k (by rw [← e]; exact h)
    cases a with
    | take w =>
      simp only [PLoop.act, Option.ite_none_right_eq_some, Option.some.injEq] at hs
      obtain ⟨⟨h1, -⟩, rfl⟩ := hs
      intro w' k h
      by_cases e : w' = w
      · subst e; exact h1
      · dsimp only at h
        rw [upd_other _ _ e] at h
        exact ih _ _ h
    | leave w =>
      simp only [PLoop.act] at hs
      split at hs
      · cases hs
      · simp only [Option.ite_none_right_eq_some, Option.some.injEq] at hs
        obtain ⟨-, rfl⟩ := hs
        intro w' k h
        dsimp only at h
        by_cases e : w' = w
        · subst e; rw [upd_same] at h; cases h
        · rw [upd_other _ _ e] at h
          exact ih _ _ h
    | enter w =>
      apply keep
      simp only [PLoop.act] at hs
      split at hs
      · cases hs
      split at hs
      · split at hs
        · cases hs
        · cases hs; rfl
        · split at hs
          · cases hs; rfl
          · cases hs
      · cases hs
    | finish w =>
      apply keep
      simp only [PLoop.act] at hs
      split at hs
      · cases hs
      split at hs
      · split at hs
        · cases hs
        · cases hs; rfl
        · cases hs; rfl
      · cases hs
    | signal w =>
      apply keep
      simp only [PLoop.act] at hs
      split at hs
      · cases hs
      split at hs
      · split at hs
        · cases hs; rfl
        · cases hs
      · cases hs
    | fail w =>
      apply keep
      simp only [PLoop.act] at hs
      split at hs
      · cases hs
      split at hs
      · cases hs; rfl
      · cases hs

/-- C46, counterexample: errors. If a statement of a pipelined loop fails (and the handler `call_failed` returns), the semaphore of its stage is never signaled: the thread of the next
iteration waits forever, and the loop never returns. -/
theorem pipeline_error_counterexample :
    ∃ (L : PLoop) (s : PState), pipelineOf (safeCfg noHost) 8 false (.const 2147483647) 0 1 2 [1, 1] = some L ∧ L.ReachableF s ∧ s.worker 1 = some 1 ∧ ∀ a, L.act s a = none := by
  have h : (PLoop.acts ⟨[some 0, some 1], 0, 1, 2, 2, 2⟩ (PLoop.init ⟨[some 0, some 1], 0, 1, 2, 2, 2⟩) [.take 0, .take 1, .enter 0, .fail 0, .leave 0]).map
      (fun s => (s.worker 0, s.worker 1, s.next, s.pos 1, s.phase 1, s.sem 0 0)) = some (none, some 1, 2, 0, .ready, 0) := by decide +kernel
  simp only [Option.map_eq_some_iff, Prod.mk.injEq] at h
  obtain ⟨s, hs, h0, h1, h2, h3, h4, h5⟩ := h
  have R := PLoop.acts_reachableF _ _ .init hs
  refine ⟨_, s, by decide +kernel, R, h1, fun a => ?_⟩
  have hw : ∀ w, s.worker w = none ∨ w = 1 := by
    intro w
    rcases Nat.lt_or_ge w 2 with h | h
    · have : w = 0 ∨ w = 1 := by omega
      rcases this with rfl | rfl
      · exact .inl h0
      · exact .inr rfl
    · left
      cases hw : s.worker w with
      | none => rfl
      | some k => have := R.worker_lt w k hw; dsimp only at this; omega
  cases a with
  | take w => simp [PLoop.act, h2]
  | leave w =>
    rcases hw w with h | rfl
    · simp [PLoop.act, h]
    · simp [PLoop.act, h1, h3]
  | finish w =>
    rcases hw w with h | rfl
    · simp [PLoop.act, h]
    · simp [PLoop.act, h1, h4]
  | signal w =>
    rcases hw w with h | rfl
    · simp [PLoop.act, h]
    · simp [PLoop.act, h1, h4]
  | fail w =>
    rcases hw w with h | rfl
    · simp [PLoop.act, h]
    · simp [PLoop.act, h1, h4]
  | enter w =>
    rcases hw w with h | rfl
    · simp [PLoop.act, h]
    · have e : PLoop.waitSlot ⟨[some 0, some 1], 0, 1, 2, 2, 2⟩ 1 = 0 := by decide
      simp [PLoop.act, h1, h4, h3, e, h5]

end Slinky
