import Verif.SemCleanThm

/-!
# Removing semaphores that do nothing: examples

Concrete statements that meet the conditions of the theorems of `SemCleanThm.lean`, and statements that the code changes outside of them.
-/

namespace Slinky.SC

/-! ## Semaphores that are used in one thread are removed -/

/-- Does a statement (outside of other allocations with the same name) have a wait or a signal of `x`? -/
def uses (x : Nat) : S → Bool
  | .sync _ xs => decide (x ∈ xs)
  | .seq a b | .async a b => uses x a || uses x b
  | .loop _ _ a => uses x a
  | .alloc y a => if y = x then false else uses x a
  | _ => false

theorem uses_remove (x : Nat) : ∀ s, uses x (remove x s) = false := by
  intro s
  induction s with
  | sync w xs => simp [remove, uses]
  | seq a b iha ihb => simp [remove, uses, iha, ihb]
  | async a b iha ihb => simp [remove, uses, iha, ihb]
  | loop p n a ih => simp [remove, uses, ih]
  | alloc y a ih => by_cases h : y = x <;> simp [remove, uses, h, ih]
  | _ => rfl

/-- C67. A semaphore that is initialized first, and that is used at the depth of its allocation only, is gone. -/
theorem removes {d x k : Nat} {a : S} (hb : isBlock a = true) (hf : first a = some (x, k)) (hs : isSem x a = true)
    (hu : usedAsync x d d a = false) : uses x (clean d (.alloc x a)) = false := by
  obtain ⟨h1, h2, _⟩ := first_clean d a hf
  have : clean d (.alloc x a) = remove x (dropFirst (clean d a)) := by
    simp [clean, hs, hu, h1, h2, hb]
  rw [this]; exact uses_remove x _

/-- The first statement of a block is in the block. -/
theorem first_isSem {x k : Nat} : ∀ (a : S), first a = some (x, k) → isSem x a = true := by
  intro a
  induction a with
  | init y j => intro h; simp only [first, Option.some.injEq, Prod.mk.injEq] at h; simp [isSem, h.1]
  | seq a b iha _ => intro h; simp [isSem, iha h]
  | _ => intro h; simp [first] at h

/-! ## A loop that waits and signals in one thread -/

/-- A loop that was to be a pipeline, and is not. -/
def loop1 : S := .alloc 7 (.seq (.init 7 1) (.loop false 2 (.seq (.sync true [7]) (.seq (.work 1) (.sync false [7])))))

theorem ex_loop_good : Good True 0 loop1 := by
  refine ⟨⟨trivial, trivial, trivial, trivial⟩, fun _ => ⟨⟨1, rfl⟩, by decide +kernel, fun _ => ?_⟩⟩
  simp [serial, List.replicate, Allows]

theorem ex_loop : clean 0 loop1 = .loop false 2 (.seq (.sync true []) (.seq (.work 1) (.sync false []))) ∧
    Runs loop1 [.work 1, .work 1] := by
  refine ⟨by decide +kernel, (cleanup_runs_partial ex_loop_good _).mp ?_⟩
  have e : clean 0 loop1 = .loop false 2 (.seq (.sync true []) (.seq (.work 1) (.sync false []))) := by decide +kernel
  rw [e]
  have hw : Runs (.seq (.sync true []) (.seq (.work 1) (.sync false []))) [.work 1] :=
    ⟨[], [.work 1], by simp [Runs], ⟨[.work 1], [], rfl, by simp [Runs], rfl⟩, rfl⟩
  exact ⟨[.work 1], [.work 1], hw, ⟨[.work 1], [], hw, rfl, rfl⟩, rfl⟩

/-! ## Two threads: the producer signals, the consumer waits -/

/-- The producer makes 1, the consumer uses it: 2. -/
def pipe : S := .alloc 7 (.seq (.init 7 0) (.async (.seq (.work 1) (.sync false [7])) (.seq (.sync true [7]) (.work 2))))

theorem ex_pipe_good : Good True 0 pipe :=
  ⟨⟨trivial, ⟨trivial, trivial⟩, ⟨trivial, trivial⟩⟩, fun h => absurd (by decide +kernel) h⟩

/-- The semaphore of two threads is kept, so 2 does not come before 1. -/
theorem ex_pipe : clean 0 pipe = pipe ∧ Runs (clean 0 pipe) [.work 1, .work 2] ∧ ¬ Runs (clean 0 pipe) [.work 2, .work 1] := by
  have e : clean 0 pipe = pipe := by decide +kernel
  rw [e]
  refine ⟨rfl, ⟨[.init 7 0, .work 1, .sync false [7], .sync true [7], .work 2],
    ⟨[.init 7 0], [.work 1, .sync false [7], .sync true [7], .work 2], rfl,
      ⟨[.work 1, .sync false [7]], [.sync true [7], .work 2], ⟨[.work 1], [.sync false [7]], rfl, by simp [Runs], rfl⟩,
        ⟨[.sync true [7]], [.work 2], by simp [Runs], rfl, rfl⟩,
        .left _ (.left _ (.right _ (.right _ .nil)))⟩, rfl⟩, by simp [op, Allows, List.filterMap_cons], by simp [hide]⟩, ?_⟩
  rintro ⟨w, ⟨i, v, hi, ⟨p, c, ⟨p1, p2, h1, h2, rfl⟩, ⟨c1, c2, h3, h4, rfl⟩, hs⟩, rfl⟩, hal, ht⟩
  simp only [Runs] at hi h1 h2 h3 h4
  subst hi; subst h1; subst h4
  simp only [List.cons_ne_nil, if_false] at h2 h3
  subst h2; subst h3
  -- the first event of the two threads
  simp only [List.cons_append, List.nil_append] at hs
  cases hs with
  | left _ hs => simp [hide] at ht
  | right _ hs =>
    simp [op, Allows] at hal

/-! ## Outside of the conditions -/

/-- The semaphore 7 is initialized, but the first statement of its allocation initializes the semaphore 8. -/
def wrong : S := .alloc 8 (.alloc 7 (.seq (.init 8 1) (.seq (.init 7 1) (.async (.sync true [8]) (.work 1)))))

/-- C67, refuted outside the condition: the first call of `init_semaphores` is removed, but it may initialize other semaphores, which are used then
without a value: the statement had a run, and has none. (The call for the semaphore that is gone remains, too.) -/
theorem wrong_init_counterexample :
    Runs wrong [.work 1] ∧ clean 0 wrong = .alloc 8 (.seq (.init 7 1) (.async (.sync true [8]) (.work 1))) ∧ ∀ t, ¬ Runs (clean 0 wrong) t := by
  have e : clean 0 wrong = .alloc 8 (.seq (.init 7 1) (.async (.sync true [8]) (.work 1))) := by decide +kernel
  refine ⟨⟨[.init 8 1, .sync true [8], .work 1], ⟨[.init 8 1, .init 7 1, .sync true [8], .work 1],
    ⟨[.init 8 1], _, rfl, ⟨[.init 7 1], [.sync true [8], .work 1], rfl,
      ⟨[.sync true [8]], [.work 1], by simp [Runs], rfl, .left _ (.right _ .nil)⟩, rfl⟩, rfl⟩, by simp [op, Allows, List.filterMap_cons], by simp [hide]⟩,
    by simp [op, Allows, List.filterMap_cons], by simp [hide]⟩, e, ?_⟩
  rw [e]
  rintro t ⟨u, ⟨i, v, hi, ⟨a, b, ha, hb, hs⟩, rfl⟩, hal, _⟩
  simp only [Runs] at hi ha hb
  subst hi; subst hb
  simp only [List.cons_ne_nil, if_false] at ha
  subst ha
  cases hs with
  | left _ hs =>
    cases hs with
    | right _ hs =>
      obtain rfl := hs.eq_nil
      simp [op, Allows, List.filterMap_cons] at hal
  | right _ hs =>
    cases hs with
    | left _ hs =>
      obtain rfl := hs.eq_nil
      simp [op, Allows, List.filterMap_cons] at hal

/-- A thread that waits for itself. -/
def dead : S := .alloc 7 (.seq (.init 7 0) (.seq (.sync true [7]) (.work 1)))

/-- C67, refuted outside the condition: a statement that waits for itself forever runs to the end without its semaphore. -/
theorem self_wait_counterexample : (∀ t, ¬ Runs dead t) ∧ Runs (clean 0 dead) [.work 1] ∧ Good False 0 dead := by
  refine ⟨?_, ?_, ⟨⟨trivial, trivial, trivial⟩, fun _ => ⟨⟨0, rfl⟩, by decide +kernel, False.elim⟩⟩⟩
  · rintro t ⟨u, ⟨i, v, hi, ⟨a, b, ha, hb, rfl⟩, rfl⟩, hal, _⟩
    simp only [Runs] at hi ha hb
    subst hi; subst hb
    simp only [List.cons_ne_nil, if_false] at ha
    subst ha
    simp [op, Allows] at hal
  · have e : clean 0 dead = .seq (.sync true []) (.work 1) := by decide +kernel
    rw [e]
    exact ⟨[], [.work 1], by simp [Runs], rfl, rfl⟩

end Slinky.SC
