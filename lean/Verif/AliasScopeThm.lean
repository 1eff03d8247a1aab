import Verif.AliasScope

/-!
# An allocation becomes an alias only of a buffer that is declared, and that it is copied from or to (C73)
-/

namespace Slinky.ASc

theorem candidates_free (s : Stmt) : ∀ p ∈ candidates s, Free p.1 s ∧ Free p.2 s := by
  induction s with
  | other uses => simp [candidates]
  | copy src dst =>
    intro p hp
    simp only [candidates, List.mem_cons, List.not_mem_nil, or_false] at hp
    rcases hp with rfl | rfl <;> simp [Free]
  | seq a b iha ihb =>
    intro p hp
    rcases List.mem_append.1 hp with h | h
    · exact ⟨Or.inl (iha p h).1, Or.inl (iha p h).2⟩
    · exact ⟨Or.inr (ihb p h).1, Or.inr (ihb p h).2⟩
  | loop body ih => exact ih
  | alloc x body ih =>
    intro p hp
    simp only [candidates, List.mem_filter, Bool.and_eq_true, decide_eq_true_eq] at hp
    exact ⟨⟨hp.2.1, (ih p hp.1).1⟩, ⟨hp.2.2, (ih p hp.1).2⟩⟩
  | view sym src body ih =>
    intro p hp
    simp only [candidates, List.mem_map] at hp
    obtain ⟨q, hq, rfl⟩ := hp
    have key : ∀ z, Free z body → Free (rename sym src z) (.view sym src body) := by
      intro z hz
      unfold rename
      split
      · exact Or.inl rfl
      · rename_i h
        exact Or.inr ⟨h, hz⟩
    exact ⟨key _ (ih q hq).1, key _ (ih q hq).2⟩

/-- The candidates are the buffers of copies, in both directions. -/
theorem candidates_iff (s : Stmt) : ∀ a b, (a, b) ∈ candidates s ↔ Copied s a b ∨ Copied s b a := by
  induction s with
  | other uses =>
    intro a b
    simp only [candidates, List.not_mem_nil, false_iff, not_or]
    constructor <;> intro h <;> cases h
  | copy src dst =>
    intro a b
    simp only [candidates, List.mem_cons, Prod.mk.injEq, List.not_mem_nil, or_false]
    constructor
    · rintro (⟨rfl, rfl⟩ | ⟨rfl, rfl⟩)
      · exact Or.inr (.copy _ _)
      · exact Or.inl (.copy _ _)
    · rintro (h | h) <;> cases h <;> simp
  | seq u v iha ihb =>
    intro a b
    simp only [candidates, List.mem_append, iha, ihb]
    constructor
    · rintro ((h | h) | (h | h))
      · exact Or.inl (.left h)
      · exact Or.inr (.left h)
      · exact Or.inl (.right h)
      · exact Or.inr (.right h)
    · rintro (h | h) <;> cases h <;> tauto
  | loop body ih =>
    intro a b
    simp only [candidates, ih]
    constructor
    · rintro (h | h)
      · exact Or.inl (.loop h)
      · exact Or.inr (.loop h)
    · rintro (h | h) <;> cases h <;> tauto
  | alloc x body ih =>
    intro a b
    simp only [candidates, List.mem_filter, Bool.and_eq_true, decide_eq_true_eq, ih]
    constructor
    · rintro ⟨h | h, h1, h2⟩
      · exact Or.inl (.alloc h h1 h2)
      · exact Or.inr (.alloc h h2 h1)
    · rintro (h | h) <;> cases h <;> tauto
  | view sym src body ih =>
    intro a b
    simp only [candidates, List.mem_map, Prod.mk.injEq]
    constructor
    · rintro ⟨⟨p, q⟩, hq, rfl, rfl⟩
      rcases (ih p q).1 hq with h | h
      · exact Or.inl (.view h)
      · exact Or.inr (.view h)
    · rintro (h | h)
      · cases h with
        | view h => exact ⟨(_, _), (ih _ _).2 (Or.inl h), rfl, rfl⟩
      · cases h with
        | view h => exact ⟨(_, _), (ih _ _).2 (Or.inr h), rfl, rfl⟩

/-- An allocation becomes an alias only of a buffer that is declared where the allocation is, or of itself, if it is copied to itself. -/
theorem target_declared_partial (x : Nat) (body : Stmt) (t : Nat) (h : t ∈ targets x body) (hx : ¬ Copied body x x) : Free t (.alloc x body) := by
  simp only [targets, List.mem_map, List.mem_filter, decide_eq_true_eq] at h
  obtain ⟨⟨a, b⟩, ⟨hp, h1⟩, rfl⟩ := h
  simp only at h1
  subst h1
  refine ⟨?_, (candidates_free body _ hp).2⟩
  intro e
  have e' : b = a := e
  rw [e'] at hp
  rcases (candidates_iff body _ _).1 hp with h | h <;> exact hx h

/-- It becomes an alias only of a buffer that it is copied to or from, and all of these are tried. -/
theorem target_copied (x : Nat) (body : Stmt) (t : Nat) : t ∈ targets x body ↔ Copied body x t ∨ Copied body t x := by
  rw [← candidates_iff]
  simp only [targets, List.mem_map, List.mem_filter, decide_eq_true_eq]
  constructor
  · rintro ⟨⟨a, b⟩, ⟨hp, h1⟩, h2⟩
    simp only at h1 h2
    rw [← h1, ← h2]
    exact hp
  · exact fun h => ⟨(x, t), ⟨h, rfl⟩, rfl⟩

/-! ## Examples -/

/-- The body of an allocation 0: a copy from a view 11 of 1 to a view 10 of the allocation, a copy from the allocation to another allocation 2, and a copy to a buffer 3 -/
def exBody : Stmt := .seq (.loop (.view 10 0 (.view 11 1 (.copy 11 10)))) (.seq (.alloc 2 (.seq (.copy 0 2) (.other [2, 4]))) (.copy 0 3))

theorem ex_targets : targets 0 exBody = [1, 3] ∧ candidates (.alloc 0 exBody) = [] ∧ candidates exBody = [(0, 1), (1, 0), (3, 0), (0, 3)] := by
  refine ⟨?_, ?_, ?_⟩ <;> decide +kernel

theorem ex_not_self : ¬ Copied exBody 0 0 := by
  have := (target_copied 0 exBody 0).not
  intro h
  exact this.1 (by decide +kernel) (Or.inl h)

theorem ex_declared : Free 1 (.alloc 0 exBody) ∧ Free 3 (.alloc 0 exBody) :=
  ⟨target_declared_partial 0 exBody 1 (by decide +kernel) ex_not_self, target_declared_partial 0 exBody 3 (by decide +kernel) ex_not_self⟩

/-- The inner allocation 2 may become an alias of 0, which is declared outside of it; a view is a view of the same name. -/
theorem ex_inner : targets 2 (.seq (.copy 0 2) (.view 0 0 (.copy 2 0))) = [0, 0] := by decide +kernel

/-- An allocation that is copied to itself, through views, may become an alias of itself, which is not declared there. -/
theorem self_copy_counterexample : targets 0 (.view 10 0 (.view 11 0 (.copy 10 11))) = [0, 0] ∧
    ¬ Free 0 (.alloc 0 (.view 10 0 (.view 11 0 (.copy 10 11)))) := by
  refine ⟨by decide +kernel, ?_⟩
  rintro ⟨h, _⟩
  exact h rfl

end Slinky.ASc
