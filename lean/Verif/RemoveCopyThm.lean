import Verif.RemoveCopy

/-!
# Removing the copies between a buffer and its alias does not change what a statement does

See `RemoveCopy.lean` for the code and the specification.
-/

namespace Slinky.RMC

theorem copied_self {src dst : View} {f : List Int → List Int} (h : ∀ x p, dst x = some p → src (f x) = some p) (m m' : Mem) :
    Copied src dst f m m' ↔ m' = m := by
  constructor
  · intro hc
    funext p
    rcases hc p with ⟨x, q, h1, h2, h3⟩ | ⟨_, h3⟩
    · rw [h x p h1] at h2; cases h2; exact h3
    · exact h3
  · rintro rfl p
    by_cases hp : ∃ x, dst x = some p
    · obtain ⟨x, hx⟩ := hp
      exact .inl ⟨x, p, hx, h x p hx, rfl⟩
    · exact .inr ⟨fun x hx => hp ⟨x, hx⟩, rfl⟩

theorem remove_ex {ra rb : Nat} : ∀ (s : S) (as bs ns : List Nat) (ρ : Env), (∀ x ∈ as, x ∈ ns ∧ (ρ x).root = ra) → (∀ x ∈ bs, x ∈ ns ∧ (ρ x).root = rb) →
    NoShadow ns s → OnlyAlias ra rb s ρ → ∀ m m', Ex (remove as bs s) ρ m m' ↔ Ex s ρ m m' := by
  intro s
  induction s with
  | skip => intro as bs ns ρ _ _ _ _ m m'; rfl
  | call F => intro as bs ns ρ _ _ _ _ m m'; rfl
  | copy src dst f =>
    intro as bs ns ρ ha hb _ ho m m'
    simp only [remove]
    split
    · next h =>
      simp only [isAB, Bool.or_eq_true, Bool.and_eq_true, decide_eq_true_eq] at h
      refine (copied_self (ho ?_) m m').symm
      rcases h with h | h
      · exact .inl ⟨(ha _ h.1).2, (hb _ h.2).2⟩
      · exact .inr ⟨(ha _ h.1).2, (hb _ h.2).2⟩
    · rfl
  | seq a b iha ihb =>
    intro as bs ns ρ ha hb hn ho m m'
    simp only [remove, Ex]
    exact exists_congr fun m1 => and_congr (iha as bs ns ρ ha hb hn.1 ho.1 m m1) (ihb as bs ns ρ ha hb hn.2 ho.2 m1 m')
  | view sym src g body ih =>
    intro as bs ns ρ ha hb hn ho m m'
    have key : ∀ (cs : List Nat) (r : Nat), (∀ x ∈ cs, x ∈ ns ∧ (ρ x).root = r) → ∀ x ∈ (if src ∈ cs then sym :: cs else cs),
        x ∈ sym :: ns ∧ (Function.update ρ sym ⟨g (ρ src).view, (ρ src).root⟩ x).root = r := by
      intro cs r hc x hx
      have old : x ∈ cs → x ∈ sym :: ns ∧ (Function.update ρ sym ⟨g (ρ src).view, (ρ src).root⟩ x).root = r := by
        intro h
        have hne : x ≠ sym := fun e => hn.1 (e ▸ (hc x h).1)
        exact ⟨List.mem_cons_of_mem _ (hc x h).1, by rw [Function.update_of_ne hne]; exact (hc x h).2⟩
      split at hx
      · next hs =>
        rcases List.mem_cons.mp hx with rfl | h
        · exact ⟨List.mem_cons_self, by rw [Function.update_self]; exact (hc _ hs).2⟩
        · exact old h
      · exact old hx
    exact ih _ _ (sym :: ns) _ (key as ra ha) (key bs rb hb) hn.2 ho m m'
  | decl sym b body ih =>
    intro as bs ns ρ ha hb hn ho m m'
    have key : ∀ (cs : List Nat) (r : Nat), (∀ x ∈ cs, x ∈ ns ∧ (ρ x).root = r) → ∀ x ∈ cs, x ∈ sym :: ns ∧ (Function.update ρ sym b x).root = r := by
      intro cs r hc x h
      have hne : x ≠ sym := fun e => hn.1 (e ▸ (hc x h).1)
      exact ⟨List.mem_cons_of_mem _ (hc x h).1, by rw [Function.update_of_ne hne]; exact (hc x h).2⟩
    exact ih as bs (sym :: ns) _ (key as ra ha) (key bs rb hb) hn.2 ho m m'

/-- C70. If all copies between (views of) the two buffers copy every element to itself, and no name is declared again, the statement without these copies does the
same. -/
theorem removeCopy_partial {s : S} {a b : Nat} {ρ : Env} (hn : NoShadow [a, b] s) (ho : OnlyAlias (ρ a).root (ρ b).root s ρ) (m m' : Mem) :
    Ex (removeCopy s a b) ρ m m' ↔ Ex s ρ m m' :=
  remove_ex s [a] [b] [a, b] ρ (by simp) (by simp) hn ho m m'

/-- C70. Only copies are removed, and none is added. -/
theorem copies_sublist : ∀ (s : S) (as bs : List Nat), (copies (remove as bs s)).Sublist (copies s)
  | .skip, _, _ => List.Sublist.refl _
  | .call _, _, _ => List.Sublist.refl _
  | .copy src dst f, as, bs => by
    simp only [remove]
    split
    · exact List.nil_sublist _
    · exact List.Sublist.refl _
  | .seq a b, as, bs => (copies_sublist a as bs).append (copies_sublist b as bs)
  | .view _ src _ body, as, bs => copies_sublist body _ _
  | .decl _ _ body, as, bs => copies_sublist body as bs

/-- C70. The copies between the two names are gone. -/
theorem copies_removed {a b : Nat} : ∀ (s : S) (as bs : List Nat), a ∈ as → b ∈ bs → (a, b) ∉ copies (remove as bs s) ∧ (b, a) ∉ copies (remove as bs s)
  | .skip, _, _, _, _ => by simp [remove, copies]
  | .call _, _, _, _, _ => by simp [remove, copies]
  | .copy src dst f, as, bs, ha, hb => by
    simp only [remove]
    split
    · simp [copies]
    · next h =>
      simp only [isAB, Bool.or_eq_true, Bool.and_eq_true, decide_eq_true_eq, not_or] at h
      simp only [copies, List.mem_singleton, Prod.mk.injEq]
      exact ⟨by rintro ⟨rfl, rfl⟩; exact h.1 ⟨ha, hb⟩, by rintro ⟨rfl, rfl⟩; exact h.2 ⟨ha, hb⟩⟩
  | .seq s t, as, bs, ha, hb => by
    have h1 := copies_removed s as bs ha hb
    have h2 := copies_removed t as bs ha hb
    simp only [remove, copies, List.mem_append]
    exact ⟨not_or.mpr ⟨h1.1, h2.1⟩, not_or.mpr ⟨h1.2, h2.2⟩⟩
  | .view sym src g body, as, bs, ha, hb => by
    refine copies_removed body _ _ ?_ ?_ <;> split <;> simp [ha, hb]
  | .decl _ _ body, as, bs, ha, hb => copies_removed body as bs ha hb

/-! ## Examples -/

/-- Some elements at consecutive addresses. -/
def seg (min max base : Int) : View
  | [x] => if min ≤ x ∧ x ≤ max then some (base + x) else none
  | _ => none

/-- A crop. -/
def cropTo (min max : Int) (v : View) : View
  | [x] => if min ≤ x ∧ x ≤ max then v [x] else none
  | _ => none

/-- The destination has the elements 0 to 3 (at the addresses 100 to 103), the source is an alias of the first two. -/
def exEnv : Env := fun x => if x = 0 then ⟨seg 0 3 100, 0⟩ else ⟨seg 0 1 100, 1⟩

/-- The first half of the destination is copied from the source. -/
def one : S := .view 2 0 (cropTo 0 1) (.copy 1 2 id)

theorem ex_one (m m' : Mem) : Ex (removeCopy one 1 0) exEnv m m' ↔ Ex one exEnv m m' := by
  refine removeCopy_partial (s := one) (a := 1) (b := 0) ⟨by simp, trivial⟩ ?_ m m'
  intro _ x p h
  match x with
  | [] => simp [exEnv, cropTo] at h
  | [x] =>
    simp only [Function.update_self, exEnv, cropTo, seg, if_true] at h
    simp only [Function.update, exEnv, seg, id]
    split at h
    · next h1 =>
      simp only [show ¬ ((1 : Nat) = 2) by omega, dite_false, show ¬ ((1 : Nat) = 0) by omega, if_false, h1, and_self, if_true]
      rw [if_pos (by omega)] at h
      exact (if_pos h1).trans h
    · cases h
  | _ :: _ :: _ => simp [exEnv, cropTo] at h

theorem ex_one_removed : copies (removeCopy one 1 0) = [] ∧ copies one = [(1, 2)] := by
  simp [removeCopy, remove, one, isAB, copies]

/-- Copies between views, in both directions, are removed; copies of one of the two buffers, or of others, are not. -/
theorem ex_views_removed : copies (removeCopy (.view 2 1 id (.view 3 2 id (.view 4 0 id (.decl 5 ⟨fun _ => none, 5⟩ (.seq (.copy 3 4 id) (.seq (.copy 4 2 id)
    (.seq (.copy 3 2 id) (.seq (.copy 5 4 id) (.copy 3 5 id))))))))) 1 0) = [(3, 2), (5, 4), (3, 5)] := by
  simp [removeCopy, remove, isAB, copies]

/-- Both halves of the destination are copied from the source: a concatenation of a buffer with itself. -/
def two : S := .seq (.view 2 0 (cropTo 0 1) (.copy 1 2 id)) (.view 3 0 (cropTo 2 3) (.copy 1 3 (fun x => x.map (· - 2))))

/-- C70, refuted outside the condition: all copies between the two buffers are removed, also those that are not the copy that the alias is for: the second half of the
destination is not written. -/
theorem two_copies_counterexample : (∀ m m', Ex two exEnv m m' → m' 102 = m 100) ∧ (∀ m, Ex (removeCopy two 1 0) exEnv m m) := by
  constructor
  · rintro m m' ⟨m1, h1, h2⟩
    have e1 : m1 100 = m 100 := by
      rcases h1 100 with ⟨x, q, hx, hq, e⟩ | ⟨_, e⟩
      · match x with
        | [] => simp [exEnv, cropTo] at hx
        | [x] =>
          simp only [Function.update_self, exEnv, cropTo, seg, if_true] at hx
          split at hx
          · next hb =>
            rw [if_pos (by omega), Option.some.injEq] at hx
            simp only [Function.update, exEnv, seg, id, show ¬ ((1 : Nat) = 2) by omega, dite_false, show ¬ ((1 : Nat) = 0) by omega, if_false] at hq
            rw [if_pos (by omega), Option.some.injEq] at hq
            rw [e, ← hq, hx]
          · cases hx
        | _ :: _ :: _ => simp [exEnv, cropTo] at hx
      · exact e
    rcases h2 102 with ⟨x, q, hx, hq, e⟩ | ⟨hx, _⟩
    · match x with
      | [] => simp [exEnv, cropTo] at hx
      | [x] =>
        simp only [Function.update_self, exEnv, cropTo, seg, if_true] at hx
        split at hx
        · next hb =>
          rw [if_pos (by omega), Option.some.injEq] at hx
          simp only [Function.update, exEnv, seg, List.map_cons, List.map_nil, show ¬ ((1 : Nat) = 3) by omega, dite_false, show ¬ ((1 : Nat) = 0) by omega,
            if_false] at hq
          rw [if_pos (by omega), Option.some.injEq] at hq
          rw [e, ← e1]; congr 1; omega
        · cases hx
      | _ :: _ :: _ => simp [exEnv, cropTo] at hx
    · exact absurd (show _ = some (102 : Int) by
        show (Function.update exEnv 3 _ 3).view [2] = _
        rw [Function.update_self]; rfl) (hx [2])
  · intro m
    have e : removeCopy two 1 0 = .seq (.view 2 0 (cropTo 0 1) .skip) (.view 3 0 (cropTo 2 3) .skip) := by
      simp [removeCopy, remove, two, isAB]
    rw [e]
    exact ⟨m, rfl, rfl⟩

/-- Another buffer gets the name of the source. -/
def shadowed : S := .decl 1 ⟨seg 0 1 500, 5⟩ (.view 2 0 (cropTo 0 1) (.copy 1 2 id))

/-- C70, refuted outside the condition: names that are declared again are taken for the old buffer. -/
theorem shadow_counterexample : copies (removeCopy shadowed 1 0) = [] ∧ OnlyAlias 1 0 shadowed exEnv := by
  refine ⟨by simp [removeCopy, remove, shadowed, isAB, copies], ?_⟩
  intro h
  exfalso
  simp [Function.update, exEnv] at h

end Slinky.RMC
