import Verif.AliasInPlaceSem
import Mathlib.Logic.Relation

/-!
# C56: buffers that are computed in place are not used after

`Edge T … A B`: the call that writes `B` may be computed in place of its input `A`, and this is the last use of `A`. The buffers that share memory
after the pass are connected by edges. The edges form chains, and only one buffer of a chain is used at a time.
-/

namespace Slinky.AIP

/-- Call `k` is the last use of its input `i`, and it may be computed in place of this input. -/
def Elig (attrs : Nat → Attrs) (K F : Nat → Prop) (T : List Call) (k : Nat) (c : Call) (o i : Nat) : Prop :=
  allowed (attrs c.target) c.ins.length o i ∧
  ∃ A, c.ins[i]? = some A ∧ K A ∧ ¬ F A ∧ c.ins.count A = 1 ∧ ∀ (k' : Nat) (c' : Call), k < k' → T[k']? = some c' → A ∉ c'.ins

/-- `A` is the first input that may be used for the output `B`. -/
def Edge (attrs : Nat → Attrs) (K F : Nat → Prop) (T : List Call) (A B : Nat) : Prop :=
  ∃ (k : Nat) (c : Call) (o i : Nat), T[k]? = some c ∧ c.outs[o]? = some B ∧ c.ins[i]? = some A ∧ K B ∧ Elig attrs K F T k c o i ∧
    ∀ i' < i, ¬ Elig attrs K F T k c o i'

/-- The call writes the buffer. -/
def WritesAt (T : List Call) (B k : Nat) : Prop := ∃ c, T[k]? = some c ∧ B ∈ c.outs
/-- The call reads the buffer. -/
def UsesAt (T : List Call) (A k : Nat) : Prop := ∃ c, T[k]? = some c ∧ A ∈ c.ins

/-- The conditions on the calls. -/
structure Calls (attrs : Nat → Attrs) (K F In : Nat → Prop) (T : List Call) : Prop where
  once : ∀ (k1 k2 : Nat) (c1 c2 : Call) (o1 o2 b : Nat), T[k1]? = some c1 → T[k2]? = some c2 →
    c1.outs[o1]? = some b → c2.outs[o2]? = some b → k1 = k2 ∧ o1 = o2
  readOnly : ∀ c ∈ T, ∀ b ∈ c.outs, ¬ In b
  written : ∀ (k : Nat) (c : Call) (a : Nat), T[k]? = some c → a ∈ c.ins → In a ∨ ∃ (k' : Nat) (c' : Call), k' < k ∧ T[k']? = some c' ∧ a ∈ c'.outs
  oneOut : ∀ c ∈ T, ∀ o1 o2 i, o1 < c.outs.length → o2 < c.outs.length → i < c.ins.length →
    allowed (attrs c.target) c.ins.length o1 i → allowed (attrs c.target) c.ins.length o2 i → o1 = o2
  notIn : ∀ R, K R → ¬ In R

section
variable {attrs : Nat → Attrs} {K F In : Nat → Prop} {T : List Call}

theorem Calls.writes_unique (h : Calls attrs K F In T) {B k1 k2 : Nat} (h1 : WritesAt T B k1) (h2 : WritesAt T B k2) : k1 = k2 := by
  obtain ⟨c1, t1, m1⟩ := h1
  obtain ⟨c2, t2, m2⟩ := h2
  obtain ⟨o1, g1⟩ := List.mem_iff_getElem?.mp m1
  obtain ⟨o2, g2⟩ := List.mem_iff_getElem?.mp m2
  exact (h.once k1 k2 c1 c2 o1 o2 B t1 t2 g1 g2).1

/-- An input that occurs once has one index. -/
theorem count_one_idx {l : List Nat} {a : Nat} (h : l.count a = 1) {i j : Nat} (hi : l[i]? = some a) (hj : l[j]? = some a) : i = j := by
  induction l generalizing i j with
  | nil => simp at hi
  | cons x xs ih =>
    have h0 : ∀ {n : Nat}, xs[n]? = some a → x ≠ a := by
      intro n hn hx
      have : 0 < xs.count a := List.count_pos_iff.mpr (List.mem_of_getElem? hn)
      rw [List.count_cons, hx] at h
      simp at h
      omega
    cases i with
    | zero =>
      cases j with
      | zero => rfl
      | succ j =>
        simp only [List.getElem?_cons_zero, Option.some.injEq] at hi
        exact absurd hi (h0 (by simpa using hj))
    | succ i =>
      cases j with
      | zero =>
        simp only [List.getElem?_cons_zero, Option.some.injEq] at hj
        exact absurd hj (h0 (by simpa using hi))
      | succ j =>
        simp only [List.getElem?_cons_succ] at hi hj
        have hx := h0 hi
        rw [List.count_cons] at h
        simp [hx] at h
        rw [ih h hi hj]

theorem Edge.out_unique (h : Calls attrs K F In T) {A B1 B2 : Nat} (h1 : Edge attrs K F T A B1) (h2 : Edge attrs K F T A B2) : B1 = B2 := by
  obtain ⟨k1, c1, o1, i1, t1, g1, a1, -, e1, -⟩ := h1
  obtain ⟨k2, c2, o2, i2, t2, g2, a2, -, e2, -⟩ := h2
  obtain ⟨al1, A1, x1, -, -, n1, l1⟩ := e1
  obtain ⟨al2, A2, x2, -, -, n2, l2⟩ := e2
  have hA1 : A1 = A := by rw [x1] at a1; exact Option.some.inj a1
  have hA2 : A2 = A := by rw [x2] at a2; exact Option.some.inj a2
  subst hA1; subst hA2
  have hk : k1 = k2 := by
    rcases Nat.lt_trichotomy k1 k2 with hlt | he | hlt
    · exact absurd (List.mem_of_getElem? a2) (l1 k2 c2 hlt t2)
    · exact he
    · exact absurd (List.mem_of_getElem? a1) (l2 k1 c1 hlt t1)
  subst hk
  rw [t1] at t2
  cases t2
  have hi := count_one_idx n1 a1 a2
  subst hi
  have ho := h.oneOut c1 (List.mem_of_getElem? t1) o1 o2 i1 (List.getElem?_eq_some_iff.mp g1).1 (List.getElem?_eq_some_iff.mp g2).1
    (List.getElem?_eq_some_iff.mp a1).1 al1 al2
  subst ho
  rw [g1] at g2
  exact Option.some.inj g2

theorem Edge.in_unique (h : Calls attrs K F In T) {A1 A2 B : Nat} (h1 : Edge attrs K F T A1 B) (h2 : Edge attrs K F T A2 B) : A1 = A2 := by
  obtain ⟨k1, c1, o1, i1, t1, g1, a1, -, e1, f1⟩ := h1
  obtain ⟨k2, c2, o2, i2, t2, g2, a2, -, e2, f2⟩ := h2
  obtain ⟨hk, ho⟩ := h.once k1 k2 c1 c2 o1 o2 B t1 t2 g1 g2
  subst hk; subst ho
  rw [t1] at t2
  cases t2
  have hi : i1 = i2 := by
    rcases Nat.lt_trichotomy i1 i2 with hlt | he | hlt
    · exact absurd e1 (f2 i1 hlt)
    · exact he
    · exact absurd e2 (f1 i2 hlt)
  subst hi
  rw [a1] at a2
  exact Option.some.inj a2

/-- Two buffers are in one chain. -/
def Cmp (attrs : Nat → Attrs) (K F : Nat → Prop) (T : List Call) (A B : Nat) : Prop :=
  Relation.ReflTransGen (Edge attrs K F T) A B ∨ Relation.ReflTransGen (Edge attrs K F T) B A

theorem Cmp.refl (A : Nat) : Cmp attrs K F T A A := .inl .refl
theorem Cmp.symm {A B : Nat} (h : Cmp attrs K F T A B) : Cmp attrs K F T B A := Or.symm h

theorem Cmp.trans (h : Calls attrs K F In T) {A B C : Nat} (h1 : Cmp attrs K F T A B) (h2 : Cmp attrs K F T B C) : Cmp attrs K F T A C := by
  have hU : Relator.RightUnique (Edge attrs K F T) := fun _ _ _ a b => Edge.out_unique h a b
  have hU' : Relator.RightUnique (Function.swap (Edge attrs K F T)) := fun _ _ _ a b => Edge.in_unique h a b
  rcases h1 with h1 | h1 <;> rcases h2 with h2 | h2
  · exact .inl (h1.trans h2)
  · have := Relation.ReflTransGen.total_of_right_unique hU' (Relation.ReflTransGen.swap _ _ h1) (Relation.ReflTransGen.swap _ _ h2)
    rcases this with t | t
    · exact .inr (Relation.ReflTransGen.swap _ _ t)
    · exact .inl (Relation.ReflTransGen.swap _ _ t)
  · exact Relation.ReflTransGen.total_of_right_unique hU h1 h2
  · exact .inr (h2.trans h1)

/-- An edge is a call that writes one buffer and is the last to read the other. -/
theorem Edge.facts {A B : Nat} (h : Edge attrs K F T A B) :
    ∃ k, WritesAt T B k ∧ UsesAt T A k ∧ (∀ k', k < k' → ¬ UsesAt T A k') ∧ K A ∧ ¬ F A ∧ K B := by
  obtain ⟨k, c, o, i, t, g, a, kb, ⟨-, A', x, ka, fa, -, l⟩, -⟩ := h
  have hA : A' = A := by rw [x] at a; exact Option.some.inj a
  subst hA
  exact ⟨k, ⟨c, t, List.mem_of_getElem? g⟩, ⟨c, t, List.mem_of_getElem? a⟩, fun k' hk ⟨c', t', m⟩ => l k' c' hk t' m, ka, fa, kb⟩

theorem Edge.lt (h : Calls attrs K F In T) {A B a b : Nat} (e : Edge attrs K F T A B) (ha : WritesAt T A a) (hb : WritesAt T B b) : a < b := by
  obtain ⟨k, wk, ⟨c, t, m⟩, -, ka, -⟩ := e.facts
  have := h.writes_unique wk hb
  subst this
  rcases h.written k c A t m with hi | ⟨k', c', hlt, t', m'⟩
  · exact absurd hi (h.notIn A ka)
  · have := h.writes_unique ha ⟨c', t', m'⟩
    omega

theorem Edge.source_written (h : Calls attrs K F In T) {A B : Nat} (e : Edge attrs K F T A B) : ∃ a, WritesAt T A a := by
  obtain ⟨k, wk, ⟨c, t, m⟩, -, ka, -⟩ := e.facts
  rcases h.written k c A t m with hi | ⟨k', c', hlt, t', m'⟩
  · exact absurd hi (h.notIn A ka)
  · exact ⟨k', c', t', m'⟩

theorem chain_le (h : Calls attrs K F In T) {A B : Nat} (e : Relation.ReflTransGen (Edge attrs K F T) A B) :
    ∀ {a b : Nat}, WritesAt T A a → WritesAt T B b → a ≤ b ∧ (a = b → A = B) := by
  induction e with
  | refl => intro a b ha hb; exact ⟨le_of_eq (h.writes_unique ha hb), fun _ => rfl⟩
  | tail _ e ih =>
    intro a c ha hc
    obtain ⟨b, hb⟩ := e.source_written h
    have := (ih ha hb).1
    have := e.lt h hb hc
    exact ⟨by omega, fun hh => by omega⟩

/-- A buffer that shares memory with the output of a call, and was written before, is not used after the call. If the call itself uses it, the call is
computed in place. -/
theorem Cmp.dead (h : Calls attrs K F In T) {R B r k : Nat} (hc : Cmp attrs K F T R B) (hr : WritesAt T R r) (hB : WritesAt T B k) (hrk : r < k) :
    ¬ F R ∧ (∀ k', k < k' → ¬ UsesAt T R k') ∧ (UsesAt T R k → Edge attrs K F T R B) := by
  have hchain : Relation.ReflTransGen (Edge attrs K F T) R B := by
    rcases hc with hc | hc
    · exact hc
    · have := (chain_le h hc hB hr).1
      omega
  rcases Relation.ReflTransGen.cases_head hchain with he | ⟨N, e, rest⟩
  · subst he
    have := h.writes_unique hr hB
    omega
  · obtain ⟨n, wn, un, last, kr, fr, -⟩ := e.facts
    have hle := chain_le h rest wn hB
    refine ⟨fr, fun k' hk' => last k' (by omega), fun hu => ?_⟩
    have hkn : k ≤ n := by
      by_contra hlt
      exact last k (by omega) hu
    have : n = k := by omega
    have hNB := hle.2 this
    subst hNB
    exact e

/-- An input is in no chain. -/
theorem Cmp.input (h : Calls attrs K F In T) {R B : Nat} (hc : Cmp attrs K F T R B) (hi : In R) : R = B := by
  rcases hc with hc | hc
  · rcases Relation.ReflTransGen.cases_head hc with he | ⟨N, e, -⟩
    · exact he
    · obtain ⟨-, -, -, -, kr, -⟩ := e.facts
      exact absurd hi (h.notIn R kr)
  · rcases Relation.ReflTransGen.cases_tail hc with he | ⟨N, -, e⟩
    · exact he
    · obtain ⟨-, -, -, -, -, -, kb⟩ := e.facts
      exact absurd hi (h.notIn R kb)

end

end Slinky.AIP
