import Verif.Licm

/-!
# Moving statements out of loops: proof
-/

namespace Slinky.LI

open Slinky

variable {Loc Val : Type} {W : LWorld Loc Val}

/-! ## Computing before using -/

/-- The element is computed by one of the executions. -/
def LWorld.Written (W : LWorld Loc Val) (es : List (Stmt × Int)) (a : Loc) : Prop := ∃ e ∈ es, W.writes e.1 e.2 a = true

theorem pf_append : ∀ {es es' : List (Stmt × Int)} {P : Loc → Prop},
    W.ProduceFirst P (es ++ es') ↔ W.ProduceFirst P es ∧ W.ProduceFirst (fun a => P a ∨ W.Written es a) es'
  | [], es', P => by simp [LWorld.ProduceFirst, LWorld.Written]
  | e :: es, es', P => by
    simp only [List.cons_append, LWorld.ProduceFirst, pf_append (es := es), and_assoc]
    have : (fun a => (P a ∨ W.writes e.1 e.2 a = true) ∨ W.Written es a) = (fun a => P a ∨ W.Written (e :: es) a) := by
      funext a; simp [LWorld.Written, or_assoc]
    rw [this]

theorem pf_mono : ∀ {es : List (Stmt × Int)} {P P' : Loc → Prop}, W.ProduceFirst P es → (∀ a, P a → P' a) → W.ProduceFirst P' es
  | [], _, _, _, _ => trivial
  | _ :: _, _, _, h, hp => ⟨fun a ha => hp a (h.1 a ha), pf_mono h.2 fun a ha => ha.imp (hp a) id⟩

/-- If each element is computed before it is used, all elements that are computed have the right value at the end. -/
theorem runs_right {T : Loc → Val} : ∀ {es : List (Stmt × Int)} {P : Loc → Prop} {m : Loc → Val}, W.ProduceFirst P es → (∀ a, P a → m a = T a) →
    (∀ e ∈ es, ∀ m, (∀ a, W.reads e.1 e.2 a = true → m a = T a) → ∀ a, W.writes e.1 e.2 a = true → W.val e.1 e.2 m a = T a) →
    ∀ a, P a ∨ W.Written es a → W.runs es m a = T a
  | [], P, m, _, hm, _, a, ha => by
    rcases ha with ha | ⟨e, he, _⟩
    · exact hm a ha
    · cases he
  | e :: es, P, m, h, hm, hv, a, ha => by
    have hm' : ∀ a, (P a ∨ W.writes e.1 e.2 a = true) → W.run m e a = T a := fun a ha => by
      unfold LWorld.run
      split
      · rename_i hw; exact hv e (by simp) m (fun a hr => hm a (h.1 a hr)) a hw
      · rename_i hw; exact hm a (ha.resolve_right hw)
    have := runs_right h.2 hm' (fun e' he' => hv e' (by simp [he'])) a (by
      rcases ha with ha | ⟨e', he', hw⟩
      · exact Or.inl (Or.inl ha)
      · rcases List.mem_cons.1 he' with rfl | he'
        · exact Or.inl (Or.inr hw)
        · exact Or.inr ⟨e', he', hw⟩)
    exact this

theorem pf_split {es1 es2 : List (Stmt × Int)} {e : Stmt × Int} {P : Loc → Prop} (h : W.ProduceFirst P (es1 ++ e :: es2)) (a : Loc)
    (ha : W.reads e.1 e.2 a = true) : P a ∨ W.Written es1 a := (pf_append.1 h).2.1 a ha

theorem iterations_append (ks ks' : List Int) (ss : List Stmt) : iterations (ks ++ ks') ss = iterations ks ss ++ iterations ks' ss := by
  simp [iterations]

theorem mem_iterations {ks : List Int} {ss : List Stmt} {e : Stmt × Int} : e ∈ iterations ks ss ↔ e.1 ∈ ss ∧ e.2 ∈ ks := by
  obtain ⟨s, k⟩ := e
  simp [iterations, and_comm]

theorem written_iter {ks : List Int} {ss : List Stmt} {a : Loc} : W.Written (iterations ks ss) a ↔ ∃ s ∈ ss, ∃ k ∈ ks, W.writes s k a = true := by
  simp only [LWorld.Written, mem_iterations, Prod.exists]
  constructor
  · rintro ⟨s, k, ⟨h1, h2⟩, h3⟩; exact ⟨s, h1, k, h2, h3⟩
  · rintro ⟨s, h1, k, h2, h3⟩; exact ⟨s, k, ⟨h1, h2⟩, h3⟩

/-- Where the elements come from that a statement of the loop uses. -/
theorem pf_loop {ks1 ks2 : List Int} {k : Int} {ss : List Stmt} {P : Loc → Prop} (h : W.ProduceFirst P (iterations (ks1 ++ k :: ks2) ss)) {s : Stmt}
    (hs : s ∈ ss) {a : Loc} (ha : W.reads s k a = true) : P a ∨ ∃ t ∈ ss, ∃ k' ∈ ks1 ++ [k], W.writes t k' a = true := by
  obtain ⟨x, y, rfl⟩ := List.append_of_mem hs
  have e : iterations (ks1 ++ k :: ks2) (x ++ s :: y) =
      (iterations ks1 (x ++ s :: y) ++ x.map fun s => (s, k)) ++ (s, k) :: ((y.map fun s => (s, k)) ++ iterations ks2 (x ++ s :: y)) := by
    simp [iterations]
  rw [e] at h
  rcases pf_split h a ha with h | ⟨e, he, hw⟩
  · exact Or.inl h
  · right
    rcases List.mem_append.1 he with he | he
    · obtain ⟨h1, h2⟩ := mem_iterations.1 he
      exact ⟨e.1, h1, e.2, by simp [h2], hw⟩
    · obtain ⟨t, ht, rfl⟩ := List.mem_map.1 he
      exact ⟨t, by simp [ht], k, by simp, hw⟩

/-! ## The new program -/

theorem rootOf_chain (src : Nat → Option Nat) : ∀ (n x : Nat), rootOf src n x ∈ chain src n x
  | 0, x => by simp [rootOf, chain]
  | n + 1, x => by
    unfold rootOf chain
    cases src x with
    | none => simp
    | some y =>
      simp only
      split
      · exact List.mem_cons_of_mem _ (rootOf_chain src n y)
      · simp

theorem conflict_of {E : Info} {x : Nat} {T : Loc → Val} {s t : Stmt} (hs : W.Right E x T s) (ht : W.Right E x T t) {k k' : Int} {a : Loc}
    (h1 : W.writes t k a = true) (h2 : W.reads s k' a = true) : conflict E t s = true := by
  obtain ⟨y, hy, e1⟩ := ht.produces k a h1
  obtain ⟨z, hz, e2⟩ := hs.consumes k' a h2
  unfold conflict
  rw [List.any_eq_true]
  refine ⟨W.buf a, List.mem_flatMap.2 ⟨y, hy, by rw [e1]; exact rootOf_chain _ _ _⟩, ?_⟩
  rw [List.contains_iff_mem]
  exact List.mem_flatMap.2 ⟨z, hz, by rw [e2]; exact rootOf_chain _ _ _⟩

/-- What is assumed of all statements of the loop. -/
structure Good (W : LWorld Loc Val) (E : Info) (x : Nat) (T : Loc → Val) (ks : List Int) (ss : List Stmt) : Prop where
  right : ∀ s ∈ ss, W.Right E x T s
  lifted : ∀ s ∈ ss, variant x s = true → variant x (removeVar E x s) = false →
    W.Right E x T (E.simp (removeVar E x s)) ∧ W.Whole ks s (E.simp (removeVar E x s))

theorem licm_inv {E : Info} {x : Nat} {T : Loc → Val} {ks : List Int} {k0 : Int} : ∀ {ss : List Stmt}, Good W E x T ks ss → W.Forward ks ss →
    Inv E x (W.Feeds ks) ss (licm E x ss)
  | [], _, _ => by
    refine ⟨?_, ?_, ?_, ?_, trivial, trivial⟩ <;> intro _ h <;> simp [licm] at h
  | i :: ss, hg, hf => by
    have ih := licm_inv (k0 := k0) (ss := ss) ⟨fun s hs => hg.right s (by simp [hs]), fun s hs => hg.lifted s (by simp [hs])⟩ hf.2
    refine step_inv ih hf.1 fun p hp hd => ?_
    obtain ⟨k, hk, k', hk', a, h1, h2⟩ := hd
    rcases ih.pair p hp with ⟨e, _⟩ | ⟨e1, e2, e3⟩
    · rw [e]
      exact conflict_of (hg.right p.2 (by simp [ih.lift p hp])) (hg.right i (by simp)) h1 h2
    · obtain ⟨g1, g2⟩ := hg.lifted p.2 (by simp [ih.lift p hp]) e1 e2
      rw [e3]
      exact conflict_of g1 (hg.right i (by simp)) h1 (((g2 k0).1 a).2 ⟨k', hk', h2⟩)

/-- The lifted statements. -/
theorem pf_lifted {P : Loc → Prop} {k0 : Int} {ks : List Int} {ss : List Stmt} :
    ∀ (L : List (Stmt × Stmt)) (Q : Stmt → Prop) (R : Loc → Prop), Ord (W.Feeds ks) (· ∈ ss) Q (L.map Prod.snd) →
      (∀ p ∈ L, ∀ a, W.reads p.1 k0 a = true → P a ∨ ∃ t ∈ ss, W.Feeds ks t p.2 ∧ ∃ k ∈ ks, W.writes t k a = true) →
      (∀ p ∈ L, ∀ k ∈ ks, ∀ a, W.writes p.2 k a = true → W.writes p.1 k0 a = true) →
      (∀ a, P a → R a) → (∀ t, Q t → ∀ k ∈ ks, ∀ a, W.writes t k a = true → R a) → W.ProduceFirst R (L.map fun p => (p.1, k0))
  | [], _, _, _, _, _, _, _ => trivial
  | p :: L, Q, R, ho, hr, hw, hP, hQ => by
    refine ⟨fun a ha => ?_, ?_⟩
    · rcases hr p (by simp) a ha with h | ⟨t, h1, h2, k, h3, h4⟩
      · exact hP a h
      · exact hQ t (ho.1 t h1 h2) k h3 a h4
    · refine pf_lifted L _ _ ho.2 (fun q hq => hr q (by simp [hq])) (fun q hq => hw q (by simp [hq])) (fun a ha => Or.inl (hP a ha)) ?_
      rintro t (ht | rfl) k hk a h
      · exact Or.inl (hQ t ht k hk a h)
      · exact Or.inr (hw p (by simp) k hk a h)

/-- The statements of the loop, in one iteration. -/
theorem pf_body {P : Loc → Prop} {ks ks1 : List Int} {k : Int} (hk : k ∈ ks) {ss Ball : List Stmt} {Lif : Stmt → Prop} :
    ∀ (B : List Stmt) (Q : Stmt → Prop) (R : Loc → Prop), Ord (W.Feeds ks) (· ∈ ss) (fun t => Lif t ∨ Q t) B → (∀ s ∈ B, s ∈ Ball) →
      (∀ s ∈ B, ∀ a, W.reads s k a = true → P a ∨ ∃ t ∈ ss, W.Feeds ks t s ∧ ∃ k' ∈ ks1 ++ [k], W.writes t k' a = true) →
      (∀ a, P a → R a) → (∀ t, Lif t → ∀ k' ∈ ks1 ++ [k], ∀ a, W.writes t k' a = true → R a) →
      (∀ t, Q t → t ∈ Ball) → (∀ t ∈ Ball, ∀ k' ∈ ks1, ∀ a, W.writes t k' a = true → R a) → (∀ t, Q t → ∀ a, W.writes t k a = true → R a) →
      W.ProduceFirst R (B.map fun s => (s, k))
  | [], _, _, _, _, _, _, _, _, _, _ => trivial
  | s :: B, Q, R, ho, hB, hr, hP, hL, hQ, hA, hQk => by
    refine ⟨fun a ha => ?_, ?_⟩
    · rcases hr s (by simp) a ha with h | ⟨t, h1, h2, k', h3, h4⟩
      · exact hP a h
      · rcases ho.1 t h1 h2 with h | h
        · exact hL t h k' h3 a h4
        · rcases List.mem_append.1 h3 with h3 | h3
          · exact hA t (hQ t h) k' h3 a h4
          · rw [List.mem_singleton.1 h3] at h4
            exact hQk t h a h4
    · refine pf_body hk B (fun t => Q t ∨ t = s) _ (ho.2.mono fun u hu => by
        rcases hu with (h | h) | h
        · exact Or.inl h
        · exact Or.inr (Or.inl h)
        · exact Or.inr (Or.inr h)) (fun t ht => hB t (by simp [ht])) (fun t ht => hr t (by simp [ht])) (fun a ha => Or.inl (hP a ha))
        (fun t ht k' hk' a h => Or.inl (hL t ht k' hk' a h)) ?_ (fun t ht k' hk' a h => Or.inl (hA t ht k' hk' a h)) ?_
      · rintro t (h | rfl)
        · exact hQ t h
        · exact hB t (by simp)
      · rintro t (h | rfl) a ha
        · exact Or.inl (hQk t h a ha)
        · exact Or.inr ha

/-- All iterations of the new loop. -/
theorem pf_iters {P : Loc → Prop} {ks : List Int} {ss B : List Stmt} {Lif : Stmt → Prop} (ho : Ord (W.Feeds ks) (· ∈ ss) Lif B)
    (hB : ∀ s ∈ B, s ∈ ss) (hv : W.ProduceFirst P (iterations ks ss)) :
    ∀ (ks2 ks1 : List Int) (R : Loc → Prop), ks = ks1 ++ ks2 → (∀ a, P a → R a) → (∀ t, Lif t → ∀ k ∈ ks, ∀ a, W.writes t k a = true → R a) →
      (∀ t ∈ B, ∀ k' ∈ ks1, ∀ a, W.writes t k' a = true → R a) → W.ProduceFirst R (iterations ks2 B)
  | [], _, _, _, _, _, _ => trivial
  | k :: ks2, ks1, R, e, hP, hL, hA => by
    have hkk : ∀ k' ∈ ks1 ++ [k], k' ∈ ks := fun k' h => by
      rw [e]
      rcases List.mem_append.1 h with h | h
      · simp [h]
      · simp [List.mem_singleton.1 h]
    have : iterations (k :: ks2) B = (B.map fun s => (s, k)) ++ iterations ks2 B := by simp [iterations]
    rw [this, pf_append]
    constructor
    · refine pf_body (P := P) (ks1 := ks1) (hkk k (by simp)) (Ball := B) B (fun _ => False) R (ho.mono fun u hu => Or.inl hu) (fun _ h => h) ?_ hP
        (fun t ht k' hk' => hL t ht k' (hkk k' hk')) (fun _ h => h.elim) hA (fun _ h => h.elim)
      intro s hs a ha
      rw [e] at hv
      rcases pf_loop hv (hB s hs) ha with h | ⟨t, ht, k', hk', hw⟩
      · exact Or.inl h
      · exact Or.inr ⟨t, ht, ⟨k', hkk k' hk', k, hkk k (by simp), a, hw, ha⟩, k', hk', hw⟩
    · refine pf_iters ho hB hv ks2 (ks1 ++ [k]) _ (by simp [e]) (fun a ha => Or.inl (hP a ha)) (fun t ht k hk a h => Or.inl (hL t ht k hk a h)) ?_
      intro t ht k' hk' a h
      rcases List.mem_append.1 hk' with hk' | hk'
      · exact Or.inl (hA t ht k' hk' a h)
      · rw [List.mem_singleton.1 hk'] at h
        exact Or.inr ⟨(t, k), List.mem_map.2 ⟨t, ht, rfl⟩, h⟩

/-- The executions of the program after moving statements out of the loop. -/
def hoisted (E : Info) (x : Nat) (ss : List Stmt) (k0 : Int) (ks : List Int) : List (Stmt × Int) :=
  ((licm E x ss).1.map fun p => (p.1, k0)) ++ iterations ks (licm E x ss).2

theorem hoisted_pf {E : Info} {x : Nat} {T : Loc → Val} {ks : List Int} (hne : ks ≠ []) {k0 : Int} {ss : List Stmt} (hg : Good W E x T ks ss)
    (hf : W.Forward ks ss) {P : Loc → Prop} (hv : W.ProduceFirst P (iterations ks ss)) :
    W.ProduceFirst P (hoisted E x ss k0 ks) ∧ ∀ a, W.Written (iterations ks ss) a → W.Written (hoisted E x ss k0 ks) a := by
  have hI := licm_inv (k0 := k0) hg hf
  unfold hoisted
  generalize licm E x ss = S at hI ⊢
  obtain ⟨L, B⟩ := S
  obtain ⟨h1, h2, h3, h4, h5, h6⟩ := hI
  simp only at h1 h2 h3 h4 h5 h6 ⊢
  have hw : ∀ p ∈ L, ∀ k ∈ ks, ∀ a, W.writes p.2 k a = true → W.writes p.1 k0 a = true := fun p hp k hk a h => by
    rcases h4 p hp with ⟨e, hi⟩ | ⟨e1, e2, e3⟩
    · rw [e, ← h]; exact ((hg.right p.2 (h3 p hp)).invariant hi k0 k a).2
    · rw [e3]; exact ((hg.lifted p.2 (h3 p hp) e1 e2).2 k0).2 k hk a h
  have hr : ∀ p ∈ L, ∀ a, W.reads p.1 k0 a = true → P a ∨ ∃ t ∈ ss, W.Feeds ks t p.2 ∧ ∃ k ∈ ks, W.writes t k a = true := fun p hp a h => by
    have : ∃ k ∈ ks, W.reads p.2 k a = true := by
      rcases h4 p hp with ⟨e, hi⟩ | ⟨e1, e2, e3⟩
      · obtain ⟨k, r, e'⟩ := List.exists_cons_of_ne_nil hne
        refine ⟨k, by simp [e'], ?_⟩
        rw [e] at h
        rw [← h]; exact ((hg.right p.2 (h3 p hp)).invariant hi k k0 a).1
      · rw [e3] at h
        exact (((hg.lifted p.2 (h3 p hp) e1 e2).2 k0).1 a).1 h
    obtain ⟨k, hk, hra⟩ := this
    obtain ⟨x1, x2, e⟩ := List.append_of_mem hk
    have hv' := hv
    rw [e] at hv'
    rcases pf_loop hv' (h3 p hp) hra with h | ⟨t, ht, k', hk', hwt⟩
    · exact Or.inl h
    · have hk'' : k' ∈ ks := by
        rw [e]
        rcases List.mem_append.1 hk' with h | h
        · simp [h]
        · simp [List.mem_singleton.1 h]
      exact Or.inr ⟨t, ht, ⟨k', hk'', k, hk, a, hwt, hra⟩, k', hk'', hwt⟩
  have hlw : ∀ t, t ∈ L.map Prod.snd → ∀ k ∈ ks, ∀ a, W.writes t k a = true → W.Written (L.map fun p => (p.1, k0)) a := fun t ht k hk a h => by
    obtain ⟨p, hp, rfl⟩ := List.mem_map.1 ht
    exact ⟨(p.1, k0), List.mem_map.2 ⟨p, hp, rfl⟩, hw p hp k hk a h⟩
  constructor
  · rw [pf_append]
    refine ⟨pf_lifted L _ P h5 hr hw (fun _ h => h) fun _ h => h.elim, ?_⟩
    exact pf_iters h6 h2 hv ks [] _ rfl (fun a h => Or.inl h) (fun t ht k hk a h => Or.inr (hlw t ht k hk a h)) (by simp)
  · intro a ha
    obtain ⟨s, hs, k, hk, h⟩ := written_iter.1 ha
    rcases h1 s hs with hb | hl
    · exact ⟨(s, k), List.mem_append_right _ (mem_iterations.2 ⟨hb, hk⟩), h⟩
    · obtain ⟨e, he, h'⟩ := hlw s hl k hk a h
      exact ⟨e, List.mem_append_left _ he, h'⟩

theorem hoisted_right {E : Info} {x : Nat} {T : Loc → Val} {ks : List Int} {k0 : Int} {ss : List Stmt} (hg : Good W E x T ks ss) (hf : W.Forward ks ss) :
    ∀ e ∈ hoisted E x ss k0 ks, W.Right E x T e.1 := by
  have hI := licm_inv (k0 := k0) hg hf
  intro e he
  rcases List.mem_append.1 he with he | he
  · obtain ⟨p, hp, rfl⟩ := List.mem_map.1 he
    rcases hI.pair p hp with ⟨e, _⟩ | ⟨e1, e2, e3⟩
    · simp only; rw [e]; exact hg.right _ (hI.lift p hp)
    · simp only; rw [e3]; exact (hg.lifted _ (hI.lift p hp) e1 e2).1
  · exact hg.right _ (hI.loop _ (mem_iterations.1 he).1)

end Slinky.LI
