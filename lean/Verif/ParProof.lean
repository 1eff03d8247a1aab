import Verif.ParDag

/-!
# `parallelize_tasks` keeps what statements do

`visit_main`: a run of the new statement is a run of the original one, in which only independent actions are in another order.
-/

namespace Slinky

namespace TWorld

variable {V : Type} {W : TWorld V}

theorem Indep.symm {a b : TAct V} (h : W.Indep a b) : W.Indep b a := by
  intro k
  obtain ⟨h1, h2⟩ := h k
  exact ⟨fun ⟨h3, h4⟩ => h4.elim (fun h4 => h2 ⟨h4, h3⟩) (fun h4 => h1 ⟨h4, Or.inr h3⟩), fun ⟨h3, h4⟩ => h1 ⟨h4, Or.inl h3⟩⟩

namespace Same

theorem left (u : List (TAct V)) {a b : List (TAct V)} (h : W.Same a b) : W.Same (u ++ a) (u ++ b) := by
  induction h with
  | refl t => exact .refl _
  | swap v a b w hi => rw [← List.append_assoc, ← List.append_assoc]; exact .swap _ _ _ _ hi
  | trans _ _ h1 h2 => exact .trans h1 h2

theorem right {a b : List (TAct V)} (h : W.Same a b) (u : List (TAct V)) : W.Same (a ++ u) (b ++ u) := by
  induction h with
  | refl t => exact .refl _
  | swap v a b w hi => rw [List.append_assoc, List.append_assoc]; exact .swap _ _ _ _ hi
  | trans _ _ h1 h2 => exact .trans h1 h2

theorem append {a b c e : List (TAct V)} (h : W.Same a b) (h' : W.Same c e) : W.Same (a ++ c) (b ++ e) := (h.right c).trans (h'.left b)

theorem symm {a b : List (TAct V)} (h : W.Same a b) : W.Same b a := by
  induction h with
  | refl t => exact .refl _
  | swap v a b w hi => exact .swap _ _ _ _ hi.symm
  | trans _ _ h1 h2 => exact .trans h2 h1

theorem perm {a b : List (TAct V)} (h : W.Same a b) : a.Perm b := by
  induction h with
  | refl t => exact .refl _
  | swap v a b w hi => exact (List.Perm.swap b a w).append_left v
  | trans _ _ h1 h2 => exact .trans h1 h2

theorem move1 (a : TAct V) (B : List (TAct V)) (h : ∀ b ∈ B, W.Indep a b) : W.Same (a :: B) (B ++ [a]) := by
  induction B with
  | nil => exact .refl _
  | cons b B ih =>
    refine (Same.swap [] a b B (h b (by simp))).trans ?_
    exact (ih fun c hc => h c (by simp [hc])).left [b]

theorem move (A B : List (TAct V)) (h : ∀ a ∈ A, ∀ b ∈ B, W.Indep a b) : W.Same (A ++ B) (B ++ A) := by
  induction A with
  | nil => simpa using Same.refl (W := W) B
  | cons a A ih =>
    have h1 : W.Same (a :: (A ++ B)) (a :: (B ++ A)) := (ih fun c hc => h c (by simp [hc])).left [a]
    have h2 : W.Same ((a :: B) ++ A) ((B ++ [a]) ++ A) := (move1 a B fun b hb => h a (by simp) b hb).right A
    refine h1.trans ?_
    simpa using h2

theorem merge {A B C : List (TAct V)} (hm : TProc.Merge A B C) (h : ∀ a ∈ A, ∀ b ∈ B, W.Indep a b) : W.Same C (A ++ B) := by
  induction hm with
  | nil => exact .refl _
  | left e _ ih => exact (ih fun a ha => h a (by simp [ha])).left [e]
  | right e hm ih =>
    rename_i a b c
    have h1 : W.Same (e :: c) (e :: (a ++ b)) := (ih fun x hx y hy => h x hx y (by simp [hy])).left [e]
    have h2 := (move1 e a fun x hx => (h x hx e (by simp)).symm).right b
    refine h1.trans ?_
    simpa using h2

end Same

end TWorld

namespace TProc

variable {V : Type} {W : TWorld V}

theorem Merge.map {α β : Type} (f : α → β) {A B C : List α} (h : Merge A B C) : Merge (A.map f) (B.map f) (C.map f) := by
  induction h with
  | nil => exact .nil
  | left e _ ih => exact .left _ ih
  | right e _ ih => exact .right _ ih

theorem Merge.mem {α : Type} {A B C : List α} (h : Merge A B C) (x : α) : x ∈ C ↔ x ∈ A ∨ x ∈ B := by
  induction h with
  | nil => simp
  | left e _ ih => simp [ih, or_assoc]
  | right e _ ih => simp [ih]; tauto

theorem Merge.pairwise {α : Type} {R : α → α → Prop} {A B C : List α} (h : Merge A B C) (hA : A.Pairwise R) (hB : B.Pairwise R)
    (hAB : ∀ a ∈ A, ∀ b ∈ B, R a b ∧ R b a) : C.Pairwise R := by
  induction h with
  | nil => exact .nil
  | left e hm ih =>
    rw [List.pairwise_cons] at hA ⊢
    refine ⟨fun x hx => ?_, ih hA.2 hB fun a ha => hAB a (by simp [ha])⟩
    rcases (hm.mem x).mp hx with h | h
    · exact hA.1 x h
    · exact (hAB e (by simp) x h).1
  | right e hm ih =>
    rw [List.pairwise_cons] at hB ⊢
    refine ⟨fun x hx => ?_, ih hA hB.2 fun a ha b hb => hAB a ha b (by simp [hb])⟩
    rcases (hm.mem x).mp hx with h | h
    · exact (hAB x h e (by simp)).2
    · exact hB.1 x h

/-- An execution of a process without races is a legal execution of its actions in order. -/
theorem Run.legal {p : TProc V} {t : List (TAct V × Bool)} {ok : Bool} (h : Run p t ok) (hr : p.RaceFree W) : W.Legal p.serial t ok := by
  induction h with
  | stop p => exact ⟨⟨p.serial, by simpa using TWorld.Same.refl _, by simp⟩, by simp, .nil⟩
  | skip => exact ⟨⟨[], by simpa [serial] using TWorld.Same.refl _, by simp⟩, by simp, .nil⟩
  | act a ok => exact ⟨⟨[], by simpa [serial] using TWorld.Same.refl _, by simp⟩, by simp, by simp⟩
  | fail _ ih =>
    rename_i p q t _
    obtain ⟨⟨rest, h1, h2⟩, h3, h4⟩ := ih hr.1
    refine ⟨⟨rest ++ q.serial, ?_, by simp⟩, by simp, h4⟩
    rw [← List.append_assoc]
    exact h1.right q.serial
  | seq _ _ ih1 ih2 =>
    rename_i p q t u ok _ _
    obtain ⟨⟨rest, h1, h2⟩, h3, h4⟩ := ih1 hr.1
    obtain ⟨⟨rest', g1, g2⟩, g3, g4⟩ := ih2 hr.2
    have h5 := h2 rfl
    subst h5
    refine ⟨⟨rest', ?_, g2⟩, ?_, ?_⟩
    · rw [List.map_append, List.append_assoc]
      rw [List.append_nil] at h1
      exact h1.append g1
    · intro hok x hx
      rw [List.mem_append] at hx
      exact hx.elim (h3 rfl x) (g3 hok x)
    · rw [List.pairwise_append]
      refine ⟨h4, g4, fun x hx y hy hf => ?_⟩
      rw [h3 rfl x hx] at hf
      simp at hf
  | par _ _ hm ih1 ih2 =>
    rename_i p q t u w a b _ _
    obtain ⟨⟨rest, h1, h2⟩, h3, h4⟩ := ih1 hr.1
    obtain ⟨⟨rest', g1, g2⟩, g3, g4⟩ := ih2 hr.2.1
    have ht : ∀ x ∈ t.map Prod.fst ++ rest, x ∈ p.serial := fun x hx => h1.perm.subset hx
    have hu : ∀ x ∈ u.map Prod.fst ++ rest', x ∈ q.serial := fun x hx => g1.perm.subset hx
    have hind : ∀ x ∈ t.map Prod.fst ++ rest, ∀ y ∈ u.map Prod.fst ++ rest', W.Indep x y := fun x hx y hy => hr.2.2 x (ht x hx) y (hu y hy)
    refine ⟨⟨rest ++ rest', ?_, ?_⟩, ?_, ?_⟩
    · have m1 : W.Same (w.map Prod.fst) (t.map Prod.fst ++ u.map Prod.fst) :=
        TWorld.Same.merge (hm.map Prod.fst) fun x hx y hy => hind x (by simp only [List.mem_append]; exact Or.inl hx) y (by simp only [List.mem_append]; exact Or.inl hy)
      have m2 : W.Same (u.map Prod.fst ++ rest) (rest ++ u.map Prod.fst) :=
        TWorld.Same.move _ _ fun x hx y hy => (hind y (by simp [hy]) x (by simp only [List.mem_append]; exact Or.inl hx)).symm
      have m3 : W.Same (t.map Prod.fst ++ (u.map Prod.fst ++ rest) ++ rest') (t.map Prod.fst ++ (rest ++ u.map Prod.fst) ++ rest') :=
        (m2.left _).right _
      have m4 := h1.append g1
      have m5 := m1.right (rest ++ rest')
      simp only [List.append_assoc] at m3 m4 m5
      exact m5.trans (m3.trans m4)
    · intro hok
      simp only [Bool.and_eq_true] at hok
      simp [h2 hok.1, g2 hok.2]
    · intro hok x hx
      simp only [Bool.and_eq_true] at hok
      rcases (hm.mem x).mp hx with hx | hx
      · exact h3 hok.1 x hx
      · exact g3 hok.2 x hx
    · refine hm.pairwise h4 g4 fun x hx y hy => ?_
      have := hind x.1 (by simp only [List.mem_append]; exact Or.inl (List.mem_map_of_mem hx)) y.1 (by simp only [List.mem_append]; exact Or.inl (List.mem_map_of_mem hy))
      exact ⟨fun _ => this, fun _ => this.symm⟩

/-- The same as far as the theorems are concerned. -/
def PE (W : TWorld V) (p q : TProc V) : Prop := p.serial = q.serial ∧ (p.RaceFree W ↔ q.RaceFree W)

theorem PE.refl (p : TProc V) : PE W p p := ⟨rfl, Iff.rfl⟩
theorem PE.symm {p q : TProc V} (h : PE W p q) : PE W q p := ⟨h.1.symm, h.2.symm⟩
theorem PE.trans {p q r : TProc V} (h : PE W p q) (h' : PE W q r) : PE W p r := ⟨h.1.trans h'.1, h.2.trans h'.2⟩
theorem PE.seq {p q p' q' : TProc V} (h : PE W p p') (h' : PE W q q') : PE W (.seq p q) (.seq p' q') :=
  ⟨by simp [serial, h.1, h'.1], and_congr h.2 h'.2⟩
theorem PE.par {p q p' q' : TProc V} (h : PE W p p') (h' : PE W q q') : PE W (.par p q) (.par p' q') :=
  ⟨by simp [serial, h.1, h'.1], by simp only [RaceFree, h.1, h'.1, h.2, h'.2]⟩

theorem seqs_serial (ps : List (TProc V)) : (TWorld.seqs ps).serial = ps.flatMap serial := by
  induction ps with
  | nil => rfl
  | cons p ps ih => simp [TWorld.seqs, serial, ih]

theorem seqs_raceFree (ps : List (TProc V)) : (TWorld.seqs ps).RaceFree W ↔ ∀ p ∈ ps, p.RaceFree W := by
  induction ps with
  | nil => simp [TWorld.seqs, RaceFree]
  | cons p ps ih => simp [TWorld.seqs, RaceFree, ih]

theorem PE.seqs_append (ps qs : List (TProc V)) : PE W (TWorld.seqs (ps ++ qs)) (.seq (TWorld.seqs ps) (TWorld.seqs qs)) := by
  refine ⟨by simp [serial, seqs_serial], ?_⟩
  simp only [RaceFree, seqs_raceFree, List.mem_append]
  exact ⟨fun h => ⟨fun p hp => h p (Or.inl hp), fun p hp => h p (Or.inr hp)⟩, fun h p hp => hp.elim (h.1 p) (h.2 p)⟩

end TProc

namespace PT

variable {V : Type} {W : TWorld V}

open TProc (PE)

/-! ## Blocks -/

theorem unrL_iff : ∀ (ss : Stmts) (ρ : Nat → V) (p : TProc V),
    W.UnrL ss ρ p ↔ ∃ ps, List.Forall₂ (fun s q => W.Unr s ρ q) ss.toList ps ∧ p = TWorld.seqs ps
  | .nil, ρ, p => by
    simp only [TWorld.UnrL, Stmts.toList]
    constructor
    · rintro rfl; exact ⟨[], .nil, rfl⟩
    · rintro ⟨ps, h, rfl⟩; cases h; rfl
  | .cons s ss, ρ, p => by
    simp only [TWorld.UnrL, Stmts.toList]
    constructor
    · rintro ⟨a, b, h1, h2, rfl⟩
      obtain ⟨ps, h3, rfl⟩ := (unrL_iff ss ρ b).mp h2
      exact ⟨a :: ps, .cons h1 h3, rfl⟩
    · rintro ⟨ps, h, rfl⟩
      cases h with
      | cons h1 h2 => exact ⟨_, _, h1, (unrL_iff ss ρ _).mpr ⟨_, h2, rfl⟩, rfl⟩

theorem forall₂_split {α β : Type} {R : α → β → Prop} (a b : List α) (l : List β) (h : List.Forall₂ R (a ++ b) l) :
    ∃ u v, l = u ++ v ∧ List.Forall₂ R a u ∧ List.Forall₂ R b v := by
  induction a generalizing l with
  | nil => exact ⟨[], l, rfl, .nil, h⟩
  | cons x a ih =>
    cases h with
    | cons h1 h2 =>
      obtain ⟨u, v, rfl, h3, h4⟩ := ih _ h2
      exact ⟨_ :: u, v, rfl, .cons h1 h3, h4⟩

theorem flattenBlocks_cons' (s : Stmt) (l : List Stmt) : (∃ ss, s = .block ss ∧ flattenBlocks (s :: l) = ss.toList ++ flattenBlocks l) ∨
    flattenBlocks (s :: l) = s :: flattenBlocks l := by
  cases s <;> simp [flattenBlocks]

theorem flatten_unr (l : List Stmt) (ρ : Nat → V) (qs : List (TProc V)) (h : List.Forall₂ (fun s q => W.Unr s ρ q) (flattenBlocks l) qs) :
    ∃ ps, List.Forall₂ (fun s q => W.Unr s ρ q) l ps ∧ PE W (TWorld.seqs qs) (TWorld.seqs ps) := by
  induction l generalizing qs with
  | nil => cases h; exact ⟨[], .nil, .refl _⟩
  | cons s l ih =>
    rcases flattenBlocks_cons' s l with ⟨ss, rfl, hf⟩ | hf
    · rw [hf] at h
      obtain ⟨h1, h2⟩ : ∃ a b, qs = a ++ b ∧ List.Forall₂ (fun s q => W.Unr s ρ q) ss.toList a ∧ List.Forall₂ (fun s q => W.Unr s ρ q) (flattenBlocks l) b := forall₂_split _ _ _ h
      obtain ⟨b, rfl, h3, h4⟩ := h2
      obtain ⟨ps, h5, h6⟩ := ih b h4
      refine ⟨TWorld.seqs h1 :: ps, .cons ?_ h5, ?_⟩
      · simp only [TWorld.Unr]
        exact (unrL_iff ss ρ _).mpr ⟨h1, h3, rfl⟩
      · exact (PE.seqs_append h1 b).trans (PE.seq (.refl _) h6)
    · rw [hf] at h
      cases h with
      | cons h1 h2 =>
        obtain ⟨ps, h5, h6⟩ := ih _ h2
        exact ⟨_ :: ps, .cons h1 h5, PE.seq (.refl _) h6⟩

theorem erase_unr (l : List Stmt) (ρ : Nat → V) (qs : List (TProc V)) (h : List.Forall₂ (fun s q => W.Unr s ρ q) (eraseUndefs l) qs) :
    ∃ ps, List.Forall₂ (fun s q => W.Unr s ρ q) l ps ∧ PE W (TWorld.seqs qs) (TWorld.seqs ps) := by
  induction l generalizing qs with
  | nil => cases h; exact ⟨[], .nil, .refl _⟩
  | cons s l ih =>
    by_cases hs : s.defined
    · have : eraseUndefs (s :: l) = s :: eraseUndefs l := by simp [eraseUndefs, hs]
      rw [this] at h
      cases h with
      | cons h1 h2 =>
        obtain ⟨ps, h5, h6⟩ := ih _ h2
        exact ⟨_ :: ps, .cons h1 h5, PE.seq (.refl _) h6⟩
    · have : eraseUndefs (s :: l) = eraseUndefs l := by simp [eraseUndefs, hs]
      rw [this] at h
      obtain ⟨ps, h5, h6⟩ := ih _ h
      have hu : s = .undef := by
        cases s <;> simp [Stmt.defined] at hs ⊢
      subst hu
      refine ⟨.skip :: ps, .cons (by simp [TWorld.Unr]) h5, h6.trans ⟨by simp [TWorld.seqs, TProc.serial], by simp [TWorld.seqs, TProc.RaceFree]⟩⟩

theorem blockMake_unr (l : List Stmt) (ρ : Nat → V) (p : TProc V) (h : W.Unr (blockMake l) ρ p) :
    ∃ ps, List.Forall₂ (fun s q => W.Unr s ρ q) l ps ∧ PE W p (TWorld.seqs ps) := by
  have : ∃ qs, List.Forall₂ (fun s q => W.Unr s ρ q) (eraseUndefs (flattenBlocks l)) qs ∧ PE W p (TWorld.seqs qs) := by
    unfold blockMake at h
    split at h
    · rename_i he
      rw [he]
      simp only [TWorld.Unr] at h
      exact ⟨[], .nil, h ▸ .refl _⟩
    · rename_i s he
      rw [he]
      exact ⟨[p], .cons h .nil, ⟨by simp [TWorld.seqs, TProc.serial], by simp [TWorld.seqs, TProc.RaceFree]⟩⟩
    · simp only [TWorld.Unr] at h
      obtain ⟨ps, h1, rfl⟩ := (unrL_iff _ _ _).mp h
      rw [Stmts.toList_ofList] at h1
      exact ⟨ps, h1, .refl _⟩
  obtain ⟨qs, h1, h2⟩ := this
  obtain ⟨ps, h3, h4⟩ := erase_unr _ _ _ h1
  obtain ⟨rs, h5, h6⟩ := flatten_unr _ _ _ h3
  exact ⟨rs, h5, h2.trans (h4.trans h6)⟩

theorem blockMake2_unr (s t : Stmt) (ρ : Nat → V) (p : TProc V) (h : W.Unr (blockMake2 s t) ρ p) :
    ∃ a b, W.Unr s ρ a ∧ W.Unr t ρ b ∧ PE W p (.seq a b) := by
  have hu : ∀ s : Stmt, s.defined = false → s = .undef := by intro s hs; cases s <;> simp [Stmt.defined] at hs ⊢
  unfold blockMake2 at h
  split at h
  · rename_i hs
    rw [hu s (by simpa using hs)]
    exact ⟨.skip, p, by simp [TWorld.Unr], h, by simp [TProc.serial], by simp [TProc.RaceFree]⟩
  · split at h
    · rename_i hs
      rw [hu t (by simpa using hs)]
      exact ⟨p, .skip, h, by simp [TWorld.Unr], by simp [TProc.serial], by simp [TProc.RaceFree]⟩
    · obtain ⟨ps, h1, h2⟩ := blockMake_unr _ _ _ h
      cases h1 with
      | cons h3 h4 => cases h4 with
        | cons h5 h6 =>
          cases h6
          exact ⟨_, _, h3, h5, h2.trans ⟨by simp [TWorld.seqs, TProc.serial], by simp [TWorld.seqs, TProc.RaceFree]⟩⟩

/-! ## Trees of processes -/

/-- A tree of processes. -/
def Tree.inst (f : Nat → TProc V) : Tree → TProc V
  | .nil => .skip
  | .leaf i => f i
  | .seq a b => .seq (a.inst f) (b.inst f)
  | .par a b => .par (a.inst f) (b.inst f)

theorem inst_congr (f g : Nat → TProc V) (t : Tree) (h : ∀ i ∈ t.lin, f i = g i) : t.inst f = t.inst g := by
  induction t with
  | nil => rfl
  | leaf i => exact h i (by simp [Tree.lin])
  | seq a b ha hb =>
    simp only [Tree.lin, List.mem_append] at h
    simp only [Tree.inst, ha fun i hi => h i (Or.inl hi), hb fun i hi => h i (Or.inr hi)]
  | par a b ha hb =>
    simp only [Tree.lin, List.mem_append] at h
    simp only [Tree.inst, ha fun i hi => h i (Or.inl hi), hb fun i hi => h i (Or.inr hi)]

theorem inst_serial (f : Nat → TProc V) (t : Tree) : (t.inst f).serial = t.lin.flatMap fun i => (f i).serial := by
  induction t with
  | nil => rfl
  | leaf i => simp [Tree.inst, Tree.lin]
  | seq a b ha hb => simp [Tree.inst, Tree.lin, TProc.serial, ha, hb]
  | par a b ha hb => simp [Tree.inst, Tree.lin, TProc.serial, ha, hb]

theorem inst_raceFree {D : Nat → Nat → Prop} (f : Nat → TProc V) (t : Tree) (hn : t.lin.Nodup) (ht : t.Free D) (hr : ∀ i ∈ t.lin, (f i).RaceFree W)
    (h : ∀ i ∈ t.lin, ∀ j ∈ t.lin, i ≠ j → ¬ D i j → ∀ a ∈ (f i).serial, ∀ b ∈ (f j).serial, W.Indep a b) : (t.inst f).RaceFree W := by
  induction t with
  | nil => trivial
  | leaf i => exact hr i (by simp [Tree.lin])
  | seq a b ha hb =>
    simp only [Tree.lin, List.mem_append] at hr h
    have hn' := List.nodup_append.mp hn
    exact ⟨ha hn'.1 ht.1 (fun i hi => hr i (Or.inl hi)) fun i hi j hj => h i (Or.inl hi) j (Or.inl hj),
      hb hn'.2.1 ht.2 (fun i hi => hr i (Or.inr hi)) fun i hi j hj => h i (Or.inr hi) j (Or.inr hj)⟩
  | par a b ha hb =>
    simp only [Tree.lin, List.mem_append] at hr h
    have hn' := List.nodup_append.mp hn
    refine ⟨ha hn'.1 ht.1 (fun i hi => hr i (Or.inl hi)) fun i hi j hj => h i (Or.inl hi) j (Or.inl hj),
      hb hn'.2.1 ht.2.1 (fun i hi => hr i (Or.inr hi)) fun i hi j hj => h i (Or.inr hi) j (Or.inr hj), ?_⟩
    intro x hx y hy
    rw [inst_serial, List.mem_flatMap] at hx hy
    obtain ⟨i, hi, hx⟩ := hx
    obtain ⟨j, hj, hy⟩ := hy
    exact h i (Or.inl hi) j (Or.inr hj) (fun e => hn'.2.2 i hi j hj e) (ht.2.2 i hi j hj) x hx y hy

/-- The statement does what the tree of statements does. -/
def Den (W : TWorld V) (body : Nat → Stmt) (ρ : Nat → V) (s : Stmt) (t : Tree) : Prop :=
  ∀ p, W.Unr s ρ p → ∃ f : Nat → TProc V, (∀ i ∈ t.lin, W.Unr (body i) ρ (f i)) ∧ PE W p (t.inst f)

theorem den_join {body : Nat → Stmt} {ρ : Nat → V} {a b : Tree} (hn : (a.lin ++ b.lin).Nodup) (f g : Nat → TProc V)
    (hf : ∀ i ∈ a.lin, W.Unr (body i) ρ (f i)) (hg : ∀ i ∈ b.lin, W.Unr (body i) ρ (g i)) :
    ∃ h : Nat → TProc V, (∀ i ∈ a.lin ++ b.lin, W.Unr (body i) ρ (h i)) ∧ a.inst h = a.inst f ∧ b.inst h = b.inst g := by
  classical
  have hn' := List.nodup_append.mp hn
  refine ⟨fun i => if i ∈ a.lin then f i else g i, ?_, inst_congr _ _ _ fun i hi => by simp [hi], inst_congr _ _ _ fun i hi => ?_⟩
  · intro i hi
    by_cases h : i ∈ a.lin
    · simpa [h] using hf i h
    · have h2 : i ∈ b.lin := (List.mem_append.mp hi).resolve_left h
      simpa [h] using hg i h2
  · have h : i ∉ a.lin := fun h => hn'.2.2 i h i hi rfl
    simp [h]

theorem den_list {body : Nat → Stmt} {ρ : Nat → V} (ss : List Stmt) (ts : List Tree) (h : List.Forall₂ (Den W body ρ) ss ts)
    (hn : (seqT ts).lin.Nodup) (ps : List (TProc V)) (hp : List.Forall₂ (fun s q => W.Unr s ρ q) ss ps) :
    ∃ f : Nat → TProc V, (∀ i ∈ (seqT ts).lin, W.Unr (body i) ρ (f i)) ∧ PE W (TWorld.seqs ps) ((seqT ts).inst f) := by
  induction h generalizing ps with
  | nil => cases hp; exact ⟨fun _ => .skip, by simp [seqT, Tree.lin], .refl _⟩
  | cons h1 _ ih =>
    cases hp with
    | cons h3 h4 =>
      have hn' := List.nodup_append.mp hn
      obtain ⟨g, g1, g2⟩ := ih hn'.2.1 _ h4
      obtain ⟨f, f1, f2⟩ := h1 _ h3
      obtain ⟨k, k1, k2, k3⟩ := den_join hn f g f1 g1
      refine ⟨k, k1, ?_⟩
      simp only [seqT, Tree.inst, TWorld.seqs, k2, k3]
      exact PE.seq f2 g2

theorem den_builds (body : Nat → Stmt) (ρ : Nat → V) : Builds (Den W body ρ) where
  nil p hp := by
    simp only [TWorld.Unr] at hp
    subst hp
    exact ⟨fun _ => .skip, by simp [Tree.lin], .refl _⟩
  blk ss ts h hn p hp := by
    obtain ⟨ps, h1, h2⟩ := blockMake_unr _ _ _ hp
    obtain ⟨f, f1, f2⟩ := den_list ss ts h hn ps h1
    exact ⟨f, f1, h2.trans f2⟩
  two s t a b ha hb hn p hp := by
    obtain ⟨q, r, h1, h2, h3⟩ := blockMake2_unr _ _ _ _ hp
    obtain ⟨f, f1, f2⟩ := ha _ h1
    obtain ⟨g, g1, g2⟩ := hb _ h2
    obtain ⟨k, k1, k2, k3⟩ := den_join hn f g f1 g1
    refine ⟨k, k1, h3.trans ?_⟩
    simp only [Tree.inst, k2, k3]
    exact PE.seq f2 g2
  par s t a b ha hb hn p hp := by
    simp only [TWorld.Unr] at hp
    obtain ⟨q, r, h1, h2, rfl⟩ := hp
    obtain ⟨f, f1, f2⟩ := ha _ h1
    obtain ⟨g, g1, g2⟩ := hb _ h2
    obtain ⟨k, k1, k2, k3⟩ := den_join hn f g f1 g1
    refine ⟨k, k1, ?_⟩
    simp only [Tree.inst, k2, k3]
    exact PE.par f2 g2

end PT
end Slinky
