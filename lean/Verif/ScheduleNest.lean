import Verif.ScheduleLocs

/-! # C48: the loop nest -/

namespace Slinky

namespace SPipe

/-! ### Specification -/

mutual
/-- The calls in a nest, in the order of the text, with the loops around them (`q` are the loops around the nest). -/
def Nest.calls (q : List (Nat × Nat)) : Nest → List (List (Nat × Nat) × Nat)
  | .call f => [(q, f)]
  | .loop l body => callsL (q ++ [l]) body
/-- The calls in a list of nests. -/
def callsL (q : List (Nat × Nat)) : List Nest → List (List (Nat × Nat) × Nat)
  | [] => []
  | m :: ms => m.calls q ++ callsL q ms
end

mutual
/-- What happens when a nest runs: the calls, each with the numbers of the iterations of the loops around it. A loop `l` that is started in
the iterations `it` of the loops around it has `n l it` iterations. -/
def Nest.exec (n : Nat × Nat → List Nat → Nat) (it : List Nat) : Nest → List (Nat × List Nat)
  | .call f => [(f, it)]
  | .loop l body => (List.range (n l it)).flatMap fun i => execL n (it ++ [i]) body
/-- What happens when nests run one after the other. -/
def execL (n : Nat × Nat → List Nat → Nat) (it : List Nat) : List Nest → List (Nat × List Nat)
  | [] => []
  | m :: ms => m.exec n it ++ execL n it ms
end

/-- `e` comes before `e'`: it must not be that `e` is a call of a consumer and `e'` is a call of its producer, in the same iteration of all loops in which
the producer is computed. -/
def InTime (G : SPipe) (L : Nat → List (Nat × Nat)) (e e' : Nat × List Nat) : Prop :=
  e'.1 ∈ G.prods e.1 → e.2.take (L e'.1).length ≠ e'.2.take (L e'.1).length

/-- The loop nest of a pipeline. -/
structure NestOK (G : SPipe) (order : List Nat) (L : Nat → List (Nat × Nat)) (b : List Nest) : Prop where
  /-- Every func is called at one place. -/
  once : ((callsL [] b).map Prod.snd).Perm order
  /-- This place is in the loops in which it is computed, and in its own loops. -/
  loops : ∀ c ∈ callsL [] b, c.1 = around G L c.2
  /-- When the nest runs, all calls of a producer that are made in an iteration of the loops in which it is computed come before the calls of its consumers in this iteration. -/
  inTime : ∀ n, (execL n [] b).Pairwise (InTime G L)

/-! ### Lists of nests -/

theorem callsL_append (q : List (Nat × Nat)) : ∀ a b : List Nest, callsL q (a ++ b) = callsL q a ++ callsL q b
  | [], b => by simp [callsL]
  | m :: a, b => by simp [callsL, callsL_append q a b]

theorem execL_append (n : Nat × Nat → List Nat → Nat) (it : List Nat) : ∀ a b : List Nest, execL n it (a ++ b) = execL n it a ++ execL n it b
  | [], b => by simp [execL]
  | m :: a, b => by simp [execL, execL_append n it a b]

theorem callsL_flatMap (q : List (Nat × Nat)) (g : Nat → List Nest) : ∀ l : List Nat, callsL q (l.flatMap g) = l.flatMap fun x => callsL q (g x)
  | [] => by simp [callsL]
  | x :: l => by simp [callsL_append, callsL_flatMap q g l]

theorem execL_flatMap (n : Nat × Nat → List Nat → Nat) (it : List Nat) (g : Nat → List Nest) : ∀ l : List Nat, execL n it (l.flatMap g) = l.flatMap fun x => execL n it (g x)
  | [] => by simp [execL]
  | x :: l => by simp [execL_append, execL_flatMap n it g l]

mutual
/-- What runs is a call of the text. -/
theorem exec_mem (n : Nat × Nat → List Nat → Nat) : ∀ (m : Nest) (it : List Nat) (q : List (Nat × Nat)) (e : Nat × List Nat), e ∈ m.exec n it →
    ∃ r, (q ++ r, e.1) ∈ m.calls q ∧ ∃ jt, e.2 = it ++ jt ∧ jt.length = r.length
  | .call f, it, q, e, he => by
    simp only [Nest.exec, List.mem_singleton] at he
    subst he
    exact ⟨[], by simp [Nest.calls], [], by simp, rfl⟩
  | .loop l body, it, q, e, he => by
    simp only [Nest.exec, List.mem_flatMap] at he
    obtain ⟨i, -, he⟩ := he
    obtain ⟨r, hr, jt, hj, hjl⟩ := execL_mem n body (it ++ [i]) (q ++ [l]) e he
    refine ⟨l :: r, ?_, i :: jt, by simp [hj], by simp [hjl]⟩
    simpa [Nest.calls] using hr
/-- What runs is a call of the text. -/
theorem execL_mem (n : Nat × Nat → List Nat → Nat) : ∀ (ms : List Nest) (it : List Nat) (q : List (Nat × Nat)) (e : Nat × List Nat), e ∈ execL n it ms →
    ∃ r, (q ++ r, e.1) ∈ callsL q ms ∧ ∃ jt, e.2 = it ++ jt ∧ jt.length = r.length
  | [], it, q, e, he => by simp [execL] at he
  | m :: ms, it, q, e, he => by
    simp only [execL, List.mem_append] at he
    rcases he with he | he
    · obtain ⟨r, hr, hj⟩ := exec_mem n m it q e he
      exact ⟨r, by simp [callsL, hr], hj⟩
    · obtain ⟨r, hr, hj⟩ := execL_mem n ms it q e he
      exact ⟨r, by simp [callsL, hr], hj⟩
end

/-! ### Loops and their paths -/

variable {G : SPipe} {order : List Nat} {L : Nat → List (Nat × Nat)}

/-- The loops of a func, the outermost first. -/
def own (G : SPipe) (f : Nat) : List (Nat × Nat) := (G.loops f).reverse.map fun v => (f, v)

theorem around_own (f : Nat) : around G L f = L f ++ own G f := rfl

theorem own_length (f : Nat) : (own G f).length = (G.loops f).length := by simp [own]

theorem own_fst {f : Nat} {x : Nat × Nat} (h : x ∈ own G f) : x.1 = f := by
  simp only [own, List.mem_map] at h
  obtain ⟨v, -, rfl⟩ := h
  rfl

/-- What the proofs need to know about the locations. -/
structure Lay (G : SPipe) (order : List Nat) (L : Nat → List (Nat × Nat)) : Prop where
  nodup : order.Nodup
  loops : ∀ f ∈ order, (G.loops f).Nodup
  prods : ∀ f ∈ order, ∀ p ∈ G.prods f, p ∈ order ∧ order.idxOf f < order.idxOf p
  encl : ∀ f ∈ order, ∀ g ∈ order, f ∈ G.prods g → L f <+: around G L g
  src : ∀ f ∈ order, L f = [] ∨ ∃ k ∈ order, order.idxOf k < order.idxOf f ∧ L f <+: around G L k

theorem idxOf_split {a b : List Nat} {f : Nat} (h : (a ++ f :: b).Nodup) : (a ++ f :: b).idxOf f = a.length := by
  have : f ∉ a := fun hc => (List.nodup_append.1 h).2.2 f hc f (List.mem_cons_self ..) rfl
  rw [List.idxOf_append_of_notMem this]
  simp

theorem idxOf_pre {a b : List Nat} {f : Nat} (h : f ∈ a) : (a ++ b).idxOf f < a.length := by
  rw [List.idxOf_append_of_mem h]
  exact List.idxOf_lt_length_of_mem h

theorem idxOf_post {a b : List Nat} {f g : Nat} (h : (a ++ f :: b).Nodup) (hg : g ∈ b) : a.length < (a ++ f :: b).idxOf g := by
  have h1 : g ∉ a := fun hc => (List.nodup_append.1 h).2.2 g hc g (List.mem_cons_of_mem _ hg) rfl
  have h2 : f ≠ g := fun hc => (List.nodup_cons.1 (List.nodup_append.1 h).2.1).1 (hc ▸ hg)
  rw [List.idxOf_append_of_notMem h1, List.idxOf_cons_ne _ h2]
  omega

theorem ScheduleOK.lay (ho : OrderOK G order) (hs : ScheduleOK G order L) (hl : ∀ f ∈ order, (G.loops f).Nodup) : Lay G order L := by
  refine ⟨ho.nodup, hl, ?_, hs.encl, ?_⟩
  · intro f hf p hp
    obtain ⟨a, b, hab⟩ := List.append_of_mem hf
    have hpb := ho.before a f b hab p hp
    have hnd := ho.nodup
    rw [hab] at hnd ⊢
    refine ⟨by simp [hpb], ?_⟩
    rw [idxOf_split hnd]
    exact idxOf_post hnd hpb
  · intro f hf
    obtain ⟨a, b, hab⟩ := List.append_of_mem hf
    rcases hs.src a f b hab with h | ⟨k, hk, hk'⟩
    · exact Or.inl h
    · have hnd := ho.nodup
      refine Or.inr ⟨k, by rw [hab]; simp [hk], ?_, hk'⟩
      rw [hab] at hnd ⊢
      rw [idxOf_split hnd]
      exact idxOf_pre hk

/-- A loop around a func is a loop of a func that is not after it, and what is around this loop is what is around that func. -/
theorem Lay.loop_of (h : Lay G order L) : ∀ (N f : Nat), order.idxOf f ≤ N → f ∈ order → ∀ P x, P ++ [x] <+: around G L f →
    x.1 ∈ order ∧ order.idxOf x.1 ≤ order.idxOf f ∧ ∃ j, P = L x.1 ++ (own G x.1).take j ∧ (own G x.1)[j]? = some x := by
  intro N
  induction N with
  | zero =>
    intro f hN hf P x hP
    have h0 : L f = [] := by
      rcases h.src f hf with h0 | ⟨k, -, hk, -⟩
      · exact h0
      · omega
    rw [around_own, h0, List.nil_append] at hP
    obtain ⟨r, hr⟩ := hP
    have hx : x.1 = f := own_fst (G := G) (by rw [← hr]; simp)
    rw [hx]
    refine ⟨hf, Nat.le_refl _, P.length, ?_, ?_⟩
    · rw [h0, ← hr]; simp
    · rw [← hr]; simp
  | succ N ih =>
    intro f hN hf P x hP
    have hcase : P ++ [x] <+: L f ∨ ∃ r, P = L f ++ r ∧ r ++ [x] <+: own G f := by
      rcases List.prefix_or_prefix_of_prefix hP (List.prefix_append (L f) (own G f)) with h1 | h1
      · exact Or.inl h1
      · rcases List.prefix_concat_iff.1 h1 with h2 | ⟨r, hr⟩
        · exact Or.inl (by rw [h2])
        · refine Or.inr ⟨r, hr.symm, ?_⟩
          rw [← hr, around_own, List.append_assoc] at hP
          exact (List.prefix_append_right_inj _).1 hP
    rcases hcase with h1 | ⟨r, rfl, hr⟩
    · rcases h.src f hf with h0 | ⟨k, hk, hk', hk''⟩
      · rw [h0] at h1
        have := h1.length_le
        simp at this
      · obtain ⟨a1, a2, a3⟩ := ih k (by omega) hk P x (h1.trans hk'')
        exact ⟨a1, by omega, a3⟩
    · obtain ⟨s, hs⟩ := hr
      have hx : x.1 = f := own_fst (G := G) (by rw [← hs]; simp)
      rw [hx]
      refine ⟨hf, Nat.le_refl _, r.length, ?_, ?_⟩
      · rw [← hs]; simp
      · rw [← hs]; simp

theorem Lay.loop (h : Lay G order L) {f : Nat} (hf : f ∈ order) {P : List (Nat × Nat)} {x : Nat × Nat} (hP : P ++ [x] <+: around G L f) :
    x.1 ∈ order ∧ order.idxOf x.1 ≤ order.idxOf f ∧ ∃ j, P = L x.1 ++ (own G x.1).take j ∧ (own G x.1)[j]? = some x :=
  h.loop_of _ f (Nat.le_refl _) hf P x hP

/-- Loops that are around a func. -/
def Valid (G : SPipe) (order : List Nat) (L : Nat → List (Nat × Nat)) (P : List (Nat × Nat)) : Prop := P = [] ∨ ∃ k ∈ order, P <+: around G L k

theorem own_nodup (h : Lay G order L) {f : Nat} (hf : f ∈ order) : (own G f).Nodup := by
  unfold own
  apply List.Nodup.map
  · intro a b hab
    simpa using hab
  · exact List.nodup_reverse.2 (h.loops f hf)

/-- The last loop says which loops are around it. -/
theorem Lay.level (h : Lay G order L) {P Q : List (Nat × Nat)} (hP : Valid G order L P) (hQ : Valid G order L Q) (he : lastId P = lastId Q) : P = Q := by
  rcases List.eq_nil_or_concat' P with rfl | ⟨P', x, rfl⟩
  · rcases List.eq_nil_or_concat' Q with rfl | ⟨Q', y, rfl⟩
    · rfl
    · simp [lastId] at he
  · rcases List.eq_nil_or_concat' Q with rfl | ⟨Q', y, rfl⟩
    · simp [lastId] at he
    · simp only [lastId, List.getLast?_append, List.getLast?_singleton, Option.some_or, Option.some.injEq] at he
      subst he
      rcases hP with hP | ⟨f, hf, hP⟩
      · simp at hP
      · rcases hQ with hQ | ⟨g, hg, hQ⟩
        · simp at hQ
        · obtain ⟨a1, -, j, a2, a3⟩ := h.loop hf hP
          obtain ⟨-, -, j', b2, b3⟩ := h.loop hg hQ
          have : j = j' := by
            have hj := (List.getElem?_eq_some_iff.1 a3)
            have hj' := (List.getElem?_eq_some_iff.1 b3)
            obtain ⟨l1, e1⟩ := hj
            obtain ⟨l2, e2⟩ := hj'
            exact (List.Nodup.getElem_inj_iff (own_nodup h a1)).1 (e1.trans e2.symm)
          subst this
          rw [a2, ← b2]

theorem Lay.level_L (h : Lay G order L) {g : Nat} (hg : g ∈ order) {P : List (Nat × Nat)} (hP : Valid G order L P) : lastId (L g) = lastId P ↔ L g = P :=
  ⟨fun he => h.level (Or.inr ⟨g, hg, List.prefix_append _ _⟩) hP he, fun he => by rw [he]⟩

theorem Lay.level_around (h : Lay G order L) {g : Nat} (hg : g ∈ order) {P : List (Nat × Nat)} (hP : Valid G order L P) :
    lastId (around G L g) = lastId P ↔ around G L g = P :=
  ⟨fun he => h.level (Or.inr ⟨g, hg, List.prefix_refl _⟩) hP he, fun he => by rw [he]⟩

theorem next_unique {P A : List (Nat × Nat)} {x y : Nat × Nat} (hx : P ++ [x] <+: A) (hy : P ++ [y] <+: A) : x = y := by
  have := List.prefix_of_prefix_length_le hx hy (by simp)
  have he := List.IsPrefix.eq_of_length this (by simp)
  simpa using he

/-! ### Items -/

/-- `f` is in the item that is made for `g` in the loops `P`. -/
def InItem (G : SPipe) (L : Nat → List (Nat × Nat)) (P : List (Nat × Nat)) (g f : Nat) : Prop :=
  (L g = P ∧ ∃ x, (own G g)[0]? = some x ∧ P ++ [x] <+: around G L f) ∨ (around G L g = P ∧ f = g)

theorem InItem.unique {P : List (Nat × Nat)} {g g' f : Nat} (h : InItem G L P g f) (h' : InItem G L P g' f) : g = g' := by
  rcases h with ⟨-, x, hx, hP⟩ | ⟨ha, rfl⟩
  · rcases h' with ⟨-, y, hy, hP'⟩ | ⟨ha', rfl⟩
    · have := next_unique hP hP'
      subst this
      rw [← own_fst (List.mem_of_getElem? hx), ← own_fst (List.mem_of_getElem? hy)]
    · rw [ha'] at hP
      have := hP.length_le
      simp at this
      omega
  · rcases h' with ⟨-, y, hy, hP'⟩ | ⟨ha', rfl⟩
    · rw [ha] at hP'
      have := hP'.length_le
      simp at this
      omega
    · rfl

theorem InItem.pre {P : List (Nat × Nat)} {g f : Nat} (h : InItem G L P g f) : P <+: around G L f := by
  rcases h with ⟨-, x, -, hP⟩ | ⟨ha, rfl⟩
  · exact (List.prefix_append _ _).trans hP
  · rw [ha]

theorem InItem.idx (hl : Lay G order L) {P : List (Nat × Nat)} {g f : Nat} (hf : f ∈ order) (h : InItem G L P g f) : order.idxOf g ≤ order.idxOf f := by
  rcases h with ⟨-, x, hx, hP⟩ | ⟨ha, rfl⟩
  · have := (hl.loop hf hP).2.1
    rwa [own_fst (List.mem_of_getElem? hx)] at this
  · exact Nat.le_refl _

/-- A producer is not in a loop with its consumer that is not around the place where the producer is computed. -/
theorem Lay.outer (h : Lay G order L) {f p : Nat} (hf : f ∈ order) (hp : p ∈ G.prods f) {P : List (Nat × Nat)} (hPf : P <+: around G L f) (hPp : P <+: around G L p) :
    P.length ≤ (L p).length := by
  obtain ⟨hpo, hlt⟩ := h.prods f hf p hp
  by_contra hc
  rcases List.eq_nil_or_concat' P with rfl | ⟨P', x, rfl⟩
  · simp at hc
  · have hLP : L p <+: P' := by
      apply List.prefix_of_prefix_length_le (List.prefix_append (L p) (own G p)) ((List.prefix_append P' [x]).trans hPp)
      simp at hc
      omega
    obtain ⟨r, rfl⟩ := hLP
    rw [around_own, List.append_assoc] at hPp
    have hr := (List.prefix_append_right_inj _).1 hPp
    have hx : x.1 = p := own_fst (G := G) (hr.subset (by simp))
    have := (h.loop hf hPf).2.1
    rw [hx] at this
    omega

/-- The place of a producer is before that of its consumer. -/
theorem Lay.item_order (h : Lay G order L) {f p g g' : Nat} (hf : f ∈ order) (hp : p ∈ G.prods f) {P : List (Nat × Nat)} (hg : InItem G L P g f)
    (hg' : InItem G L P g' p) (hPL : P.length ≤ (L p).length) : order.idxOf g ≤ order.idxOf g' := by
  obtain ⟨hpo, hlt⟩ := h.prods f hf p hp
  have hPL' : P <+: L p := List.prefix_of_prefix_length_le hg'.pre (List.prefix_append _ _) hPL
  have henc := h.encl p hpo f hf hp
  obtain ⟨r, hr⟩ := hPL'
  cases r with
  | nil =>
    rw [List.append_nil] at hr
    have : InItem G L P p p := by
      cases ho : (own G p)[0]? with
      | none =>
        have : own G p = [] := by simpa using ho
        exact Or.inr ⟨by rw [around_own, this, List.append_nil, hr], rfl⟩
      | some x =>
        refine Or.inl ⟨hr.symm, x, ho, ?_⟩
        obtain ⟨o, ho'⟩ : ∃ o, own G p = x :: o := by
          cases hoo : own G p with
          | nil => rw [hoo] at ho; cases ho
          | cons y o => rw [hoo] at ho; simp only [List.getElem?_cons_zero, Option.some.injEq] at ho; exact ⟨o, by rw [ho]⟩
        rw [around_own, ho', hr]
        exact ⟨o, by simp⟩
    rw [hg'.unique this]
    have := hg.idx h hf
    omega
  | cons x r =>
    have h1 : P ++ [x] <+: L p := ⟨r, by rw [← hr]; simp⟩
    have h2 : P ++ [x] <+: around G L p := h1.trans (List.prefix_append _ _)
    have h3 : P ++ [x] <+: around G L f := h1.trans henc
    have : InItem G L P g p := by
      rcases hg with ⟨ha, y, hy, hP⟩ | ⟨ha, rfl⟩
      · have := next_unique hP h3
        subst this
        exact Or.inl ⟨ha, y, hy, h2⟩
      · rw [ha] at h3
        have := h3.length_le
        simp at this
        omega
    rw [this.unique hg']

/-! ### The nest -/

/-- The calls `cs` are those of the funcs `S`. -/
structure CS (G : SPipe) (order : List Nat) (L : Nat → List (Nat × Nat)) (S : Nat → Prop) (cs : List (List (Nat × Nat) × Nat)) : Prop where
  sound : ∀ c ∈ cs, c.2 ∈ order ∧ c.1 = around G L c.2 ∧ S c.2
  complete : ∀ f ∈ order, S f → (around G L f, f) ∈ cs
  nodup : (cs.map Prod.snd).Nodup

/-- What is shown about the nests `ms` in the loops `P`. -/
structure NS (G : SPipe) (order : List Nat) (L : Nat → List (Nat × Nat)) (S : Nat → Prop) (P : List (Nat × Nat)) (ms : List Nest) : Prop where
  calls : CS G order L S (callsL P ms)
  inTime : ∀ n it, it.length = P.length → (execL n it ms).Pairwise (InTime G L)

theorem NS.mem {S : Nat → Prop} {P : List (Nat × Nat)} {ms : List Nest} (h : NS G order L S P ms) {n : Nat × Nat → List Nat → Nat} {it : List Nat}
    {e : Nat × List Nat} (he : e ∈ execL n it ms) : e.1 ∈ order ∧ S e.1 ∧ it <+: e.2 := by
  obtain ⟨r, hr, jt, hj, -⟩ := execL_mem n ms it P e he
  have := h.calls.sound _ hr
  exact ⟨this.1, this.2.2, ⟨jt, hj.symm⟩⟩

theorem NS.nil {P : List (Nat × Nat)} {S : Nat → Prop} (h : ∀ f ∈ order, ¬ S f) : NS G order L S P [] :=
  ⟨⟨by simp [callsL], fun f hf hs => absurd hs (h f hf), by simp [callsL]⟩, by simp [execL]⟩

theorem NS.congr {P : List (Nat × Nat)} {S S' : Nat → Prop} {ms : List Nest} (h : NS G order L S P ms) (hs : ∀ f ∈ order, S f ↔ S' f) : NS G order L S' P ms :=
  ⟨⟨fun c hc => by obtain ⟨a, b, d⟩ := h.calls.sound c hc; exact ⟨a, b, (hs _ a).1 d⟩, fun f hf hS => h.calls.complete f hf ((hs f hf).2 hS), h.calls.nodup⟩, h.inTime⟩

theorem order_reverse_pairwise (h : order.Nodup) : order.reverse.Pairwise fun a b => order.idxOf b < order.idxOf a := by
  rw [List.pairwise_reverse, List.pairwise_iff_getElem]
  intro i j hi hj hij
  rw [h.idxOf_getElem i hi, h.idxOf_getElem j hj]
  exact hij

/-- The items of a body. -/
theorem body_NS (h : Lay G order L) {P : List (Nat × Nat)} {it : Nat → List Nest} (hit : ∀ g ∈ order, NS G order L (InItem G L P g) P (it g)) {inner : List Nest}
    {x : Option (Nat × Nat)} (hin : NS G order L (fun f => ∃ y, x = some y ∧ P ++ [y] <+: around G L f) P inner)
    (hx : ∀ y, x = some y → ∃ z, P.getLast? = some z ∧ y.1 = z.1 ∧ L y.1 ≠ P)
    (hall : ∀ f ∈ order, P <+: around G L f → (∃ g ∈ order, InItem G L P g f) ∨ ∃ y, x = some y ∧ P ++ [y] <+: around G L f) :
    NS G order L (fun f => P <+: around G L f) P (order.reverse.flatMap it ++ inner) := by
  have hdis : ∀ f g y, InItem G L P g f → x = some y → P ++ [y] <+: around G L f → False := by
    intro f g y hg hy hP
    obtain ⟨z, hz, hyz, hne⟩ := hx y hy
    rcases hg with ⟨ha, w, hw, hP'⟩ | ⟨ha, rfl⟩
    · have := next_unique hP hP'
      subst this
      rw [own_fst (List.mem_of_getElem? hw)] at hne
      exact hne ha
    · rw [ha] at hP
      have := hP.length_le
      simp at this
      omega
  constructor
  · constructor
    · intro c hc
      rw [callsL_append, callsL_flatMap, List.mem_append, List.mem_flatMap] at hc
      rcases hc with ⟨g, hg, hc⟩ | hc
      · obtain ⟨a, b, d⟩ := (hit g (List.mem_reverse.1 hg)).calls.sound c hc
        exact ⟨a, b, d.pre⟩
      · obtain ⟨a, b, y, -, d⟩ := hin.calls.sound c hc
        exact ⟨a, b, (List.prefix_append _ _).trans d⟩
    · intro f hf hP
      rw [callsL_append, callsL_flatMap, List.mem_append, List.mem_flatMap]
      rcases hall f hf hP with ⟨g, hg, hi⟩ | hi
      · exact Or.inl ⟨g, List.mem_reverse.2 hg, (hit g hg).calls.complete f hf hi⟩
      · exact Or.inr (hin.calls.complete f hf hi)
    · rw [callsL_append, callsL_flatMap, List.map_append, List.map_flatMap, List.nodup_append]
      refine ⟨?_, hin.calls.nodup, ?_⟩
      · rw [List.nodup_flatMap]
        refine ⟨fun g hg => (hit g (List.mem_reverse.1 hg)).calls.nodup, ?_⟩
        refine (List.nodup_reverse.2 h.nodup).imp_of_mem ?_
        intro a b ha hb hab f hfa hfb
        simp only [List.mem_map] at hfa hfb
        obtain ⟨c, hc, rfl⟩ := hfa
        obtain ⟨d, hd, hdc⟩ := hfb
        have h1 := ((hit a (List.mem_reverse.1 ha)).calls.sound c hc).2.2
        have h2 := ((hit b (List.mem_reverse.1 hb)).calls.sound d hd).2.2
        rw [hdc] at h2
        exact hab (h1.unique h2)
      · intro f hf f' hf' hff
        subst hff
        simp only [List.mem_flatMap, List.mem_map] at hf hf'
        obtain ⟨g, hg, c, hc, rfl⟩ := hf
        obtain ⟨d, hd, hdc⟩ := hf'
        have h1 := ((hit g (List.mem_reverse.1 hg)).calls.sound c hc).2.2
        obtain ⟨y, hy, h2⟩ := (hin.calls.sound d hd).2.2
        rw [hdc] at h2
        exact hdis _ _ y h1 hy h2
  · intro n itv hl
    rw [execL_append, execL_flatMap, List.pairwise_append]
    refine ⟨?_, hin.inTime n itv hl, ?_⟩
    · rw [List.pairwise_flatMap]
      refine ⟨fun g hg => (hit g (List.mem_reverse.1 hg)).inTime n itv hl, ?_⟩
      refine (order_reverse_pairwise h.nodup).imp_of_mem ?_
      intro a b ha hb hab e he e' he' hp
      obtain ⟨f1, f2, -⟩ := (hit a (List.mem_reverse.1 ha)).mem he
      obtain ⟨p1, p2, -⟩ := (hit b (List.mem_reverse.1 hb)).mem he'
      have := h.item_order f1 hp f2 p2 (h.outer f1 hp f2.pre p2.pre)
      omega
    · intro e he e' he' hp
      rw [List.mem_flatMap] at he
      obtain ⟨g, hg, he⟩ := he
      obtain ⟨f1, f2, -⟩ := (hit g (List.mem_reverse.1 hg)).mem he
      obtain ⟨p1, ⟨y, hy, p2⟩, -⟩ := hin.mem he'
      exfalso
      have hPp : P <+: around G L e'.1 := (List.prefix_append _ _).trans p2
      have hPL := h.outer f1 hp f2.pre hPp
      obtain ⟨z, hz, hyz, hne⟩ := hx y hy
      have hPL' : P <+: L e'.1 := List.prefix_of_prefix_length_le hPp (List.prefix_append _ _) hPL
      obtain ⟨r, hr⟩ := hPL'
      cases r with
      | nil =>
        rw [List.append_nil] at hr
        -- the next loop would be a loop of the producer itself
        rw [around_own, ← hr] at p2
        have := (List.prefix_append_right_inj _).1 p2
        have hy1 : y.1 = e'.1 := own_fst (G := G) (this.subset (by simp))
        rw [hy1] at hne
        exact hne hr.symm
      | cons w r =>
        have h1 : P ++ [w] <+: L e'.1 := ⟨r, by rw [← hr]; simp⟩
        have := next_unique p2 (h1.trans (List.prefix_append _ _))
        subst this
        exact hdis _ _ y f2 hy (h1.trans (h.encl _ p1 _ f1 hp))

theorem mapM_some {α β : Type} {F : α → Option (List β)} : ∀ {l : List α} {r : List (List β)}, l.mapM F = some r →
    r = l.map (fun x => (F x).getD []) ∧ ∀ x ∈ l, F x = some ((F x).getD [])
  | [], r, h => by simp at h; simp [h]
  | x :: l, r, h => by
    simp only [List.mapM_cons, Option.bind_eq_bind, Option.pure_def, Option.bind_eq_some_iff, Option.some.injEq] at h
    obtain ⟨y, hy, ys, hys, rfl⟩ := h
    obtain ⟨h1, h2⟩ := mapM_some hys
    refine ⟨by simp [hy, h1], ?_⟩
    intro z hz
    rcases List.mem_cons.1 hz with rfl | hz
    · simp [hy]
    · exact h2 z hz

/-- The items of `buildAt`. -/
theorem buildAt_items {cAt rAt : Nat → LoopId} {mk : Nat → Nat → Option Nest} {a : LoopId} {b : List Nest} (h : buildAt G cAt rAt order mk a = some b) :
    ∃ it : Nat → List Nest, b = order.reverse.flatMap it ∧ ∀ g ∈ order,
      (if cAt g = a ∧ G.loops g ≠ [] then (mk g ((G.loops g).length - 1)).map fun s => [s] else if rAt g = a then some [Nest.call g] else some []) = some (it g) := by
  unfold buildAt at h
  simp only [Option.map_eq_some_iff] at h
  obtain ⟨r, hr, rfl⟩ := h
  obtain ⟨h1, h2⟩ := mapM_some hr
  refine ⟨_, by rw [h1, List.flatMap_def], fun g hg => h2 g (List.mem_reverse.2 hg)⟩

theorem own_get {g i v : Nat} (h : (G.loops g)[i]? = some v) : (own G g)[(G.loops g).length - 1 - i]? = some (g, v) := by
  have hi : i < (G.loops g).length := (List.getElem?_eq_some_iff.1 h).1
  rw [own, List.getElem?_map, List.getElem?_reverse (by omega)]
  have : (G.loops g).length - 1 - ((G.loops g).length - 1 - i) = i := by omega
  rw [this, h]
  rfl

/-- The body of the loops `P`. -/
theorem buildAt_NS (h : Lay G order L) {cAt rAt : Nat → LoopId} (hc : ∀ f ∈ order, cAt f = lastId (L f)) (hr : ∀ f ∈ order, rAt f = lastId (around G L f))
    {mk : Nat → Nat → Option Nest} (hmk : ∀ k ∈ order, ∀ i v m, mk k i = some m → (G.loops k)[i]? = some v →
      NS G order L (fun f => L k ++ (own G k).take ((G.loops k).length - 1 - i) ++ [(k, v)] <+: around G L f) (L k ++ (own G k).take ((G.loops k).length - 1 - i)) [m])
    {P : List (Nat × Nat)} (hP : Valid G order L P) {b : List Nest} (hb : buildAt G cAt rAt order mk (lastId P) = some b) :
    ∃ it : Nat → List Nest, b = order.reverse.flatMap it ∧ ∀ g ∈ order, NS G order L (InItem G L P g) P (it g) := by
  obtain ⟨it, rfl, hit⟩ := buildAt_items hb
  refine ⟨it, rfl, fun g hg => ?_⟩
  have hi := hit g hg
  simp only [hc g hg, hr g hg, h.level_L hg hP, h.level_around hg hP] at hi
  split at hi
  · next hcond =>
    simp only [Option.map_eq_some_iff] at hi
    obtain ⟨m, hm, hm'⟩ := hi
    have hlen : 0 < (G.loops g).length := List.length_pos_of_ne_nil hcond.2
    have hv := List.getElem?_eq_getElem (l := G.loops g) (i := (G.loops g).length - 1) (by omega)
    have := hmk g hg _ _ m hm hv
    have h0 : (G.loops g).length - 1 - ((G.loops g).length - 1) = 0 := by omega
    have ho := own_get hv
    rw [h0] at this ho
    rw [List.take_zero, List.append_nil, hcond.1] at this
    rw [← hm']
    refine this.congr fun f hf => ?_
    constructor
    · intro hPf
      exact Or.inl ⟨hcond.1, _, ho, hPf⟩
    · rintro (⟨-, x, hx, hPf⟩ | ⟨ha, -⟩)
      · rw [ho] at hx
        cases hx
        exact hPf
      · rw [around_own, hcond.1] at ha
        have : own G g = [] := by simpa using ha
        rw [this] at ho
        cases ho
  · next hcond =>
    have hnl : L g = P → G.loops g = [] := fun he => by
      by_contra hne
      exact hcond ⟨he, hne⟩
    split at hi
    · next ha =>
      simp only [Option.some.injEq] at hi
      rw [← hi]
      refine ⟨⟨?_, ?_, by simp [callsL, Nest.calls]⟩, by simp [execL, Nest.exec]⟩
      · intro c hcm
        simp only [callsL, Nest.calls, List.append_nil, List.mem_singleton] at hcm
        subst hcm
        exact ⟨hg, ha.symm, Or.inr ⟨ha, rfl⟩⟩
      · rintro f hf (⟨he, x, hx, -⟩ | ⟨-, rfl⟩)
        · rw [own, hnl he] at hx
          cases hx
        · simp [callsL, Nest.calls, ha]
    · next ha =>
      simp only [Option.some.injEq] at hi
      rw [← hi]
      apply NS.nil
      rintro f - (⟨he, x, hx, -⟩ | ⟨h1, -⟩)
      · rw [own, hnl he] at hx
        cases hx
      · exact ha h1

/-- A func in the loops `P` is in an item, or in the next loop of the same func. -/
theorem Lay.next (h : Lay G order L) {P : List (Nat × Nat)} {f : Nat} (hf : f ∈ order) (hP : P <+: around G L f) : (∃ g ∈ order, InItem G L P g f) ∨
    ∃ x j, P ++ [x] <+: around G L f ∧ x.1 ∈ order ∧ P = L x.1 ++ (own G x.1).take (j + 1) ∧ (own G x.1)[j + 1]? = some x := by
  obtain ⟨r, hr⟩ := hP
  cases r with
  | nil => exact Or.inl ⟨f, hf, Or.inr ⟨by rw [← hr]; simp, rfl⟩⟩
  | cons x r =>
    have hx : P ++ [x] <+: around G L f := ⟨r, by rw [← hr]; simp⟩
    obtain ⟨a1, -, j, a2, a3⟩ := h.loop hf hx
    cases j with
    | zero =>
      rw [List.take_zero, List.append_nil] at a2
      exact Or.inl ⟨x.1, a1, Or.inl ⟨a2.symm, x, a3, hx⟩⟩
    | succ j => exact Or.inr ⟨x, j, hx, a1, a2, a3⟩

/-- A loop. -/
theorem loop_NS (h : Lay G order L) {P : List (Nat × Nat)} {x : Nat × Nat} {body : List Nest}
    (hb : NS G order L (fun f => P ++ [x] <+: around G L f) (P ++ [x]) body) : NS G order L (fun f => P ++ [x] <+: around G L f) P [.loop x body] := by
  refine ⟨?_, ?_⟩
  · simpa [callsL, Nest.calls] using hb.calls
  · intro n it hl
    simp only [execL, Nest.exec, List.append_nil, List.pairwise_flatMap]
    refine ⟨fun i _ => hb.inTime n _ (by simp [hl]), ?_⟩
    refine List.pairwise_lt_range.imp ?_
    intro i j hij e he e' he' hp heq
    obtain ⟨f1, f2, f3⟩ := hb.mem he
    obtain ⟨p1, p2, p3⟩ := hb.mem he'
    have hlen := h.outer f1 hp f2 p2
    obtain ⟨r, hr⟩ := f3
    obtain ⟨r', hr'⟩ := p3
    have hi := congrArg (fun l => l[it.length]?) heq
    simp only [List.length_append, List.length_cons, List.length_nil] at hlen
    simp only [List.getElem?_take, if_pos (show it.length < (L e'.1).length by omega), ← hr, ← hr', List.append_assoc, List.getElem?_append_right (Nat.le_refl _)] at hi
    simp at hi
    omega

theorem makeLoop_NS (h : Lay G order L) {cAt rAt : Nat → LoopId} (hc : ∀ f ∈ order, cAt f = lastId (L f)) (hr : ∀ f ∈ order, rAt f = lastId (around G L f)) :
    ∀ (n : Nat), ∀ k ∈ order, ∀ i v m, makeLoop G cAt rAt order n k i = some m → (G.loops k)[i]? = some v →
      NS G order L (fun f => L k ++ (own G k).take ((G.loops k).length - 1 - i) ++ [(k, v)] <+: around G L f) (L k ++ (own G k).take ((G.loops k).length - 1 - i)) [m]
  | 0, k, hk, i, v, m, hm, _ => by simp [makeLoop] at hm
  | n + 1, k, hk, i, v, m, hm, hv => by
    have hi : i < (G.loops k).length := (List.getElem?_eq_some_iff.1 hv).1
    have ho := own_get hv
    simp only [makeLoop, hv, Option.bind_eq_bind, Option.bind_some, Option.bind_eq_some_iff] at hm
    obtain ⟨b, hb, hm⟩ := hm
    generalize hP0 : L k ++ (own G k).take ((G.loops k).length - 1 - i) = P0
    have hP : P0 ++ [(k, v)] = L k ++ (own G k).take ((G.loops k).length - 1 - i + 1) := by
      rw [List.take_add_one, ho, ← hP0]
      simp
    have hval : Valid G order L (P0 ++ [(k, v)]) := Or.inr ⟨k, hk, by rw [hP, around_own]; exact (List.prefix_append_right_inj _).2 (List.take_prefix _ _)⟩
    have hlast : lastId (P0 ++ [(k, v)]) = some (k, v) := by simp [lastId]
    obtain ⟨it, rfl, hit⟩ := buildAt_NS h hc hr (makeLoop_NS h hc hr n) hval (by rw [hlast]; exact hb)
    have hlenP : (P0 ++ [(k, v)]).length = (L k).length + ((G.loops k).length - 1 - i + 1) := by
      rw [hP, List.length_append, List.length_take, own_length]; omega
    have hLne : L k ≠ P0 ++ [(k, v)] := fun hc => by
      have := congrArg List.length hc
      omega
    have hnext : ∀ f ∈ order, P0 ++ [(k, v)] <+: around G L f → (∃ g ∈ order, InItem G L (P0 ++ [(k, v)]) g f) ∨
        ∃ y, (own G k)[(G.loops k).length - 1 - i + 1]? = some y ∧ P0 ++ [(k, v)] ++ [y] <+: around G L f := by
      intro f hf hPf
      rcases h.next hf hPf with h1 | ⟨x, j, hx, hxo, hxP, hxj⟩
      · exact Or.inl h1
      · refine Or.inr ⟨x, ?_, hx⟩
        -- the last loop of `P` is a loop of `x.1` and of `k`
        have hjl : j + 1 < (own G x.1).length := (List.getElem?_eq_some_iff.1 hxj).1
        have hkx : x.1 = k := by
          have := congrArg List.getLast? hxP
          rw [List.take_add_one, List.getElem?_eq_getElem (by omega)] at this
          simp only [List.getLast?_append, List.getLast?_singleton, Option.some_or, Option.toList_some, Option.some.injEq] at this
          have hm := List.getElem_mem (l := own G x.1) (n := j) (by omega)
          rw [← this] at hm
          exact (own_fst hm).symm
        have hlen := congrArg List.length hxP
        rw [hlenP, hkx, List.length_append, List.length_take] at hlen
        rw [hkx] at hjl hxj
        have : j = (G.loops k).length - 1 - i := by omega
        rw [← this]
        exact hxj
    apply NS.congr (S := fun f => P0 ++ [(k, v)] <+: around G L f) _ fun f _ => Iff.rfl
    split at hm
    · next hi0 =>
      simp only [Option.some.injEq] at hm
      subst hm
      apply loop_NS h
      have := body_NS h hit (inner := []) (x := none) (NS.nil (by simp)) (by simp) (fun f hf hPf => by
        rcases hnext f hf hPf with h1 | ⟨y, hy, -⟩
        · exact Or.inl h1
        · rw [List.getElem?_eq_none (by rw [own_length]; omega)] at hy
          cases hy)
      simpa using this
    · next hi0 =>
      simp only [Option.bind_eq_some_iff, Option.some.injEq] at hm
      obtain ⟨inner, hin, rfl⟩ := hm
      apply loop_NS h
      have hv' := List.getElem?_eq_getElem (l := G.loops k) (i := i - 1) (by omega)
      have hinner := makeLoop_NS h hc hr n k hk (i - 1) _ inner hin hv'
      have ho' := own_get hv'
      have he : (G.loops k).length - 1 - (i - 1) = (G.loops k).length - 1 - i + 1 := by omega
      rw [he] at hinner ho'
      rw [← hP] at hinner
      refine body_NS h hit (x := some (k, (G.loops k)[i - 1])) (hinner.congr fun f _ => ?_) ?_ ?_
      · simp
      · intro y hy
        cases hy
        exact ⟨(k, v), by simp, rfl, hLne⟩
      · intro f hf hPf
        rw [ho'] at hnext
        exact hnext f hf hPf

/-- C48. The loop nest is the one that the locations ask for. -/
theorem buildNest_spec (ho : OrderOK G order) (hs : ScheduleOK G order L) (hl : ∀ f ∈ order, (G.loops f).Nodup) {cAt rAt : Nat → LoopId}
    (hc : ∀ f ∈ order, cAt f = lastId (L f)) (hr : ∀ f ∈ order, rAt f = lastId (around G L f)) {n : Nat} {b : List Nest} (hb : buildNest G cAt rAt order n = some b) :
    NestOK G order L b := by
  have h := hs.lay ho hl
  obtain ⟨it, rfl, hit⟩ := buildAt_NS h hc hr (makeLoop_NS h hc hr n) (P := []) (Or.inl rfl) hb
  have := body_NS h hit (inner := []) (x := none) (NS.nil (by simp)) (by simp) (fun f hf hPf => by
    rcases h.next hf hPf with h1 | ⟨x, j, -, hxo, hxP, hxj⟩
    · exact Or.inl h1
    · have hjl : j + 1 < (own G x.1).length := (List.getElem?_eq_some_iff.1 hxj).1
      have := congrArg List.length hxP
      simp only [List.length_nil, List.length_append, List.length_take] at this
      omega)
  rw [List.append_nil] at this
  refine ⟨?_, fun c hc => (this.calls.sound c hc).2.1, fun n => this.inTime n [] rfl⟩
  rw [List.perm_ext_iff_of_nodup this.calls.nodup ho.nodup]
  intro f
  constructor
  · intro hf
    obtain ⟨c, hc, rfl⟩ := List.mem_map.1 hf
    exact (this.calls.sound c hc).1
  · intro hf
    exact List.mem_map.2 ⟨_, this.calls.complete f hf (List.nil_prefix), rfl⟩

theorem mapM_isSome {α β : Type} {F : α → Option β} : ∀ {l : List α}, (∀ x ∈ l, ∃ y, F x = some y) → ∃ r, l.mapM F = some r
  | [], _ => ⟨[], rfl⟩
  | x :: l, h => by
    obtain ⟨y, hy⟩ := h x (List.mem_cons_self ..)
    obtain ⟨r, hr⟩ := mapM_isSome (l := l) fun z hz => h z (List.mem_cons_of_mem _ hz)
    exact ⟨y :: r, by simp [hy, hr]⟩

theorem buildAt_total {cAt rAt : Nat → LoopId} {mk : Nat → Nat → Option Nest} {a : LoopId}
    (h : ∀ g ∈ order, cAt g = a → G.loops g ≠ [] → ∃ m, mk g ((G.loops g).length - 1) = some m) : ∃ b, buildAt G cAt rAt order mk a = some b := by
  unfold buildAt
  obtain ⟨r, hr⟩ := mapM_isSome (l := order.reverse) (F := fun f =>
    if cAt f = a ∧ G.loops f ≠ [] then (mk f ((G.loops f).length - 1)).map fun s => [s] else if rAt f = a then some [Nest.call f] else some []) (by
    intro g hg
    split
    · next hcond =>
      obtain ⟨m, hm⟩ := h g (List.mem_reverse.1 hg) hcond.1 hcond.2
      exact ⟨[m], by simp [hm]⟩
    · split <;> exact ⟨_, rfl⟩)
  exact ⟨r.flatten, by rw [hr]; rfl⟩

theorem makeLoop_total (h : Lay G order L) {cAt rAt : Nat → LoopId} (hc : ∀ f ∈ order, cAt f = lastId (L f)) {D : Nat} (hD : ∀ f ∈ order, (around G L f).length ≤ D) :
    ∀ (n : Nat), ∀ k ∈ order, ∀ i, i < (G.loops k).length → D < (L k).length + ((G.loops k).length - 1 - i) + n → ∃ m, makeLoop G cAt rAt order n k i = some m
  | 0, k, hk, i, hi, hn => by
    have := hD k hk
    rw [around_own, List.length_append, own_length] at this
    omega
  | n + 1, k, hk, i, hi, hn => by
    have hv := List.getElem?_eq_getElem hi
    have ho := own_get hv
    generalize hP0 : L k ++ (own G k).take ((G.loops k).length - 1 - i) = P0
    have hP : P0 ++ [(k, (G.loops k)[i])] = L k ++ (own G k).take ((G.loops k).length - 1 - i + 1) := by
      rw [List.take_add_one, ho, ← hP0]
      simp
    have hval : Valid G order L (P0 ++ [(k, (G.loops k)[i])]) :=
      Or.inr ⟨k, hk, by rw [hP, around_own]; exact (List.prefix_append_right_inj _).2 (List.take_prefix _ _)⟩
    have hlast : lastId (P0 ++ [(k, (G.loops k)[i])]) = some (k, (G.loops k)[i]) := by simp [lastId]
    have hlenP : (P0 ++ [(k, (G.loops k)[i])]).length = (L k).length + ((G.loops k).length - 1 - i + 1) := by
      rw [hP, List.length_append, List.length_take, own_length]; omega
    obtain ⟨b, hb⟩ := buildAt_total (G := G) (order := order) (cAt := cAt) (rAt := rAt) (mk := makeLoop G cAt rAt order n) (a := some (k, (G.loops k)[i])) (by
      intro g hg hcg hne
      rw [hc g hg, ← hlast, h.level_L hg hval] at hcg
      have hlen : 0 < (G.loops g).length := List.length_pos_of_ne_nil hne
      refine makeLoop_total h hc hD n g hg _ (by omega) ?_
      rw [hcg, hlenP]
      omega)
    simp only [makeLoop, hv, Option.bind_eq_bind, Option.bind_some, hb]
    split
    · exact ⟨_, rfl⟩
    · obtain ⟨m, hm⟩ := makeLoop_total h hc hD (rAt := rAt) n k hk (i - 1) (by omega) (by omega)
      rw [hm]
      exact ⟨_, rfl⟩

/-- C48. There is a loop nest. -/
theorem buildNest_total (ho : OrderOK G order) (hs : ScheduleOK G order L) (hl : ∀ f ∈ order, (G.loops f).Nodup) {cAt rAt : Nat → LoopId}
    (hc : ∀ f ∈ order, cAt f = lastId (L f)) {n : Nat} (hn : ∀ f ∈ order, (around G L f).length < n) : ∃ b, buildNest G cAt rAt order n = some b := by
  have h := hs.lay ho hl
  apply buildAt_total
  intro g hg hcg hne
  have hlen : 0 < (G.loops g).length := List.length_pos_of_ne_nil hne
  have := hn g hg
  exact makeLoop_total h hc (D := n - 1) (fun f hf => by have := hn f hf; omega) n g hg _ (by omega) (by omega)

theorem le_sum_of_mem (F : Nat → Nat) (f : Nat) : ∀ {l : List Nat}, f ∈ l → F f ≤ (l.map F).sum
  | x :: l, h => by
    rw [List.map_cons, List.sum_cons]
    rcases List.mem_cons.1 h with rfl | h
    · omega
    · have := le_sum_of_mem F f h
      omega

/-- C48. The schedule of a pipeline: if the builder does not stop with a failed assertion, every func that is needed is in the order once and after its consumers; there are
loops `L f` for every func, as the user asked for or the innermost that are around all consumers; every func is called at one place of the nest, in these loops; and
when the nest runs, a func is computed before its consumers need it. -/
theorem schedule_spec {n : Nat} {s : Locs} {b : List Nest} (h : schedule G n = some (order, s, b)) (hl : ∀ f, Needed G f → (G.loops f).Nodup) :
    OrderOK G order ∧ ∃ L, ScheduleOK G order L ∧ (∀ f ∈ order, s.cAt f = lastId (L f)) ∧ (∀ f ∈ order, s.rAt f = lastId (around G L f)) ∧ NestOK G order L b := by
  unfold schedule at h
  simp only [Option.bind_eq_bind, Option.bind_eq_some_iff, Option.some.injEq] at h
  obtain ⟨⟨order', deps⟩, h1, s', h2, b', h3, h4⟩ := h
  simp only [Prod.mk.injEq] at h4
  obtain ⟨rfl, rfl, rfl⟩ := h4
  obtain ⟨ho, hd⟩ := topoSort_spec h1
  have hl' : ∀ f ∈ order', (G.loops f).Nodup := fun f hf => hl f ((ho.mem f).1 hf)
  obtain ⟨L, hs, hc, hr⟩ := computeLocs_spec ho hd hl' h2
  exact ⟨ho, L, hs, hc, hr, buildNest_spec ho hs hl' hc hr h3⟩

/-- C48. A pipeline without cycles and without explicit locations has a schedule. -/
theorem schedule_total (ha : Acyclic G) (hl : ∀ f, Needed G f → (G.loops f).Nodup) (hc : ∀ f, Needed G f → G.computeAt f = none) : ∃ N, ∀ n, N ≤ n → ∃ r, schedule G n = some r := by
  obtain ⟨N, ⟨order, deps⟩, hN⟩ := topoSort_total ha
  obtain ⟨ho, hd⟩ := topoSort_spec (hN N (Nat.le_refl _))
  have hl' : ∀ f ∈ order, (G.loops f).Nodup := fun f hf => hl f ((ho.mem f).1 hf)
  obtain ⟨s, hs⟩ := computeLocs_total ho hd hl' fun f hf => hc f ((ho.mem f).1 hf)
  obtain ⟨L, hL, hc', -⟩ := computeLocs_spec ho hd hl' hs
  refine ⟨N + (order.map fun f => (around G L f).length + 1).sum, fun n hn => ?_⟩
  obtain ⟨b, hb⟩ := buildNest_total (rAt := s.rAt) ho hL hl' hc' (n := n) (by
    intro f hf
    have : (around G L f).length + 1 ≤ (order.map fun f => (around G L f).length + 1).sum := le_sum_of_mem (fun f => (around G L f).length + 1) f hf
    omega)
  refine ⟨(order, s, b), ?_⟩
  unfold schedule
  rw [hN n (by omega)]
  simp [hs, hb]

end SPipe

end Slinky
