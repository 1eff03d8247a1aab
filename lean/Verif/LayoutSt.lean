import Verif.LayoutLay2

/-! # C49: the state of the builder -/

namespace Slinky

namespace APipe

open SPipe (around lastId callsL)

variable {A : APipe} {order T : List Nat} {L : Nat → List (Nat × Nat)} {S : Nat → List (Nat × Nat)} {cAt : Nat → LoopId}

/-- What is known about a pipeline, its locations `L`, the loops `S` in which the buffers are stored, and the calls `T` in the order of the text. -/
structure Ctx (A : APipe) (order T : List Nat) (L S : Nat → List (Nat × Nat)) (cAt : Nat → LoopId) : Prop where
  wf : WF A order
  lay : SPipe.Lay A.toS order L
  perm : T.Perm order
  first : T.Pairwise fun f p => p ∉ A.toS.prods f
  level : ∀ f ∈ order, ∀ b ∈ A.outputs f, A.isOut b = false → lastId (S b) = levelOf A cAt f b ∧ S b <+: L f

theorem Ctx.nodup (h : Ctx A order T L S cAt) : T.Nodup := h.perm.nodup_iff.2 h.lay.nodup

theorem Ctx.mem (h : Ctx A order T L S cAt) {i f : Nat} (hi : T[i]? = some f) : f ∈ order := h.perm.mem_iff.1 (List.mem_of_getElem? hi)

theorem Ctx.idx (h : Ctx A order T L S cAt) {i j f : Nat} (hi : T[i]? = some f) (hj : T[j]? = some f) : i = j := by
  obtain ⟨h1, e1⟩ := List.getElem?_eq_some_iff.1 hi
  obtain ⟨h2, e2⟩ := List.getElem?_eq_some_iff.1 hj
  exact (List.Nodup.getElem_inj_iff h.nodup).1 (e1.trans e2.symm)

theorem Ctx.producer (h : Ctx A order T L S cAt) {f g b : Nat} (hf : f ∈ order) (hg : g ∈ order) (h1 : b ∈ A.outputs f) (h2 : b ∈ A.outputs g) : f = g := by
  have e1 := h.wf.prod f hf b h1
  rw [h.wf.prod g hg b h2] at e1
  exact (Option.some.inj e1).symm

/-- A consumer is after the producer. -/
theorem Ctx.after (h : Ctx A order T L S cAt) {i j f g b : Nat} (hi : T[i]? = some f) (hj : T[j]? = some g) (hb : b ∈ A.outputs f) (hu : b ∈ A.inputs g) : i < j := by
  have hp : f ∈ A.toS.prods g := by
    simp only [toS, List.mem_filterMap]
    exact ⟨b, hu, h.wf.prod f (h.mem hi) b hb⟩
  rcases Nat.lt_trichotomy i j with hlt | heq | hgt
  · exact hlt
  · subst heq
    rw [hi] at hj
    cases hj
    have := (h.lay.prods f (h.mem hi) f hp).2
    omega
  · obtain ⟨h1, e1⟩ := List.getElem?_eq_some_iff.1 hi
    obtain ⟨h2, e2⟩ := List.getElem?_eq_some_iff.1 hj
    have := List.pairwise_iff_getElem.1 h.first j i h2 h1 hgt
    rw [e1, e2] at this
    exact absurd hp this

/-- The buffer is produced by the calls from `a` to before `e`. -/
def New (A : APipe) (T : List Nat) (a e b : Nat) : Prop := ∃ f ∈ slice T a e, b ∈ A.outputs f ∧ A.isOut b = false
/-- The constant is used by the calls from `a` to before `e`. -/
def UsedC (A : APipe) (T : List Nat) (a e c : Nat) : Prop := ∃ f ∈ slice T a e, c ∈ A.inputs f ∧ A.const c = true

theorem New.disj (h : Ctx A order T L S cAt) {a m m' e b : Nat} (h1 : New A T a m b) (h2 : New A T m' e b) (hm : m ≤ m') : False := by
  obtain ⟨f, hf, hb, -⟩ := h1
  obtain ⟨g, hg, hb', -⟩ := h2
  obtain ⟨i, -, hi, hif⟩ := mem_slice.1 hf
  obtain ⟨j, hj, -, hjg⟩ := mem_slice.1 hg
  have := h.producer (h.mem hif) (h.mem hjg) hb hb'
  subst this
  have := h.idx hif hjg
  omega

theorem New.sub {a i j e b : Nat} (h : New A T i j b) (h1 : a ≤ i) (h2 : j ≤ e) : New A T a e b := by
  obtain ⟨f, hf, hb⟩ := h
  exact ⟨f, slice_sub hf h1 h2, hb⟩

theorem New.split {a m e b : Nat} (h : New A T a e b) : New A T a m b ∨ New A T m e b := by
  obtain ⟨f, hf, hb⟩ := h
  obtain ⟨i, h1, h2, h3⟩ := mem_slice.1 hf
  rcases Nat.lt_or_ge i m with hi | hi
  · exact Or.inl ⟨f, mem_slice.2 ⟨i, h1, hi, h3⟩, hb⟩
  · exact Or.inr ⟨f, mem_slice.2 ⟨i, hi, h2, h3⟩, hb⟩

theorem UsedC.sub {a i j e b : Nat} (h : UsedC A T i j b) (h1 : a ≤ i) (h2 : j ≤ e) : UsedC A T a e b := by
  obtain ⟨f, hf, hb⟩ := h
  exact ⟨f, slice_sub hf h1 h2, hb⟩

theorem UsedC.split {a m e b : Nat} (h : UsedC A T a e b) : UsedC A T a m b ∨ UsedC A T m e b := by
  obtain ⟨f, hf, hb⟩ := h
  obtain ⟨i, h1, h2, h3⟩ := mem_slice.1 hf
  rcases Nat.lt_or_ge i m with hi | hi
  · exact Or.inl ⟨f, mem_slice.2 ⟨i, h1, hi, h3⟩, hb⟩
  · exact Or.inr ⟨f, mem_slice.2 ⟨i, hi, h2, h3⟩, hb⟩

/-- The state after the first `e` calls. -/
structure St (A : APipe) (order T : List Nat) (S : Nat → List (Nat × Nat)) (s : LSt) (e : Nat) : Prop where
  produced : s.produced = e
  consumed : ∀ (i f b : Nat), T[i]? = some f → b ∈ A.outputs f → A.isOut b = false → (s.info b).consumed = ((T.take e).map fun g => (A.inputs g).count b).sum
  lstart : ∀ (i f b : Nat), i < e → T[i]? = some f → b ∈ A.outputs f → A.isOut b = false → (s.info b).lstart = i
  lend : ∀ (i f b : Nat), i < e → T[i]? = some f → b ∈ A.outputs f → A.isOut b = false → (s.info b).consumed = depsCount A order b →
    ∃ j : Nat, (s.info b).lend = j ∧ i ≤ j ∧ j < e ∧ ∀ (k g : Nat), k < e → T[k]? = some g → b ∈ A.inputs g → k ≤ j
  cands : ∀ (l : LoopId) (b : Nat), b ∈ s.cands l → New A T 0 e b ∧ lastId (S b) = l
  nodupC : ∀ (l : LoopId), (s.cands l).Nodup
  isConst : ∀ c ∈ s.consts, A.const c = true
  nodupK : s.consts.Nodup

theorem st_init : St A order T S initA 0 :=
  ⟨rfl, by simp [initA], by omega, by omega, by simp [initA], by simp [initA], by simp [initA], by simp [initA]⟩

/-! ### Uses -/

theorem sum_zero_iff {l : List Nat} {F : Nat → Nat} : (l.map F).sum = 0 ↔ ∀ x ∈ l, F x = 0 := by
  induction l with
  | nil => simp
  | cons a l ih => simp [ih]

theorem depsCount_split (h : Ctx A order T L S cAt) (e b : Nat) :
    depsCount A order b = ((T.take e).map fun g => (A.inputs g).count b).sum + ((T.drop e).map fun g => (A.inputs g).count b).sum := by
  unfold depsCount
  rw [← List.sum_append_nat, ← List.map_append, List.take_append_drop]
  exact ((h.perm.map _).sum_nat).symm

/-- All uses are among the first `e` calls iff all are counted. -/
theorem consumed_iff (h : Ctx A order T L S cAt) {e b : Nat} (he : e ≤ T.length) : ((T.take e).map fun g => (A.inputs g).count b).sum = depsCount A order b ↔
    ∀ f ∈ order, b ∈ A.inputs f → f ∈ slice T 0 e := by
  rw [depsCount_split h e b]
  have h0 : ((T.take e).map fun g => (A.inputs g).count b).sum = ((T.take e).map fun g => (A.inputs g).count b).sum + ((T.drop e).map fun g => (A.inputs g).count b).sum ↔
      ((T.drop e).map fun g => (A.inputs g).count b).sum = 0 := by omega
  rw [h0, sum_zero_iff]
  constructor
  · intro hz f hf hbf
    obtain ⟨i, hi⟩ := List.mem_iff_getElem?.1 (h.perm.mem_iff.2 hf)
    refine mem_slice.2 ⟨i, Nat.zero_le _, ?_, hi⟩
    by_contra hc
    have : f ∈ T.drop e := by
      rw [List.mem_iff_getElem?]
      exact ⟨i - e, by rw [List.getElem?_drop, show e + (i - e) = i by omega]; exact hi⟩
    have := hz f this
    rw [List.count_eq_zero] at this
    exact this hbf
  · intro hu f hf
    rw [List.count_eq_zero]
    intro hbf
    obtain ⟨i, hi⟩ := List.mem_iff_getElem?.1 hf
    rw [List.getElem?_drop] at hi
    obtain ⟨j, -, hj, hj'⟩ := mem_slice.1 (hu f (h.mem hi) hbf)
    have := h.idx hi hj'
    omega

/-- The lifetime of a buffer with all uses. -/
theorem St.iok (h : Ctx A order T L S cAt) {s : LSt} {a e b : Nat} (hs : St A order T S s e) (hn : New A T a e b)
    (hc : (s.info b).consumed = depsCount A order b) (hu : ∀ f ∈ order, b ∈ A.inputs f → f ∈ slice T 0 e) : IOK A order T s.info a e b := by
  obtain ⟨f, hf, hb, ho⟩ := hn
  obtain ⟨i, hi1, hi2, hif⟩ := mem_slice.1 hf
  obtain ⟨j, hj, hij, hje, hjm⟩ := hs.lend i f b hi2 hif hb ho hc
  refine ⟨i, j, hs.lstart i f b hi2 hif hb ho, hj, hi1, hij, hje, ?_⟩
  rintro g hg (hbg | hbg)
  · obtain ⟨k, -, hk2, hk3⟩ := mem_slice.1 (hu g hg hbg)
    have := h.after hif hk3 hb hbg
    have := hjm k g hk2 hk3 hbg
    exact mem_slice.2 ⟨k, by omega, by omega, hk3⟩
  · have := h.producer (h.mem hif) hg hb hbg
    subst this
    exact mem_slice.2 ⟨i, by omega, by omega, hif⟩

theorem St.consumed' (h : Ctx A order T L S cAt) {s : LSt} {a e b : Nat} (hs : St A order T S s e) (he : e ≤ T.length) (hn : New A T a e b) :
    (s.info b).consumed = depsCount A order b ↔ ∀ f ∈ order, b ∈ A.inputs f → f ∈ slice T 0 e := by
  obtain ⟨f, hf, hb, ho⟩ := hn
  obtain ⟨i, -, -, hif⟩ := mem_slice.1 hf
  rw [hs.consumed i f b hif hb ho]
  exact consumed_iff h he

/-! ### `produce` -/

theorem outs_fold {f : Nat} : ∀ (bs : List Nat) (s : LSt), (bs.foldl (produceOut A cAt order f) s).produced = s.produced ∧ (bs.foldl (produceOut A cAt order f) s).consts = s.consts ∧
    (∀ l b, b ∈ (bs.foldl (produceOut A cAt order f) s).cands l ↔ b ∈ s.cands l ∨ (b ∈ bs ∧ A.isOut b = false ∧ levelOf A cAt f b = l)) ∧
    (∀ l, (s.cands l).Nodup → ((bs.foldl (produceOut A cAt order f) s).cands l).Nodup) ∧
    (∀ x, ((bs.foldl (produceOut A cAt order f) s).info x).consumed = (s.info x).consumed) ∧
    (∀ x, ¬ (x ∈ bs ∧ A.isOut x = false) → (bs.foldl (produceOut A cAt order f) s).info x = s.info x) ∧
    (∀ x, x ∈ bs → A.isOut x = false → ((bs.foldl (produceOut A cAt order f) s).info x).lstart = s.produced ∧
      ((s.info x).consumed = depsCount A order x → ((bs.foldl (produceOut A cAt order f) s).info x).lend = s.produced))
  | [], s => by simp
  | b :: bs, s => by
    obtain ⟨a1, a2, a3, a4, a5, a6, a7⟩ := outs_fold bs (produceOut A cAt order f s b)
    simp only [List.foldl_cons]
    by_cases ho : A.isOut b = true
    · have e : produceOut A cAt order f s b = s := by simp [produceOut, ho]
      rw [e] at a1 a2 a3 a4 a5 a6 a7 ⊢
      refine ⟨a1, a2, ?_, a4, a5, ?_, ?_⟩
      · intro l x
        rw [a3 l x, List.mem_cons]
        constructor
        · rintro (h | ⟨h1, h2, h3⟩)
          · exact Or.inl h
          · exact Or.inr ⟨Or.inr h1, h2, h3⟩
        · rintro (h | ⟨rfl | h1, h2, h3⟩)
          · exact Or.inl h
          · rw [ho] at h2; cases h2
          · exact Or.inr ⟨h1, h2, h3⟩
      · intro x hx
        exact a6 x fun hc => hx ⟨List.mem_cons_of_mem _ hc.1, hc.2⟩
      · intro x hx hxo
        rcases List.mem_cons.1 hx with rfl | hx
        · rw [ho] at hxo; cases hxo
        · exact a7 x hx hxo
    · have ho' : A.isOut b = false := by simpa using ho
      have ep : (produceOut A cAt order f s b).produced = s.produced := by simp [produceOut, ho']
      have ec : (produceOut A cAt order f s b).consts = s.consts := by simp [produceOut, ho']
      have ed : ∀ l, (produceOut A cAt order f s b).cands l = if l = levelOf A cAt f b then ins b (s.cands l) else s.cands l := by intro l; simp [produceOut, ho']
      have ei : ∀ x, (produceOut A cAt order f s b).info x = if x = b then
          ⟨(s.info b).consumed, s.produced, if (s.info b).consumed = depsCount A order b then (s.produced : Int) else (s.info b).lend⟩ else s.info x := by intro x; simp [produceOut, ho']
      have ek : ∀ x, ((produceOut A cAt order f s b).info x).consumed = (s.info x).consumed := by
        intro x; rw [ei]; split
        · next h => rw [h]
        · rfl
      refine ⟨a1.trans ep, a2.trans ec, ?_, ?_, fun x => (a5 x).trans (ek x), ?_, ?_⟩
      · intro l x
        rw [a3 l x, ed l, List.mem_cons]
        split
        · next hl =>
          rw [mem_ins]
          constructor
          · rintro ((h | rfl) | ⟨h1, h2, h3⟩)
            · exact Or.inl h
            · exact Or.inr ⟨Or.inl rfl, ho', hl.symm⟩
            · exact Or.inr ⟨Or.inr h1, h2, h3⟩
          · rintro (h | ⟨rfl | h1, h2, h3⟩)
            · exact Or.inl (Or.inl h)
            · exact Or.inl (Or.inr rfl)
            · exact Or.inr ⟨h1, h2, h3⟩
        · next hl =>
          constructor
          · rintro (h | ⟨h1, h2, h3⟩)
            · exact Or.inl h
            · exact Or.inr ⟨Or.inr h1, h2, h3⟩
          · rintro (h | ⟨rfl | h1, h2, h3⟩)
            · exact Or.inl h
            · exact absurd h3.symm hl
            · exact Or.inr ⟨h1, h2, h3⟩
      · intro l hl
        apply a4
        rw [ed]
        split
        · exact nodup_ins hl
        · exact hl
      · intro x hx
        have hxb : x ≠ b := by rintro rfl; exact hx ⟨List.mem_cons_self .., ho'⟩
        rw [a6 x fun hc => hx ⟨List.mem_cons_of_mem _ hc.1, hc.2⟩, ei, if_neg hxb]
      · intro x hx hxo
        by_cases hxm : x ∈ bs
        · obtain ⟨b1, b2⟩ := a7 x hxm hxo
          rw [ep] at b1 b2
          exact ⟨b1, fun hc => b2 (by rw [ek]; exact hc)⟩
        · have hxb : x = b := by rcases List.mem_cons.1 hx with h | h; exact h; exact absurd h hxm
          subst hxb
          rw [a6 x fun hc => hxm hc.1, ei, if_pos rfl]
          exact ⟨rfl, fun hc => by simp only [hc, if_true]⟩

/-- The buffers for which uses are counted. -/
def Tracked (A : APipe) (order : List Nat) (b : Nat) : Bool := (A.prodOf b).isSome && hasInfo A order b

theorem ins_fold (bs : List Nat) : ∀ (s : LSt), (bs.foldl (produceIn A order) s).produced = s.produced ∧ (bs.foldl (produceIn A order) s).cands = s.cands ∧
    (∀ c, c ∈ (bs.foldl (produceIn A order) s).consts ↔ c ∈ s.consts ∨ (c ∈ bs ∧ A.const c = true)) ∧
    (s.consts.Nodup → (bs.foldl (produceIn A order) s).consts.Nodup) ∧
    (∀ x, ((bs.foldl (produceIn A order) s).info x).lstart = (s.info x).lstart) ∧
    (∀ x, x ∉ bs → (bs.foldl (produceIn A order) s).info x = s.info x) ∧
    (∀ x, Tracked A order x = true → ((bs.foldl (produceIn A order) s).info x).consumed = (s.info x).consumed + bs.count x) ∧
    (∀ x, Tracked A order x = true → x ∈ bs → ((bs.foldl (produceIn A order) s).info x).consumed = depsCount A order x → ((bs.foldl (produceIn A order) s).info x).lend = s.produced) := by
  induction bs using List.reverseRecOn with
  | nil => intro s; simp
  | append_singleton bs b ih =>
    intro s
    obtain ⟨a1, a2, a3, a4, a5, a6, a7, a8⟩ := ih s
    simp only [List.foldl_append, List.foldl_cons, List.foldl_nil]
    generalize bs.foldl (produceIn A order) s = s1 at a1 a2 a3 a4 a5 a6 a7 a8 ⊢
    have ep : (produceIn A order s1 b).produced = s1.produced := by unfold produceIn; dsimp only; split <;> split <;> rfl
    have ec : (produceIn A order s1 b).cands = s1.cands := by unfold produceIn; dsimp only; split <;> split <;> rfl
    have ek : (produceIn A order s1 b).consts = if A.const b = true then ins b s1.consts else s1.consts := by
      unfold produceIn; dsimp only; split <;> split <;> rfl
    have ei : ∀ x, (produceIn A order s1 b).info x = if x = b ∧ Tracked A order b = true then
        ⟨(s1.info b).consumed + 1, (s1.info b).lstart, if (s1.info b).consumed + 1 = depsCount A order b then (s1.produced : Int) else (s1.info b).lend⟩ else s1.info x := by
      intro x
      unfold produceIn Tracked
      by_cases ht : ((A.prodOf b).isSome && hasInfo A order b) = true
      · by_cases hx : x = b <;> by_cases hk : A.const b = true <;> simp [ht, hx, hk]
      · by_cases hk : A.const b = true <;> simp [ht, hk]
    refine ⟨ep.trans a1, ec.trans a2, ?_, ?_, ?_, ?_, ?_, ?_⟩
    · intro c
      rw [ek]
      split
      · next hk =>
        rw [mem_ins, a3, List.mem_append, List.mem_singleton]
        constructor
        · rintro ((h | ⟨h1, h2⟩) | rfl)
          · exact Or.inl h
          · exact Or.inr ⟨Or.inl h1, h2⟩
          · exact Or.inr ⟨Or.inr rfl, hk⟩
        · rintro (h | ⟨h1 | rfl, h2⟩)
          · exact Or.inl (Or.inl h)
          · exact Or.inl (Or.inr ⟨h1, h2⟩)
          · exact Or.inr rfl
      · next hk =>
        rw [a3, List.mem_append, List.mem_singleton]
        constructor
        · rintro (h | ⟨h1, h2⟩)
          · exact Or.inl h
          · exact Or.inr ⟨Or.inl h1, h2⟩
        · rintro (h | ⟨h1 | rfl, h2⟩)
          · exact Or.inl h
          · exact Or.inr ⟨h1, h2⟩
          · exact absurd h2 hk
    · intro hn
      rw [ek]
      split
      · exact nodup_ins (a4 hn)
      · exact a4 hn
    · intro x
      rw [ei]
      split
      · next h => rw [h.1]; exact a5 b
      · exact a5 x
    · intro x hx
      rw [List.mem_append, List.mem_singleton, not_or] at hx
      rw [ei, if_neg (fun h => hx.2 h.1)]
      exact a6 x hx.1
    · intro x ht
      rw [ei, List.count_append, List.count_singleton]
      by_cases hx : x = b
      · subst hx
        simp only [ht, and_self, if_true, beq_self_eq_true, a7 x ht]
        omega
      · have hbx : ¬ b = x := fun h => hx h.symm
        rw [if_neg (fun h => hx h.1), a7 x ht]
        simp [hbx]
    · intro x ht hx
      by_cases hxb : x = b
      · subst hxb
        rw [ei]
        simp only [ht, and_self, if_true]
        intro hc
        rw [if_pos hc, a1]
      · rw [ei, if_neg (fun h => hxb h.1)]
        have hx' : x ∈ bs := by
          rcases List.mem_append.1 hx with h | h
          · exact h
          · simp only [List.mem_singleton] at h; exact absurd h hxb
        exact a8 x ht hx'

theorem Ctx.tracked (h : Ctx A order T L S cAt) {f b : Nat} (hf : f ∈ order) (hb : b ∈ A.outputs f) (ho : A.isOut b = false) : Tracked A order b = true := by
  rw [Tracked, h.wf.prod f hf b hb, hasInfo, Bool.and_eq_true, List.any_eq_true]
  exact ⟨rfl, f, hf, by simp [hb, ho]⟩

theorem take_succ_of {e f : Nat} (hf : T[e]? = some f) : T.take (e + 1) = T.take e ++ [f] := by
  rw [List.take_add_one, hf]; rfl

theorem produce_st (h : Ctx A order T L S cAt) {s : LSt} {e f : Nat} (hs : St A order T S s e) (hf : T[e]? = some f) :
    ROK A order T (produce A cAt order f s).1 e (e + 1) ∧ (produce A cAt order f s).1.body = [.call f] ∧ St A order T S (produce A cAt order f s).2 (e + 1) ∧
      (∀ l b, b ∈ (produce A cAt order f s).2.cands l ↔ b ∈ s.cands l ∨ (New A T e (e + 1) b ∧ lastId (S b) = l)) ∧
      ∀ c, c ∈ (produce A cAt order f s).2.consts ↔ c ∈ s.consts ∨ UsedC A T e (e + 1) c := by
  obtain ⟨hlt, -⟩ := List.getElem?_eq_some_iff.1 hf
  have hfo := h.mem hf
  obtain ⟨a1, a2, a3, a4, a5, a6, a7⟩ := outs_fold (A := A) (cAt := cAt) (order := order) (f := f) (A.outputs f) s
  unfold produce
  dsimp only
  generalize (A.outputs f).foldl (produceOut A cAt order f) s = s1 at a1 a2 a3 a4 a5 a6 a7 ⊢
  obtain ⟨b1, b2, b3, b4, b5, b6, b7, b8⟩ := ins_fold (A := A) (order := order) (A.inputs f) s1
  generalize (A.inputs f).foldl (produceIn A order) s1 = s2 at b1 b2 b3 b4 b5 b6 b7 b8 ⊢
  have hsl : ∀ g, g ∈ slice T e (e + 1) ↔ g = f := by
    intro g
    rw [mem_slice]
    constructor
    · rintro ⟨i, h1, h2, h3⟩
      rw [show i = e by omega, hf] at h3
      exact (Option.some.inj h3).symm
    · rintro rfl
      exact ⟨e, Nat.le_refl _, Nat.lt_succ_self _, hf⟩
  have hnew : ∀ b, New A T e (e + 1) b ↔ b ∈ A.outputs f ∧ A.isOut b = false := by
    intro b
    constructor
    · rintro ⟨g, hg, hb⟩
      rw [(hsl g).1 hg] at hb
      exact hb
    · intro hb
      exact ⟨f, (hsl f).2 rfl, hb⟩
  have hused : ∀ c, UsedC A T e (e + 1) c ↔ c ∈ A.inputs f ∧ A.const c = true := by
    intro b
    constructor
    · rintro ⟨g, hg, hb⟩
      rw [(hsl g).1 hg] at hb
      exact hb
    · intro hb
      exact ⟨f, (hsl f).2 rfl, hb⟩
  have hcands : ∀ l b, b ∈ s2.cands l ↔ b ∈ s.cands l ∨ (New A T e (e + 1) b ∧ lastId (S b) = l) := by
    intro l b
    rw [b2, a3, hnew]
    constructor
    · rintro (h1 | ⟨h1, h2, h3⟩)
      · exact Or.inl h1
      · exact Or.inr ⟨⟨h1, h2⟩, (h.level f hfo b h1 h2).1.trans h3⟩
    · rintro (h1 | ⟨⟨h1, h2⟩, h3⟩)
      · exact Or.inl h1
      · exact Or.inr ⟨h1, h2, (h.level f hfo b h1 h2).1.symm.trans h3⟩
  have hconsts : ∀ c, c ∈ s2.consts ↔ c ∈ s.consts ∨ UsedC A T e (e + 1) c := by
    intro c
    rw [b3, a2, hused]
  have hpr : s2.produced = e := by rw [b1, a1, hs.produced]
  have hself : ∀ b, b ∈ A.outputs f → b ∉ A.inputs f := fun b hb hi => by
    have := h.after hf hf hb hi
    omega
  refine ⟨⟨by simp [hpr], by simp [hpr], Nat.lt_succ_self _, by omega, ?_, by simp⟩, rfl, ?_, hcands, hconsts⟩
  · have : slice T e (e + 1) = [f] := by
      rw [slice, take_succ_of hf, List.drop_append_of_le_length (by simp; omega), List.drop_eq_nil_of_le (by simp; omega)]
      rfl
    rw [this]
    simp [callsA, stripL, ANest.strip, callsL, SPipe.Nest.calls]
  · refine ⟨by simp [hpr], ?_, ?_, ?_, ?_, ?_, ?_, ?_⟩
    · intro i g b hi hb ho
      dsimp only
      rw [b7 b (h.tracked (h.mem hi) hb ho), a5, hs.consumed i g b hi hb ho, take_succ_of hf, List.map_append, List.sum_append_nat]
      simp
    · intro i g b hie hi hb ho
      dsimp only
      rw [b5]
      by_cases hbf : b ∈ A.outputs f
      · have := h.producer (h.mem hi) hfo hb hbf
        subst this
        have := h.idx hi hf
        subst this
        rw [(a7 b hbf ho).1, hs.produced]
      · rw [a6 b fun hc => hbf hc.1]
        refine hs.lstart i g b ?_ hi hb ho
        have : i ≠ e := by
          rintro rfl
          rw [hf] at hi
          cases hi
          exact hbf hb
        omega
    · intro i g b hie hi hb ho hc
      dsimp only at hc ⊢
      have ht := h.tracked (h.mem hi) hb ho
      by_cases hbi : b ∈ A.inputs f
      · refine ⟨e, ?_, by omega, by omega, fun k _ hk _ _ => by omega⟩
        rw [b8 b ht hbi hc, a1, hs.produced]
      · rw [b6 b hbi] at hc ⊢
        rw [a5] at hc
        by_cases hbf : b ∈ A.outputs f
        · have := h.producer (h.mem hi) hfo hb hbf
          subst this
          have := h.idx hi hf
          subst this
          exact ⟨i, by rw [(a7 b hbf ho).2 hc, hs.produced], by omega, by omega, fun k _ hk _ _ => by omega⟩
        · rw [a6 b fun hc => hbf hc.1]
          have hne : i ≠ e := by
            rintro rfl
            rw [hf] at hi
            cases hi
            exact hbf hb
          obtain ⟨j, j1, j2, j3, j4⟩ := hs.lend i g b (by omega) hi hb ho hc
          refine ⟨j, j1, j2, by omega, fun k g' hk hk' hbk => j4 k g' ?_ hk' hbk⟩
          have : k ≠ e := by
            rintro rfl
            rw [hf] at hk'
            cases hk'
            exact hbi hbk
          omega
    · intro l b hb
      rcases (hcands l b).1 hb with h1 | h1
      · obtain ⟨n1, n2⟩ := hs.cands l b h1
        exact ⟨n1.sub (Nat.le_refl _) (Nat.le_succ _), n2⟩
      · exact ⟨h1.1.sub (Nat.zero_le _) (Nat.le_refl _), h1.2⟩
    · intro l
      dsimp only
      rw [b2]
      exact a4 l (hs.nodupC l)
    · intro c hc
      rcases (hconsts c).1 hc with h1 | ⟨-, -, -, h1⟩
      · exact hs.isConst c h1
      · exact h1
    · exact b4 (by rw [a2]; exact hs.nodupK)

end APipe

end Slinky
