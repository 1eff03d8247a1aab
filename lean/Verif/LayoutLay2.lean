import Verif.LayoutLay

/-! # C49: `lay_out_allocations` -/

namespace Slinky

namespace APipe

open SPipe (around lastId callsL)

variable {A : APipe} {order T : List Nat} {q : List (Nat × Nat)}

/-! ### Buffers with constraints -/

theorem placeOne_spec {info : Nat → Info} {b : Nat} : ∀ {rs rs' : List Rng} {a a0 e0 e : Nat}, Chain A order T a e rs → e ≤ T.length → IOK A order T info a0 e0 b →
    placeOne A order (info b) b rs = some rs' → Ext A order T q a e rs rs' [b] []
  | [], rs', a, a0, e0, e, _, _, _, h => by simp [placeOne] at h
  | r :: rs, rs', a, a0, e0, e, ⟨m, hr, hrs⟩, he, hI, h => by
    unfold placeOne at h
    split at h
    · next hc =>
      simp only [Option.some.injEq] at h
      subst h
      obtain ⟨i, j, h1, h2, h3, h4, h5, h6⟩ := hI
      have hs := hr.start
      have ht := hr.stop
      have hfit : ∀ f ∈ order, b ∈ A.inputs f ∨ b ∈ A.outputs f → f ∈ slice T a m := fun f hf hbf => slice_sub (h6 f hf hbf) (by omega) (by omega)
      exact (Ext.allocate (q := q) hr hfit).append (Ext.refl hrs) he
    · simp only [Option.map_eq_some_iff] at h
      obtain ⟨rs1, h1, rfl⟩ := h
      have := (Ext.refl (q := q) (show Chain A order T a m [r] from ⟨m, hr, rfl⟩)).append (placeOne_spec hrs he hI h1) he
      simpa using this

theorem placeConstrained_spec {info : Nat → Info} {a a0 e0 e : Nat} (he : e ≤ T.length) : ∀ (bs : List Nat) (rs : List Rng), Chain A order T a e rs → (∀ b ∈ bs, IOK A order T info a0 e0 b) →
    Ext A order T q a e rs (placeConstrained A order info bs rs).1 (placeConstrained A order info bs rs).2.2 [] ∧
      bs.Perm ((placeConstrained A order info bs rs).2.1 ++ (placeConstrained A order info bs rs).2.2)
  | [], rs, hc, _ => ⟨Ext.refl hc, by simp [placeConstrained]⟩
  | b :: bs, rs, hc, hI => by
    unfold placeConstrained
    cases hp : placeOne A order (info b) b rs with
    | none =>
      obtain ⟨w1, w2⟩ := placeConstrained_spec he bs rs hc fun c hc => hI c (List.mem_cons_of_mem _ hc)
      exact ⟨w1, by simpa using w2.cons b⟩
    | some rs' =>
      have h1 := placeOne_spec (q := q) hc he (hI b (List.mem_cons_self ..)) hp
      obtain ⟨w1, w2⟩ := placeConstrained_spec he bs rs' h1.chain fun c hc => hI c (List.mem_cons_of_mem _ hc)
      refine ⟨(h1.trans w1).perm (List.perm_append_comm.trans (by simp)) (by simp), ?_⟩
      exact (w2.cons b).trans List.perm_middle.symm

/-! ### Constants -/

theorem hasAll_fit (hw : WF A order) {c : Nat} (hc : A.const c = true) {r : Rng} {a e : Nat} (hr : ROK A order T r a e) (h : hasAll A order c r.allocs = true) :
    ∀ f ∈ order, c ∈ A.inputs f ∨ c ∈ A.outputs f → f ∈ slice T a e := by
  rintro f hf (hin | hout)
  · obtain ⟨o, ho⟩ := List.exists_mem_of_ne_nil _ (hw.some f hf)
    apply hr.allocs o _ f hf ho
    rw [hasAll, List.all_eq_true] at h
    have := h o (by
      rw [copyDeps, List.mem_append]
      right
      rw [List.mem_flatMap]
      refine ⟨f, hf, ?_⟩
      rw [if_pos (by simp [hc, hin])]
      simp [hc, ho])
    simpa using this
  · have := hw.prod f hf c hout
    rw [hw.const c hc] at this
    cases this

theorem constAll_spec {a e : Nat} : ∀ (cs : List Nat) (r : Rng), ROK A order T r a e → (∀ c ∈ cs, ∀ f ∈ order, c ∈ A.inputs f ∨ c ∈ A.outputs f → f ∈ slice T a e) →
    Ext A order T q a e [r] [cs.foldl (fun r c => constant c r) r] [] cs
  | [], r, hr, _ => Ext.refl ⟨e, hr, rfl⟩
  | c :: cs, r, hr, h => by
    rw [List.foldl_cons]
    have h1 := Ext.constant (q := q) hr (h c (List.mem_cons_self ..))
    exact (h1.trans (constAll_spec cs _ (constant_ROK hr) fun x hx => h x (List.mem_cons_of_mem _ hx))).perm (by simp) List.perm_append_comm

theorem allocAll_spec {a e : Nat} : ∀ (bs : List Nat) (r : Rng), ROK A order T r a e → (∀ c ∈ bs, ∀ f ∈ order, c ∈ A.inputs f ∨ c ∈ A.outputs f → f ∈ slice T a e) →
    Ext A order T q a e [r] [bs.foldl (fun r c => allocate c r) r] bs []
  | [], r, hr, _ => Ext.refl ⟨e, hr, rfl⟩
  | c :: bs, r, hr, h => by
    rw [List.foldl_cons]
    have hc := h c (List.mem_cons_self ..)
    have h1 := Ext.allocate (q := q) hr hc
    exact (h1.trans (allocAll_spec bs _ (allocate_ROK hr fun f hf hcf => hc f hf (Or.inr hcf)) fun x hx => h x (List.mem_cons_of_mem _ hx))).perm List.perm_append_comm (by simp)

theorem Ext.last {a e : Nat} {rs : List Rng} {r' : Rng} {as cs : List Nat} (h : Ext A order T q a e rs [r'] as cs) : ROK A order T r' a e := by
  obtain ⟨m, h1, h2⟩ := h.chain
  simp only [Chain] at h2
  subst h2
  exact h1

theorem placeConsts_spec (hw : WF A order) : ∀ (rs : List Rng) (cs : List Nat) (a e : Nat), Chain A order T a e rs → e ≤ T.length → (∀ c ∈ cs, A.const c = true) →
    ∃ placed, Ext A order T q a e rs (placeConsts A order cs rs).1 [] placed ∧ cs.Perm (placed ++ (placeConsts A order cs rs).2)
  | [], cs, a, e, hc, _, _ => ⟨[], Ext.refl hc, by simp [placeConsts]⟩
  | r :: rs, cs, a, e, ⟨m, hr, hrs⟩, he, hcs => by
    obtain ⟨p, w1, w2⟩ := placeConsts_spec hw rs (cs.filter fun c => ¬ hasAll A order c r.allocs) m e hrs he fun c hc => hcs c (List.mem_of_mem_filter hc)
    have h1 := constAll_spec (q := q) (cs.filter fun c => hasAll A order c r.allocs) r hr (by
      intro c hc
      rw [List.mem_filter] at hc
      exact hasAll_fit hw (hcs c hc.1) hr hc.2)
    refine ⟨(cs.filter fun c => hasAll A order c r.allocs) ++ p, ?_, ?_⟩
    · have := h1.append w1 he
      simpa [placeConsts, placeConst1] using this
    · rw [placeConsts, List.append_assoc]
      refine List.Perm.trans ?_ (w2.append_left _)
      have := List.filter_append_perm (fun c => hasAll A order c r.allocs) cs
      simpa using this.symm

/-! ### The loop -/

/-- The invariant of the loop. -/
structure LayInv (A : APipe) (order T : List Nat) (info : Nat → Info) (a e : Nat) (x : LayS) : Prop where
  chain : Chain A order T a e x.results
  iok : ∀ b ∈ x.lifetimes ++ x.special, IOK A order T info a e b
  cands : x.cands.Perm (x.lifetimes ++ x.special)
  nodup : x.cands.Nodup
  consts : ∀ c ∈ x.consts, A.const c = true

theorem filter_placed {cs left placed : List Nat} (h : cs.Perm (left ++ placed)) (hn : cs.Nodup) : (cs.filter fun b => decide (b ∉ placed)).Perm left := by
  have hn' := h.nodup_iff.1 hn
  have h1 := h.filter (fun b => decide (b ∉ placed))
  refine h1.trans ?_
  rw [List.filter_append, List.filter_eq_self.2 (fun b hb => ?_), List.filter_eq_nil_iff.2 (fun b hb => by simpa using hb), List.append_nil]
  have := (List.nodup_append.1 hn').2.2 b hb
  simp only [decide_eq_true_eq]
  intro hc
  exact this b hc rfl

theorem layStep_spec (hw : WF A order) {info : Nat → Info} {a e : Nat} (he : e ≤ T.length) {x : LayS} (h : LayInv A order T info a e x) :
    LayInv A order T info a e (layStep A order info x) ∧ (layStep A order info x).lifetimes.length ≤ x.lifetimes.length ∧
      (layStep A order info x).special.length ≤ x.special.length ∧
      ∃ as cs, Ext A order T q a e x.results (layStep A order info x).results as cs ∧ x.cands.Perm (as ++ (layStep A order info x).cands) ∧
        x.consts.Perm (cs ++ (layStep A order info x).consts) := by
  obtain ⟨w1, w2⟩ := walk_spec (q := q) (info := info) x.lifetimes.length x.lifetimes x.results a a e (Nat.le_refl _) h.chain he
    (fun b hb => h.iok b (List.mem_append_left _ hb)) (fun b hb => by
      obtain ⟨i, j, h1, -, h3, -⟩ := h.iok b (List.mem_append_left _ (List.mem_of_mem_head? hb))
      omega)
  obtain ⟨p1, p2⟩ := placeConstrained_spec (q := q) (info := info) he x.special (walk info x.lifetimes.length x.lifetimes x.results).1 w1.chain
    (fun b hb => h.iok b (List.mem_append_right _ hb))
  unfold layStep
  dsimp only
  generalize walk info x.lifetimes.length x.lifetimes x.results = w at w1 w2 p1 p2 ⊢
  generalize placeConstrained A order info x.special w.1 = p at p1 p2 ⊢
  obtain ⟨placed, c1, c2⟩ := placeConsts_spec (q := q) hw p.1 x.consts a e p1.chain he h.consts
  generalize placeConsts A order x.consts p.1 = c at c1 c2 ⊢
  have hperm : x.cands.Perm ((w.2.1 ++ p.2.1) ++ (w.2.2 ++ p.2.2)) := by
    refine h.cands.trans ((w2.append p2).trans ?_)
    rw [List.append_assoc, List.append_assoc]
    refine List.Perm.append_left _ ?_
    rw [← List.append_assoc, ← List.append_assoc]
    exact List.Perm.append_right _ List.perm_append_comm
  have hf : (x.cands.filter fun b => decide (b ∉ w.2.2 ∧ b ∉ p.2.2)) = x.cands.filter fun b => decide (b ∉ w.2.2 ++ p.2.2) := by
    apply List.filter_congr
    intro b _
    simp
  have hleft := filter_placed hperm h.nodup
  rw [← hf] at hleft
  have l1 := w2.length_eq
  have l2 := p2.length_eq
  simp only [List.length_append] at l1 l2
  refine ⟨⟨c1.chain, ?_, hleft, h.nodup.filter _, fun y hy => h.consts y (c2.mem_iff.2 (List.mem_append_right _ hy))⟩, by omega, by omega,
    w.2.2 ++ p.2.2, placed, ?_, ?_, c2⟩
  · intro b hb
    dsimp only at hb
    rcases List.mem_append.1 hb with hb | hb
    · exact h.iok b (List.mem_append_left _ (w2.mem_iff.2 (List.mem_append_left _ hb)))
    · exact h.iok b (List.mem_append_right _ (p2.mem_iff.2 (List.mem_append_left _ hb)))
  · refine ((w1.trans p1).trans c1).perm ?_ (by simp)
    rw [List.nil_append]
    exact List.perm_append_comm
  · refine hperm.trans (List.perm_append_comm.trans ?_)
    exact List.Perm.append_left _ hleft.symm

theorem layLoop_spec (hw : WF A order) {info : Nat → Info} {a e : Nat} (he : e ≤ T.length) : ∀ (n : Nat) (x : LayS), x.lifetimes.length + x.special.length < n → LayInv A order T info a e x →
    ∃ y, layLoop A order info n x = some y ∧ LayInv A order T info a e y ∧
      ∃ as cs, Ext A order T q a e x.results y.results as cs ∧ x.cands.Perm (as ++ y.cands) ∧ x.consts.Perm (cs ++ y.consts)
  | 0, x, hn, _ => by omega
  | n + 1, x, hn, h => by
    obtain ⟨i1, l1, l2, as, cs, e1, p1, p2⟩ := layStep_spec (q := q) hw he h
    unfold layLoop
    dsimp only
    split
    · exact ⟨_, rfl, i1, as, cs, e1, p1, p2⟩
    · next hne =>
      obtain ⟨y, hy, i2, as', cs', e2, p3, p4⟩ := layLoop_spec hw he n (layStep A order info x) (by omega) i1
      refine ⟨y, hy, i2, as' ++ as, cs' ++ cs, e1.trans e2, ?_, ?_⟩
      · refine p1.trans ((p3.append_left as).trans ?_)
        rw [← List.append_assoc]
        exact List.Perm.append_right _ List.perm_append_comm
      · refine p2.trans ((p4.append_left cs).trans ?_)
        rw [← List.append_assoc]
        exact List.Perm.append_right _ List.perm_append_comm

/-! ### All of it -/

theorem mergeAll_spec : ∀ (rs : List Rng) (r : Rng) (a m e : Nat), ROK A order T r a m → Chain A order T m e rs → e ≤ T.length →
    ∃ r', rs.foldlM merge r = some r' ∧ Ext A order T q a e (r :: rs) [r'] [] []
  | [], r, a, m, e, hr, hc, he => by
    simp only [Chain] at hc
    subst hc
    exact ⟨r, rfl, Ext.refl ⟨m, hr, rfl⟩⟩
  | x :: rs, r, a, m, e, hr, ⟨k, hx, hc⟩, he => by
    have h1 := hr.stop
    have h2 := hx.start
    have hmk := hx.lt
    have hlt := hr.lt
    have hm : merge r x = some ⟨r.body ++ x.body, r.start, x.stop, x.allocs.foldl (fun l x => ins x l) r.allocs⟩ := by
      unfold merge
      rw [if_pos (by omega)]
    have hk : ROK A order T ⟨r.body ++ x.body, r.start, x.stop, x.allocs.foldl (fun l x => ins x l) r.allocs⟩ a k := by
      refine ⟨hr.start, hx.stop, by omega, hx.le, ?_, ?_⟩
      · show callsA (r.body ++ x.body) = _
        rw [callsA_append, hr.calls, hx.calls, slice_append (by omega) (by omega) hx.le]
      · intro b hb f hf hbf
        rcases (mem_insAll _ _).1 hb with hb | hb
        · exact slice_sub (hr.allocs b hb f hf hbf) (Nat.le_refl _) (by omega)
        · exact slice_sub (hx.allocs b hb f hf hbf) (by omega) (Nat.le_refl _)
    obtain ⟨r', e1, e2⟩ := mergeAll_spec rs _ a k e hk hc he
    refine ⟨r', by rw [List.foldlM_cons, hm]; exact e1, ?_⟩
    have hj : Ext A order T q a k [r, x] [⟨r.body ++ x.body, r.start, x.stop, x.allocs.foldl (fun l x => ins x l) r.allocs⟩] [] [] := by
      refine ⟨⟨k, hk, rfl⟩, ?_, [], ?_, by simp [aKeys], by simp [cKeys], by simp⟩
      · simp [strips, stripL_append]
      · simp [D, declsL_append]
    have := (hj.append (Ext.refl (q := q) hc) he).trans (by simpa using e2)
    simpa using this

/-- What `lay_out_allocations` does: everything that is to be allocated at this level is, around its lifetime. -/
theorem layOut_spec (hw : WF A order) {at_ : LoopId} {rs : List Rng} {s : LSt} {a e : Nat} (hc : Chain A order T a e rs) (hne : rs ≠ []) (hI : ∀ b ∈ s.cands at_, IOK A order T s.info a e b)
    (hb : ∀ b ∈ s.cands at_, A.isOut b = false ∧ ∃ f ∈ order, b ∈ A.outputs f) (hn : (s.cands at_).Nodup) (hk : ∀ c ∈ s.consts, A.const c = true) :
    ∃ r s', layOut A order at_ rs s = some (r, s') ∧ (∃ cs, Ext A order T q a e rs [r] (s.cands at_) cs ∧ s.consts.Perm (cs ++ s'.consts)) ∧
      s'.produced = s.produced ∧ s'.info = s.info ∧ s'.cands = fun l => if l = at_ then [] else s.cands l := by
  obtain ⟨hlt, he⟩ := hc.length hne
  have hcs : ((s.cands at_).filter fun b => decide (¬ A.isOut b = true)) = s.cands at_ := by
    rw [List.filter_eq_self]
    intro b hbm
    simp [(hb b hbm).1]
  unfold layOut
  simp only [hcs, Option.bind_eq_bind]
  generalize hlf : ((s.cands at_).filter fun b => decide (¬ copyIn A order b = true)).mergeSort (lifetimeLe s.info) = lf
  generalize hsp : ((s.cands at_).filter fun b => copyIn A order b).mergeSort (lifetimeLe s.info) = sp
  have plf : lf.Perm ((s.cands at_).filter fun b => decide (¬ copyIn A order b = true)) := hlf ▸ List.mergeSort_perm _ _
  have psp : sp.Perm ((s.cands at_).filter fun b => copyIn A order b) := hsp ▸ List.mergeSort_perm _ _
  have hperm : (s.cands at_).Perm (lf ++ sp) := by
    refine List.Perm.trans ?_ (plf.append psp).symm
    have := List.filter_append_perm (fun b => copyIn A order b) (s.cands at_)
    refine List.Perm.trans this.symm (List.perm_append_comm.trans ?_)
    refine List.Perm.append ?_ (List.Perm.refl _)
    rw [show (s.cands at_).filter (fun b => !copyIn A order b) = (s.cands at_).filter fun b => decide (¬ copyIn A order b = true) from List.filter_congr fun b _ => by simp]
  have inv : LayInv A order T s.info a e ⟨rs, lf, sp, s.cands at_, s.consts⟩ := ⟨hc, fun b hbm => hI b (hperm.mem_iff.2 hbm), hperm, hn, hk⟩
  obtain ⟨y, hy, i2, as, cs, e1, p1, p2⟩ := layLoop_spec (q := q) hw he (lf.length + sp.length + 1) ⟨rs, lf, sp, s.cands at_, s.consts⟩ (by dsimp only; omega) inv
  rw [hy]
  simp only [Option.bind_some]
  cases hyr : y.results with
  | nil =>
    have := i2.chain
    rw [hyr] at this
    simp only [Chain] at this
    omega
  | cons r1 rs1 =>
    have hch := i2.chain
    rw [hyr] at hch
    obtain ⟨m, hr1, hrs1⟩ := hch
    obtain ⟨r2, hr2, x2⟩ := mergeAll_spec (q := q) rs1 r1 a m e hr1 hrs1 he
    simp only [hr2, Option.bind_some]
    generalize hleft : ((order.flatMap A.outputs).filter fun b => decide (¬ A.isOut b = true ∧ b ∈ y.cands)) = left
    have hmem : ∀ b, b ∈ left ↔ b ∈ y.cands := by
      intro b
      rw [← hleft, List.mem_filter, decide_eq_true_eq, List.mem_flatMap]
      constructor
      · rintro ⟨-, -, h⟩; exact h
      · intro hby
        have hbs := p1.mem_iff.2 (List.mem_append_right as hby)
        exact ⟨(hb b hbs).2, by simp [(hb b hbs).1], hby⟩
    have pleft : left.Perm y.cands := (List.perm_ext_iff_of_nodup (hleft ▸ hw.outs.filter _) i2.nodup).2 hmem
    have hrok2 := x2.last
    have x3 := allocAll_spec (q := q) left r2 hrok2 (by
      intro b hbl f hf hbf
      have hbs := p1.mem_iff.2 (List.mem_append_right as ((hmem b).1 hbl))
      obtain ⟨i, j, -, -, h3, -, h5, h6⟩ := hI b hbs
      exact slice_sub (h6 f hf hbf) h3 (by omega))
    have hrok3 := x3.last
    generalize hr3 : left.foldl (fun r c => allocate c r) r2 = r3 at x3 hrok3
    obtain ⟨placed, x4, p4⟩ := placeConsts_spec (q := q) hw [r3] y.consts a e ⟨e, hrok3, rfl⟩ he i2.consts
    have hhead : placeConsts A order y.consts [r3] = ([placeConst1 A order y.consts r3], (placeConsts A order y.consts [r3]).2) := rfl
    rw [hhead] at x4
    refine ⟨placeConst1 A order y.consts r3, { s with cands := fun l => if l = at_ then y.cands.filter fun b => decide (¬ b ∈ left) else s.cands l, consts := (placeConsts A order y.consts [r3]).2 },
      by rw [hhead]; rfl, ⟨placed ++ cs, ?_, ?_⟩, rfl, rfl, ?_⟩
    · rw [hyr] at e1
      refine (((e1.trans x2).trans x3).trans x4).perm ?_ (by simp)
      simp only [List.nil_append]
      exact (List.Perm.append_right _ pleft).trans (List.perm_append_comm.trans p1.symm)
    · refine p2.trans ((p4.append_left cs).trans ?_)
      dsimp only
      rw [← List.append_assoc]
      exact List.Perm.append_right _ List.perm_append_comm
    · funext l
      dsimp only
      split
      · rw [List.filter_eq_nil_iff]
        intro b hbm
        simpa using (hmem b).2 hbm
      · rfl

end APipe

end Slinky
