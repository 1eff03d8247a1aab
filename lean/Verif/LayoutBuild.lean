import Verif.LayoutSt

/-! # C49: the loop nest with allocations -/

namespace Slinky

namespace APipe

open SPipe (around lastId callsL own Valid)

variable {A : APipe} {order T : List Nat} {L : Nat → List (Nat × Nat)} {S : Nat → List (Nat × Nat)} {cAt rAt : Nat → LoopId}

/-- What the steps from `s` to `s'` did, that made the calls from `a` to before `e`, with the declarations `ds`. -/
structure Acc (A : APipe) (order T : List Nat) (S : Nat → List (Nat × Nat)) (s s' : LSt) (a e : Nat) (ds : List Decl) : Prop where
  st : St A order T S s' e
  nodupA : (aKeys ds).Nodup
  memA : ∀ b ∈ aKeys ds, New A T a e b
  cands : ∀ (l : LoopId) (b : Nat), b ∈ s'.cands l ↔ b ∈ s.cands l ∨ (New A T a e b ∧ lastId (S b) = l ∧ b ∉ aKeys ds)
  fit : ∀ x ∈ ds, Fit A order x ∧ (x.k = false → x.q = S x.b) ∧ (x.k = true → A.const x.b = true) ∧ ∀ f ∈ x.cs, f ∈ slice T a e
  nodupK : (cKeys ds ++ s'.consts).Nodup
  memK : ∀ c : Nat, c ∈ cKeys ds ++ s'.consts ↔ c ∈ s.consts ∨ UsedC A T a e c

theorem slice_self (a : Nat) : slice T a a = [] := by simp [slice]

theorem New.self {a b : Nat} (h : New A T a a b) : False := by
  obtain ⟨f, hf, -⟩ := h
  rw [slice_self] at hf
  cases hf

theorem UsedC.self {a b : Nat} (h : UsedC A T a a b) : False := by
  obtain ⟨f, hf, -⟩ := h
  rw [slice_self] at hf
  cases hf

theorem Acc.nil {s : LSt} {a : Nat} (h : St A order T S s a) : Acc A order T S s s a a [] := by
  refine ⟨h, by simp [aKeys], by simp [aKeys], ?_, by simp, by simpa [cKeys] using h.nodupK, ?_⟩
  · intro l b
    exact ⟨Or.inl, fun hb => hb.elim id fun hc => absurd hc.1 New.self⟩
  · intro c
    simp only [cKeys, List.filterMap_nil, List.nil_append]
    exact ⟨Or.inl, fun hb => hb.elim id fun hc => absurd hc UsedC.self⟩

theorem Acc.perm {s s' : LSt} {a e : Nat} {ds ds' : List Decl} (h : Acc A order T S s s' a e ds) (hp : ds.Perm ds') : Acc A order T S s s' a e ds' := by
  have hA := aKeys_perm hp
  have hK := cKeys_perm hp
  refine ⟨h.st, hA.nodup_iff.1 h.nodupA, fun b hb => h.memA b (hA.mem_iff.2 hb), ?_, fun x hx => h.fit x (hp.mem_iff.2 hx), (hK.append_right _).nodup_iff.1 h.nodupK, ?_⟩
  · intro l b
    rw [h.cands l b, hA.mem_iff]
  · intro c
    rw [← h.memK c, (hK.append_right _).mem_iff]

theorem Acc.trans (hx : Ctx A order T L S cAt) {s1 s2 s3 : LSt} {a m e : Nat} {d1 d2 : List Decl} (h1 : Acc A order T S s1 s2 a m d1) (h2 : Acc A order T S s2 s3 m e d2)
    (ham : a ≤ m) (hme : m ≤ e) : Acc A order T S s1 s3 a e (d1 ++ d2) := by
  refine ⟨h2.st, ?_, ?_, ?_, ?_, ?_, ?_⟩
  · rw [aKeys_append, List.nodup_append]
    refine ⟨h1.nodupA, h2.nodupA, ?_⟩
    rintro b hb b' hb' rfl
    exact New.disj hx (h1.memA b hb) (h2.memA b hb') (Nat.le_refl _)
  · intro b hb
    rw [aKeys_append, List.mem_append] at hb
    rcases hb with hb | hb
    · exact (h1.memA b hb).sub (Nat.le_refl _) hme
    · exact (h2.memA b hb).sub ham (Nat.le_refl _)
  · intro l b
    rw [h2.cands l b, h1.cands l b, aKeys_append, List.mem_append, not_or]
    constructor
    · rintro ((h | ⟨n, hl, hb⟩) | ⟨n, hl, hb⟩)
      · exact Or.inl h
      · exact Or.inr ⟨n.sub (Nat.le_refl _) hme, hl, hb, fun hc => New.disj hx n (h2.memA b hc) (Nat.le_refl _)⟩
      · exact Or.inr ⟨n.sub ham (Nat.le_refl _), hl, fun hc => New.disj hx (h1.memA b hc) n (Nat.le_refl _), hb⟩
    · rintro (h | ⟨n, hl, hb1, hb2⟩)
      · exact Or.inl (Or.inl h)
      · rcases n.split (m := m) with n | n
        · exact Or.inl (Or.inr ⟨n, hl, hb1⟩)
        · exact Or.inr ⟨n, hl, hb2⟩
  · intro x hxm
    rcases List.mem_append.1 hxm with hxm | hxm
    · obtain ⟨f1, f2, f3, f4⟩ := h1.fit x hxm
      exact ⟨f1, f2, f3, fun f hf => slice_sub (f4 f hf) (Nat.le_refl _) hme⟩
    · obtain ⟨f1, f2, f3, f4⟩ := h2.fit x hxm
      exact ⟨f1, f2, f3, fun f hf => slice_sub (f4 f hf) ham (Nat.le_refl _)⟩
  · rw [cKeys_append, List.append_assoc, List.nodup_append]
    have hn := List.nodup_append.1 h1.nodupK
    refine ⟨hn.1, h2.nodupK, ?_⟩
    rintro c hc c' hc' rfl
    rcases (h2.memK c).1 hc' with h | ⟨f, hf, hcf, -⟩
    · exact hn.2.2 c hc c h rfl
    · obtain ⟨x, hxd, -, rfl⟩ := mem_cKeys.1 hc
      obtain ⟨f1, -, -, f4⟩ := h1.fit x hxd
      obtain ⟨j, j1, j2, j3⟩ := mem_slice.1 hf
      obtain ⟨i, i1, i2, i3⟩ := mem_slice.1 (f4 f (f1 f (hx.mem j3) (Or.inl hcf)))
      have := hx.idx i3 j3
      omega
  · intro c
    rw [cKeys_append, List.append_assoc, List.mem_append, h2.memK c]
    have := h1.memK c
    rw [List.mem_append] at this
    rw [← or_assoc, this]
    constructor
    · rintro ((h | h) | h)
      · exact Or.inl h
      · exact Or.inr (h.sub (Nat.le_refl _) hme)
      · exact Or.inr (h.sub ham (Nat.le_refl _))
    · rintro (h | h)
      · exact Or.inl (Or.inl h)
      · rcases h.split (m := m) with h | h
        · exact Or.inl (Or.inr h)
        · exact Or.inr h

/-- More declarations around what was made. -/
theorem Acc.wrap (hx : Ctx A order T L S cAt) {s s1 s2 : LSt} {a e : Nat} {q : List (Nat × Nat)} {rs rs' : List Rng} {as cs : List Nat} (h0 : St A order T S s a)
    (h : Acc A order T S s s1 a e (D q rs)) (hE : Ext A order T q a e rs rs' as cs) (hn : as.Nodup) (ha : ∀ b ∈ as, New A T a e b ∧ S b = q ∧ b ∉ aKeys (D q rs))
    (hp : s2.produced = s1.produced) (hi : s2.info = s1.info) (hc : ∀ (l : LoopId) (b : Nat), b ∈ s2.cands l ↔ b ∈ s1.cands l ∧ b ∉ as)
    (hcn : ∀ l : LoopId, (s2.cands l).Nodup) (hk : s1.consts.Perm (cs ++ s2.consts)) : Acc A order T S s s2 a e (D q rs') := by
  obtain ⟨new, p1, p2, p3, p4⟩ := hE.decls
  refine Acc.perm ?_ p1.symm
  refine ⟨?_, ?_, ?_, ?_, ?_, ?_, ?_⟩
  · refine ⟨hp.trans h.st.produced, ?_, ?_, ?_, ?_, hcn, ?_, ?_⟩
    · rw [hi]; exact h.st.consumed
    · rw [hi]; exact h.st.lstart
    · rw [hi]; exact h.st.lend
    · intro l b hb
      exact h.st.cands l b ((hc l b).1 hb).1
    · intro c hcm
      exact h.st.isConst c (hk.mem_iff.2 (List.mem_append_right _ hcm))
    · exact (List.nodup_append.1 (hk.nodup_iff.1 h.st.nodupK)).2.1
  · rw [aKeys_append, List.nodup_append]
    refine ⟨p2.nodup_iff.2 hn, h.nodupA, ?_⟩
    rintro b hb b' hb' rfl
    exact (ha b (p2.mem_iff.1 hb)).2.2 hb'
  · intro b hb
    rw [aKeys_append, List.mem_append] at hb
    rcases hb with hb | hb
    · exact (ha b (p2.mem_iff.1 hb)).1
    · exact h.memA b hb
  · intro l b
    rw [hc l b, h.cands l b, aKeys_append, List.mem_append, not_or, p2.mem_iff]
    constructor
    · rintro ⟨h1 | ⟨n, hl, hb⟩, h2⟩
      · exact Or.inl h1
      · exact Or.inr ⟨n, hl, h2, hb⟩
    · rintro (h1 | ⟨n, hl, h2, hb⟩)
      · exact ⟨Or.inl h1, fun hb => New.disj hx (h0.cands l b h1).1 (ha b hb).1 (Nat.le_refl _)⟩
      · exact ⟨Or.inr ⟨n, hl, hb⟩, h2⟩
  · intro x hxm
    rcases List.mem_append.1 hxm with hxm | hxm
    · obtain ⟨g1, g2, g3⟩ := p4 x hxm
      refine ⟨g2, ?_, ?_, g3⟩
      · intro hk'
        have : x.b ∈ aKeys new := mem_aKeys.2 ⟨x, hxm, hk', rfl⟩
        rw [g1, (ha x.b (p2.mem_iff.1 this)).2.1]
      · intro hk'
        have : x.b ∈ cKeys new := mem_cKeys.2 ⟨x, hxm, hk', rfl⟩
        exact h.st.isConst x.b (hk.mem_iff.2 (List.mem_append_left _ (p3.mem_iff.1 this)))
    · exact h.fit x hxm
  · have hperm : (cKeys (new ++ D q rs) ++ s2.consts).Perm (cKeys (D q rs) ++ s1.consts) := by
      rw [cKeys_append]
      refine ((List.perm_append_comm.append_right _).trans ?_)
      rw [List.append_assoc]
      exact ((p3.append_right _).trans hk.symm).append_left _
    exact hperm.nodup_iff.2 h.nodupK
  · intro c
    have hperm : (cKeys (new ++ D q rs) ++ s2.consts).Perm (cKeys (D q rs) ++ s1.consts) := by
      rw [cKeys_append]
      refine ((List.perm_append_comm.append_right _).trans ?_)
      rw [List.append_assoc]
      exact ((p3.append_right _).trans hk.symm).append_left _
    rw [hperm.mem_iff, h.memK c]

theorem Acc.produce (hx : Ctx A order T L S cAt) {s : LSt} {e f : Nat} (hs : St A order T S s e) (hf : T[e]? = some f) :
    Acc A order T S s (APipe.produce A cAt order f s).2 e (e + 1) [] := by
  obtain ⟨-, -, h3, h4, h5⟩ := produce_st hx hs hf
  refine ⟨h3, by simp [aKeys], by simp [aKeys], ?_, by simp, by simpa [cKeys] using h3.nodupK, ?_⟩
  · intro l b
    rw [h4 l b]
    simp [aKeys]
  · intro c
    rw [← h5 c]
    simp [cKeys]

mutual
theorem decls_pre : ∀ (m : ANest) (q : List (Nat × Nat)), ∀ x ∈ m.decls q, q <+: x.q
  | .call _, q, x, hx => by simp [ANest.decls] at hx
  | .loop l body, q, x, hx => (List.prefix_append _ _).trans (declsL_pre body (q ++ [l]) x (by simpa [ANest.decls] using hx))
  | .decl k b body, q, x, hx => by
    simp only [ANest.decls, List.mem_cons] at hx
    rcases hx with rfl | hx
    · exact List.prefix_refl _
    · exact declsL_pre body q x hx
theorem declsL_pre : ∀ (ms : List ANest) (q : List (Nat × Nat)), ∀ x ∈ declsL q ms, q <+: x.q
  | [], q, x, hx => by simp [declsL] at hx
  | m :: ms, q, x, hx => by
    simp only [declsL, List.mem_append] at hx
    rcases hx with hx | hx
    · exact decls_pre m q x hx
    · exact declsL_pre ms q x hx
end

theorem slice_length {a e : Nat} (he : e ≤ T.length) : (slice T a e).length = e - a := by
  simp only [slice, List.length_drop, List.length_take]; omega

theorem slice_split {a e : Nat} {X Y : List Nat} (h : slice T a e = X ++ Y) (he : e ≤ T.length) (ha : a ≤ e) :
    a + X.length ≤ e ∧ slice T a (a + X.length) = X ∧ slice T (a + X.length) e = Y := by
  have hl := congrArg List.length h
  rw [slice_length he, List.length_append] at hl
  have hle : a + X.length ≤ e := by omega
  have := slice_append (T := T) (a := a) (m := a + X.length) (e := e) (by omega) hle he
  rw [h] at this
  have hlen : (slice T a (a + X.length)).length = X.length := by rw [slice_length (by omega)]; omega
  obtain ⟨h1, h2⟩ := List.append_inj this hlen
  exact ⟨hle, h1, h2⟩

/-- The calls of a nest. -/
def callsN (ms : List SPipe.Nest) : List Nat := (callsL [] ms).map Prod.snd

theorem callsN_append (a b : List SPipe.Nest) : callsN (a ++ b) = callsN a ++ callsN b := by simp [callsN, SPipe.callsL_append]

theorem callsN_eq (ms : List SPipe.Nest) (q : List (Nat × Nat)) : callsN ms = (callsL q ms).map Prod.snd := callsL_snd ms [] q

theorem Ctx.valid (h : Ctx A order T L S cAt) {f b : Nat} (hf : f ∈ order) (hb : b ∈ A.outputs f) (ho : A.isOut b = false) : Valid A.toS order L (S b) :=
  Or.inr ⟨f, hf, (h.level f hf b hb ho).2.trans (List.prefix_append _ _)⟩

/-- The outermost loop of what was made is around the producers, so it is the next loop for what is stored deeper. -/
theorem deep_of (h : Ctx A order T L S cAt) {P : List (Nat × Nat)} {x : Nat × Nat} {a e : Nat} (hS : ∀ f ∈ slice T a e, P ++ [x] <+: around A.toS L f) {b : Nat}
    (hn : New A T a e b) (hP : P <+: S b) (hne : S b ≠ P) : P ++ [x] <+: S b := by
  obtain ⟨f, hf, hb, ho⟩ := hn
  obtain ⟨i, -, -, hi⟩ := mem_slice.1 hf
  have hfo := h.mem hi
  obtain ⟨r, hr⟩ := hP
  cases r with
  | nil => rw [List.append_nil] at hr; exact absurd hr.symm hne
  | cons y r =>
    have h1 : P ++ [y] <+: S b := ⟨r, by rw [← hr]; simp⟩
    have h2 := (h1.trans (h.level f hfo b hb ho).2).trans (List.prefix_append (L f) (own A.toS f))
    rw [SPipe.next_unique (hS f hf) h2]
    exact h1

/-- What making the loops of a func does. -/
def MkOK (A : APipe) (order T : List Nat) (L S : Nat → List (Nat × Nat)) (mk : Nat → Nat → Option SPipe.Nest) (mkA : Nat → Nat → LSt → Option (Rng × LSt)) : Prop :=
  ∀ k ∈ order, ∀ i v m, mk k i = some m → (A.loops k)[i]? = some v → ∀ (s : LSt) (a e : Nat), St A order T S s a → e ≤ T.length → a ≤ e → slice T a e = callsN [m] →
    ∃ r s', mkA k i s = some (r, s') ∧ ROK A order T r a e ∧ stripL r.body = [m] ∧
      Acc A order T S s s' a e (declsL (L k ++ (own A.toS k).take ((A.loops k).length - 1 - i)) r.body) ∧
      ∀ b, New A T a e b → L k ++ (own A.toS k).take ((A.loops k).length - 1 - i) ++ [(k, v)] <+: S b → b ∈ aKeys (declsL (L k ++ (own A.toS k).take ((A.loops k).length - 1 - i)) r.body)

theorem wrapLoop_spec (h : Ctx A order T L S cAt) {P : List (Nat × Nat)} (hP : Valid A.toS order L P) {s s1 : LSt} {a e : Nat} {r : Rng} (h0 : St A order T S s a) (hr : ROK A order T r a e)
    (hA : Acc A order T S s s1 a e (declsL P r.body)) (hcons : ∀ b, New A T a e b → (s1.info b).consumed = depsCount A order b → ∀ f ∈ order, b ∈ A.inputs f → f ∈ slice T a e) :
    ROK A order T (wrapLoop A order (s.cands (lastId P)) (lastId P) r s1).1 a e ∧ stripL (wrapLoop A order (s.cands (lastId P)) (lastId P) r s1).1.body = stripL r.body ∧
      Acc A order T S s (wrapLoop A order (s.cands (lastId P)) (lastId P) r s1).2 a e (declsL P (wrapLoop A order (s.cands (lastId P)) (lastId P) r s1).1.body) ∧
      ∀ b, b ∈ aKeys (declsL P r.body) → b ∈ aKeys (declsL P (wrapLoop A order (s.cands (lastId P)) (lastId P) r s1).1.body) := by
  unfold wrapLoop
  split
  · dsimp only
    generalize hbs : (s1.cands (lastId P)).filter (fun b => decide (b ∉ s.cands (lastId P) ∧ ¬ copyIn A order b = true ∧ (s1.info b).consumed = depsCount A order b)) = bs
    have hmem : ∀ b ∈ bs, b ∈ s1.cands (lastId P) ∧ New A T a e b ∧ S b = P ∧ b ∉ aKeys (declsL P r.body) ∧ (s1.info b).consumed = depsCount A order b := by
      intro b hb
      rw [← hbs, List.mem_filter, decide_eq_true_eq] at hb
      obtain ⟨h1, h2, -, h4⟩ := hb
      rcases (hA.cands _ b).1 h1 with h5 | ⟨h5, h6, h7⟩
      · exact absurd h5 h2
      · obtain ⟨f, hf, hbf, ho⟩ := id h5
        obtain ⟨i, -, -, hi⟩ := mem_slice.1 hf
        exact ⟨h1, h5, h.lay.level (h.valid (h.mem hi) hbf ho) hP h6, h7, h4⟩
    have hfit : ∀ c ∈ bs, ∀ f ∈ order, c ∈ A.inputs f ∨ c ∈ A.outputs f → f ∈ slice T a e := by
      rintro b hb f hf (hbf | hbf)
      · exact hcons b (hmem b hb).2.1 (hmem b hb).2.2.2.2 f hf hbf
      · obtain ⟨g, hg, hbg, -⟩ := (hmem b hb).2.1
        obtain ⟨i, -, -, hi⟩ := mem_slice.1 hg
        rw [h.producer hf (h.mem hi) hbf hbg]
        exact hg
    have hE := allocAll_spec (q := P) bs r hr hfit
    have hD : ∀ r : Rng, D P [r] = declsL P r.body := fun r => by simp [D]
    have hst := hE.strip
    simp only [strips, List.flatMap_cons, List.flatMap_nil, List.append_nil] at hst
    obtain ⟨new, hnew, hk, -, -⟩ := hE.decls
    rw [hD, hD] at hnew
    have hcn : (s1.cands (lastId P)).Nodup := hA.st.nodupC _
    rw [← hD r] at hA
    have hW := Acc.wrap (s2 := { s1 with cands := fun l => if l = lastId P then (s1.cands l).filter fun b => decide (b ∉ bs) else s1.cands l }) h h0 hA hE (hbs ▸ hcn.filter _)
      (fun b hb => by rw [hD]; exact ⟨(hmem b hb).2.1, (hmem b hb).2.2.1, (hmem b hb).2.2.2.1⟩) rfl rfl (by
        intro l b
        dsimp only
        split
        · simp
        · next hl =>
          refine ⟨fun hb => ⟨hb, fun hc => hl ?_⟩, fun hb => hb.1⟩
          rw [← (hA.st.cands l b hb).2, (hmem b hc).2.2.1]) (by
        intro l
        dsimp only
        split
        · exact (hA.st.nodupC l).filter _
        · exact hA.st.nodupC l) (by simp)
    rw [hD] at hW
    refine ⟨hE.last, hst, hW, ?_⟩
    intro b hb
    rw [(aKeys_perm hnew).mem_iff, aKeys_append]
    exact List.mem_append_right _ hb
  · exact ⟨hr, rfl, hA, fun b hb => hb⟩

theorem chain_one {r : Rng} {a e : Nat} (h : ROK A order T r a e) : Chain A order T a e [r] := ⟨e, h, rfl⟩

/-- What the loop of `build` does. -/
theorem build_spec (h : Ctx A order T L S cAt) (hc : ∀ f ∈ order, cAt f = lastId (L f)) (hr : ∀ f ∈ order, rAt f = lastId (around A.toS L f))
    {mk : Nat → Nat → Option SPipe.Nest} {mkA : Nat → Nat → LSt → Option (Rng × LSt)} (hmk : MkOK A order T L S mk mkA)
    (hNS : ∀ k ∈ order, ∀ i v m, mk k i = some m → (A.loops k)[i]? = some v →
      SPipe.NS A.toS order L (fun f => L k ++ (own A.toS k).take ((A.loops k).length - 1 - i) ++ [(k, v)] <+: around A.toS L f) (L k ++ (own A.toS k).take ((A.loops k).length - 1 - i)) [m])
    {P : List (Nat × Nat)} (hP : Valid A.toS order L P) {it : Nat → List SPipe.Nest}
    (hit : ∀ g ∈ order, (if cAt g = lastId P ∧ A.loops g ≠ [] then (mk g ((A.loops g).length - 1)).map fun s => [s] else if rAt g = lastId P then some [SPipe.Nest.call g] else some []) = some (it g)) :
    ∀ (fs : List Nat), (∀ f ∈ fs, f ∈ order) → ∀ (rs0 : List Rng) (s : LSt) (a e : Nat), St A order T S s a → e ≤ T.length → a ≤ e → slice T a e = callsN (fs.flatMap it) →
    ∃ rs s', fs.foldlM (buildStep A cAt rAt order mkA (lastId P)) (rs0, s) = some (rs0 ++ rs, s') ∧ Chain A order T a e rs ∧ strips rs = fs.flatMap it ∧
      Acc A order T S s s' a e (D P rs) ∧ ∀ b, New A T a e b → P <+: S b → S b ≠ P → b ∈ aKeys (D P rs)
  | [], hfs, rs0, s, a, e, hs, he, hae, hsl => by
    have : a = e := by
      have := congrArg List.length hsl
      rw [slice_length he] at this
      simp [callsN, callsL] at this
      omega
    subst this
    exact ⟨[], s, by simp, rfl, by simp [strips], by simpa [D] using Acc.nil hs, fun b hb => absurd hb New.self⟩
  | g :: fs, hfs, rs0, s, a, e, hs, he, hae, hsl => by
    have hg := hfs g (List.mem_cons_self ..)
    rw [List.flatMap_cons, callsN_append] at hsl
    obtain ⟨hle, hs1, hs2⟩ := slice_split hsl he hae
    generalize hm : a + (callsN (it g)).length = m at hle hs1 hs2
    have ham : a ≤ m := by omega
    -- one func
    have hstep : ∃ rs s', buildStep A cAt rAt order mkA (lastId P) (rs0, s) g = some (rs0 ++ rs, s') ∧ Chain A order T a m rs ∧ strips rs = it g ∧
        Acc A order T S s s' a m (D P rs) ∧ ∀ b, New A T a m b → P <+: S b → S b ≠ P → b ∈ aKeys (D P rs) := by
      have hig := hit g hg
      unfold buildStep
      split at hig
      · next hcond =>
        rw [if_pos hcond]
        simp only [Option.map_eq_some_iff] at hig
        obtain ⟨m1, hm1, hm1'⟩ := hig
        have hlen : 0 < (A.loops g).length := List.length_pos_of_ne_nil hcond.2
        have hv := List.getElem?_eq_getElem (l := A.loops g) (i := (A.loops g).length - 1) (by omega)
        obtain ⟨r, s1, q1, q2, q3, q4, q5⟩ := hmk g hg _ _ m1 hm1 hv s a m hs (by omega) ham (by rw [hs1, ← hm1'])
        have hn := hNS g hg _ _ m1 hm1 hv
        have h0 : (A.loops g).length - 1 - ((A.loops g).length - 1) = 0 := by omega
        have hLP : L g = P := (h.lay.level_L hg hP).1 (by rw [← hc g hg]; exact hcond.1)
        rw [h0, List.take_zero, List.append_nil, hLP] at q4 q5 hn
        have hin : ∀ f ∈ slice T a m, P ++ [(g, (A.loops g)[(A.loops g).length - 1])] <+: around A.toS L f := by
          intro f hf
          rw [hs1, ← hm1', callsN_eq _ P, List.mem_map] at hf
          obtain ⟨c, hc', rfl⟩ := hf
          exact (hn.calls.sound c hc').2.2
        obtain ⟨w1, w2, w3, w4⟩ := wrapLoop_spec h hP hs q2 q4 (by
          intro b hb hcon f hf hbf
          have := (q4.st.consumed' h (by omega) hb).1 hcon f hf hbf
          obtain ⟨i, -, i2, i3⟩ := mem_slice.1 this
          obtain ⟨p, hp, hbp, -⟩ := hb
          obtain ⟨j, j1, j2, j3⟩ := mem_slice.1 hp
          have := h.after j3 i3 hbp hbf
          exact mem_slice.2 ⟨i, by omega, i2, i3⟩)
        refine ⟨[(wrapLoop A order (s.cands (lastId P)) (lastId P) r s1).1], (wrapLoop A order (s.cands (lastId P)) (lastId P) r s1).2, by rw [q1]; rfl, chain_one w1, ?_, ?_, ?_⟩
        · rw [← hm1', ← q3, ← w2]
          simp [strips]
        · simpa [D] using w3
        · intro b hb hPb hne
          have := w4 b (q5 b hb (deep_of h hin hb hPb hne))
          simpa [D] using this
      · next hcond =>
        rw [if_neg hcond]
        split at hig
        · next ha =>
          rw [if_pos ha]
          simp only [Option.some.injEq] at hig
          have hm' : m = a + 1 := by rw [← hm, ← hig]; simp [callsN, callsL, SPipe.Nest.calls]
          have hTa : T[a]? = some g := by
            have : g ∈ slice T a m := by rw [hs1, ← hig]; simp [callsN, callsL, SPipe.Nest.calls]
            obtain ⟨i, i1, i2, i3⟩ := mem_slice.1 this
            rwa [show i = a by omega] at i3
          subst hm'
          obtain ⟨p1, p2, -⟩ := produce_st h hs hTa
          have p3 := Acc.produce h hs hTa
          have hbody : declsL P (produce A cAt order g s).1.body = [] := by rw [p2]; simp [declsL, ANest.decls]
          refine ⟨[(produce A cAt order g s).1], (produce A cAt order g s).2, rfl, chain_one p1, ?_, ?_, ?_⟩
          · rw [← hig]
            simp [strips, p2, stripL, ANest.strip]
          · simpa [D, hbody] using p3
          · intro b ⟨f, hf, hbf, ho⟩ hPb hne
            exfalso
            rw [hs1, ← hig] at hf
            have hfg : f = g := by simpa [callsN, callsL, SPipe.Nest.calls] using hf
            subst hfg
            have haP := (h.lay.level_around hg hP).1 (by rw [← hr f hg]; exact ha)
            have := (h.level f hg b hbf ho).2.trans (List.prefix_append (L f) (own A.toS f))
            rw [← SPipe.around_own, haP] at this
            exact hne (List.IsPrefix.eq_of_length_le this hPb.length_le)
        · next ha =>
          rw [if_neg ha]
          simp only [Option.some.injEq] at hig
          have hm' : m = a := by rw [← hm, ← hig]; simp [callsN, callsL]
          subst hm'
          exact ⟨[], s, by simp, rfl, by simp [strips, ← hig], by simpa [D] using Acc.nil hs, fun b hb => absurd hb New.self⟩
    obtain ⟨rs1, s1, b1, b2, b3, b4, b5⟩ := hstep
    obtain ⟨rs2, s2, c1, c2, c3, c4, c5⟩ := build_spec h hc hr hmk hNS hP hit fs (fun f hf => hfs f (List.mem_cons_of_mem _ hf)) (rs0 ++ rs1) s1 m e b4.st he hle hs2
    refine ⟨rs1 ++ rs2, s2, ?_, b2.append c2, ?_, ?_, ?_⟩
    · rw [List.foldlM_cons, b1]
      simpa [List.append_assoc] using c1
    · rw [strips_append, b3, c3, List.flatMap_cons]
    · rw [D_append]
      exact b4.trans h c4 ham hle
    · intro b hb hPb hne
      rw [D_append, aKeys_append, List.mem_append]
      rcases hb.split (m := m) with hb | hb
      · exact Or.inl (b5 b hb hPb hne)
      · exact Or.inr (c5 b hb hPb hne)

end APipe

end Slinky
