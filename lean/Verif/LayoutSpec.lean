import Verif.LayoutBuild

/-! # C49: every buffer is allocated once, around all of its uses, where the user asked for it -/

namespace Slinky

namespace APipe

open SPipe (around lastId callsL own Valid)

variable {A : APipe} {order T : List Nat} {L : Nat → List (Nat × Nat)} {S : Nat → List (Nat × Nat)} {cAt rAt : Nat → LoopId}

/-- The end of a loop: everything that is stored in it is allocated. -/
theorem layAt_spec (h : Ctx A order T L S cAt) {P : List (Nat × Nat)} (hP : Valid A.toS order L P) {s s1 : LSt} {a e : Nat} {rs : List Rng} (h0 : St A order T S s a)
    (hch : Chain A order T a e rs) (hlt : a < e) (hA : Acc A order T S s s1 a e (D P rs)) (hdeep : ∀ b, New A T a e b → P <+: S b → S b ≠ P → b ∈ aKeys (D P rs))
    (hall : ∀ f ∈ order, P <+: around A.toS L f → f ∈ slice T a e) :
    ∃ r s2, layOut A order (lastId P) rs s1 = some (r, s2) ∧ ROK A order T r a e ∧ stripL r.body = strips rs ∧ Acc A order T S s s2 a e (declsL P r.body) ∧
      ∀ b, New A T a e b → P <+: S b → b ∈ aKeys (declsL P r.body) := by
  have hne : rs ≠ [] := by
    rintro rfl
    simp only [Chain] at hch
    omega
  have he := (hch.length hne).2
  have hc : ∀ b ∈ s1.cands (lastId P), New A T a e b ∧ S b = P ∧ b ∉ aKeys (D P rs) := by
    intro b hb
    have hSP : ∀ {x y : Nat}, New A T x y b → lastId (S b) = lastId P → S b = P := by
      rintro x y ⟨f, hf, hbf, ho⟩ hl
      obtain ⟨i, -, -, hi⟩ := mem_slice.1 hf
      exact h.lay.level (h.valid (h.mem hi) hbf ho) hP hl
    rcases (hA.cands _ b).1 hb with h1 | ⟨n, hl, hb'⟩
    · obtain ⟨n, hl⟩ := h0.cands _ b h1
      have hS := hSP n hl
      exfalso
      obtain ⟨f, hf, hbf, ho⟩ := id n
      obtain ⟨i, -, -, hi⟩ := mem_slice.1 hf
      have := hall f (h.mem hi) (by rw [← hS]; exact (h.level f (h.mem hi) b hbf ho).2.trans (List.prefix_append _ _))
      exact New.disj h n ⟨f, this, hbf, ho⟩ (Nat.le_refl _)
    · exact ⟨n, hSP n hl, hb'⟩
  have huse : ∀ b ∈ s1.cands (lastId P), ∀ g ∈ order, b ∈ A.inputs g → g ∈ slice T a e := by
    intro b hb g hg hbg
    obtain ⟨⟨f, hf, hbf, ho⟩, hS, -⟩ := hc b hb
    obtain ⟨i, -, -, hi⟩ := mem_slice.1 hf
    have hp : f ∈ A.toS.prods g := by
      simp only [toS, List.mem_filterMap]
      exact ⟨b, hbg, h.wf.prod f (h.mem hi) b hbf⟩
    refine hall g hg ?_
    rw [← hS]
    exact (h.level f (h.mem hi) b hbf ho).2.trans (h.lay.encl f (h.mem hi) g hg hp)
  obtain ⟨r, s2, l1, ⟨cs, l2, l3⟩, l4, l5, l6⟩ := layOut_spec (q := P) h.wf (at_ := lastId P) (s := s1) hch hne (by
      intro b hb
      have hu : ∀ f ∈ order, b ∈ A.inputs f → f ∈ slice T 0 e := fun f hf hbf => slice_sub (huse b hb f hf hbf) (Nat.zero_le _) (Nat.le_refl _)
      exact hA.st.iok h (hc b hb).1 ((hA.st.consumed' h he (hc b hb).1).2 hu) hu) (by
      intro b hb
      obtain ⟨f, hf, hbf, ho⟩ := (hc b hb).1
      obtain ⟨i, -, -, hi⟩ := mem_slice.1 hf
      exact ⟨ho, f, h.mem hi, hbf⟩) (hA.st.nodupC _) hA.st.isConst
  have hD : ∀ r : Rng, D P [r] = declsL P r.body := fun r => by simp [D]
  have hW := Acc.wrap (s2 := s2) h h0 hA l2 (hA.st.nodupC _) hc l4 l5 (by
    intro l b
    rw [l6]
    dsimp only
    split
    · next hl => subst hl; simp
    · next hl =>
      refine ⟨fun hb => ⟨hb, fun hcb => hl ?_⟩, fun hb => hb.1⟩
      rw [← (hA.st.cands l b hb).2, (hc b hcb).2.1]) (by
    intro l
    rw [l6]
    dsimp only
    split
    · simp
    · exact hA.st.nodupC l) l3
  rw [hD] at hW
  refine ⟨r, s2, l1, l2.last, ?_, hW, ?_⟩
  · have := l2.strip
    simpa [strips] using this
  · intro b hb hPb
    obtain ⟨new, n1, n2, -, -⟩ := l2.decls
    rw [hD] at n1
    rw [(aKeys_perm n1).mem_iff, aKeys_append, List.mem_append, n2.mem_iff]
    by_cases hS : S b = P
    · by_cases hk : b ∈ aKeys (D P rs)
      · exact Or.inr hk
      · exact Or.inl ((hA.cands _ b).2 (Or.inr ⟨hb, by rw [hS], hk⟩))
    · exact Or.inr (hdeep b hb hPb hS)

theorem calls_mem {P : List (Nat × Nat)} {Q : Nat → Prop} {ms : List SPipe.Nest} (h : SPipe.NS A.toS order L Q P ms) : (∀ f ∈ callsN ms, Q f) ∧ ∀ f ∈ order, Q f → f ∈ callsN ms := by
  rw [callsN_eq ms P]
  refine ⟨?_, ?_⟩
  · intro f hf
    obtain ⟨c, hc, rfl⟩ := List.mem_map.1 hf
    exact (h.calls.sound c hc).2.2
  · intro f hf hQ
    exact List.mem_map.2 ⟨_, h.calls.complete f hf hQ, rfl⟩

theorem makeLoopA_spec (h : Ctx A order T L S cAt) (hc : ∀ f ∈ order, cAt f = lastId (L f)) (hr : ∀ f ∈ order, rAt f = lastId (around A.toS L f)) :
    ∀ n, MkOK A order T L S (SPipe.makeLoop A.toS cAt rAt order n) (makeLoopA A cAt rAt order n)
  | 0 => by
    intro k hk i v m hm
    simp [SPipe.makeLoop] at hm
  | n + 1 => by
    intro k hk i v m hm hv s a e hs he hae hsl
    have hNS := SPipe.makeLoop_NS h.lay hc hr (n + 1) k hk i v m hm hv
    have hi : i < (A.loops k).length := (List.getElem?_eq_some_iff.1 hv).1
    have ho := SPipe.own_get (G := A.toS) hv
    have hv0 : (A.toS.loops k)[i]? = some v := hv
    simp only [SPipe.makeLoop, hv0, Option.bind_eq_bind, Option.bind_some, Option.bind_eq_some_iff] at hm
    obtain ⟨b, hb, hm⟩ := hm
    change SPipe.NS A.toS order L (fun f => L k ++ (own A.toS k).take ((A.loops k).length - 1 - i) ++ [(k, v)] <+: around A.toS L f) (L k ++ (own A.toS k).take ((A.loops k).length - 1 - i)) [m] at hNS
    change (own A.toS k)[(A.loops k).length - 1 - i]? = some (k, v) at ho
    generalize hP0 : L k ++ (own A.toS k).take ((A.loops k).length - 1 - i) = P0 at hNS
    have hP : P0 ++ [(k, v)] = L k ++ (own A.toS k).take ((A.loops k).length - 1 - i + 1) := by
      rw [List.take_add_one, ho, ← hP0]
      simp
    have hpre : P0 ++ [(k, v)] <+: around A.toS L k := by rw [hP, SPipe.around_own]; exact (List.prefix_append_right_inj _).2 (List.take_prefix _ _)
    have hval : Valid A.toS order L (P0 ++ [(k, v)]) := Or.inr ⟨k, hk, hpre⟩
    have hlast : lastId (P0 ++ [(k, v)]) = some (k, v) := by simp [lastId]
    obtain ⟨hsnd, hcmp⟩ := calls_mem hNS
    rw [← hsl] at hsnd hcmp
    have hlt : a < e := by
      obtain ⟨j, j1, j2, -⟩ := mem_slice.1 (hcmp k hk hpre)
      omega
    obtain ⟨it, hbit, hit⟩ := SPipe.buildAt_items hb
    rw [← hlast] at hit
    -- the loop is a loop around its body
    have main : ∀ (rs : List Rng) (s1 : LSt), Chain A order T a e rs → Acc A order T S s s1 a e (D (P0 ++ [(k, v)]) rs) → m = .loop (k, v) (strips rs) →
        (∀ b, New A T a e b → P0 ++ [(k, v)] <+: S b → S b ≠ P0 ++ [(k, v)] → b ∈ aKeys (D (P0 ++ [(k, v)]) rs)) →
        ∃ r s', ((layOut A order (some (k, v)) rs s1).bind fun x => some ({ x.1 with body := [.loop (k, v) x.1.body] }, x.2)) = some (r, s') ∧ ROK A order T r a e ∧ stripL r.body = [m] ∧
          Acc A order T S s s' a e (declsL P0 r.body) ∧ ∀ b, New A T a e b → P0 ++ [(k, v)] <+: S b → b ∈ aKeys (declsL P0 r.body) := by
      intro rs s1 hch hA hms hdeep
      obtain ⟨r, s2, l1, l2, l3, l4, l5⟩ := layAt_spec h hval hs hch hlt hA hdeep hcmp
      rw [hlast] at l1
      have hd : declsL P0 [.loop (k, v) r.body] = declsL (P0 ++ [(k, v)]) r.body := by simp [declsL, ANest.decls]
      refine ⟨{ r with body := [.loop (k, v) r.body] }, s2, by rw [l1]; rfl, ⟨l2.start, l2.stop, l2.lt, l2.le, ?_, l2.allocs⟩, ?_, ?_, ?_⟩
      · rw [callsA_loop, l2.calls]
      · simp [stripL, ANest.strip, l3, hms]
      · rw [hd]; exact l4
      · rw [hd]; exact l5
    have hNS' : ∀ k ∈ order, ∀ i v m, SPipe.makeLoop A.toS cAt rAt order n k i = some m → (A.loops k)[i]? = some v →
      SPipe.NS A.toS order L (fun f => L k ++ (own A.toS k).take ((A.loops k).length - 1 - i) ++ [(k, v)] <+: around A.toS L f) (L k ++ (own A.toS k).take ((A.loops k).length - 1 - i)) [m] :=
      SPipe.makeLoop_NS h.lay hc hr n
    have hB := build_spec h hc hr (makeLoopA_spec h hc hr n) hNS' hval hit order.reverse (fun f hf => List.mem_reverse.1 hf) []
    have hmcalls : ∀ body, m = .loop (k, v) body → callsN [m] = callsN body := by
      intro body hbody
      rw [hbody]
      simp only [callsN, callsL, SPipe.Nest.calls, List.append_nil]
      exact callsL_snd _ _ _
    split at hm
    · next hi0 =>
      simp only [Option.some.injEq] at hm
      obtain ⟨rs, s1, b1, b2, b3, b4, b5⟩ := hB s a e hs he hae (by rw [hsl, hmcalls b hm.symm, hbit])
      rw [hlast] at b1
      simp only [makeLoopA, hv, Option.bind_eq_bind, Option.bind_some, buildA, b1, if_pos hi0, List.nil_append]
      exact main rs s1 b2 b4 (by rw [b3, ← hbit, hm]) b5
    · next hi0 =>
      simp only [Option.bind_eq_some_iff, Option.some.injEq] at hm
      obtain ⟨inner, hin, hm⟩ := hm
      have hv' := List.getElem?_eq_getElem (l := A.loops k) (i := i - 1) (by omega)
      have hNSi := hNS' k hk (i - 1) _ inner hin hv'
      have hmi := makeLoopA_spec h hc hr n k hk (i - 1) _ inner hin hv'
      have hei : (A.loops k).length - 1 - (i - 1) = (A.loops k).length - 1 - i + 1 := by omega
      rw [hei, ← hP] at hNSi hmi
      have hsl' := hsl
      rw [hmcalls _ hm.symm, callsN_append] at hsl'
      obtain ⟨hle, hs1, hs2⟩ := slice_split hsl' he hae
      generalize hmm : a + (callsN b).length = m1 at hle hs1 hs2
      have ham : a ≤ m1 := by omega
      obtain ⟨rs, s1, b1, b2, b3, b4, b5⟩ := hB s a m1 hs (by omega) ham (by rw [hs1, hbit])
      obtain ⟨r2, s2, c1, c2, c3, c4, c5⟩ := hmi s1 m1 e b4.st he hle hs2
      rw [hlast] at b1
      simp only [makeLoopA, hv, Option.bind_eq_bind, Option.bind_some, buildA, b1, if_neg hi0, List.nil_append, c1, Option.map_some]
      have hD : D (P0 ++ [(k, v)]) (rs ++ [r2]) = D (P0 ++ [(k, v)]) rs ++ declsL (P0 ++ [(k, v)]) r2.body := by simp [D]
      refine main (rs ++ [r2]) s2 (b2.append (chain_one c2)) (by rw [hD]; exact b4.trans h c4 ham hle) ?_ ?_
      · rw [strips_append, b3, ← hbit, ← hm]
        simp [strips, c3]
      · intro x hx hPx hne
        rw [hD, aKeys_append, List.mem_append]
        rcases hx.split (m := m1) with hx | hx
        · exact Or.inl (b5 x hx hPx hne)
        · refine Or.inr (c5 x hx (deep_of h ?_ hx hPx hne))
          intro f hf
          rw [hs2] at hf
          exact (calls_mem hNSi).1 f hf

/-! ### The specification -/

/-- Where the allocations of a pipeline are. -/
structure LayoutOK (A : APipe) (order : List Nat) (L : Nat → List (Nat × Nat)) (ms : List ANest) : Prop where
  /-- Every buffer that is computed and is not an output of the pipeline is allocated at one place, and nothing else is. -/
  allocs : (aKeys (declsL [] ms)).Perm ((order.flatMap A.outputs).filter fun b => !A.isOut b)
  /-- Every constant that is used is declared at one place, and nothing else is. -/
  consts : (cKeys (declsL [] ms)).Nodup ∧ ∀ c, c ∈ cKeys (declsL [] ms) ↔ A.const c = true ∧ ∃ f ∈ order, c ∈ A.inputs f
  /-- All calls that use or produce it are in the scope. -/
  scope : ∀ x ∈ declsL [] ms, Fit A order x
  /-- The allocation is in loops that are around the place where the buffer is computed. -/
  around : ∀ x ∈ declsL [] ms, x.k = false → ∀ f ∈ order, x.b ∈ A.outputs f → x.q <+: L f
  /-- The allocation is in the loop that the user asked for. -/
  asked : ∀ x ∈ declsL [] ms, x.k = false → ∀ f ∈ order, x.b ∈ A.outputs f → match A.storeAt x.b with
    | none => x.q = []
    | some .innermost => x.q = L f
    | some (.at l) => lastId x.q = l

/-- The user asks to store a buffer in a loop that is around the place where it is computed. -/
def StoreOK (A : APipe) (order : List Nat) (L : Nat → List (Nat × Nat)) : Prop :=
  ∀ f ∈ order, ∀ b ∈ A.outputs f, A.isOut b = false → ∀ l, A.storeAt b = some (.at l) → ∃ q, q <+: L f ∧ lastId q = l

mutual
/-- With one iteration of every loop, the calls are made in the order of the text. -/
theorem exec_one (m : SPipe.Nest) (it : List Nat) (q : List (Nat × Nat)) (hz : ∀ x ∈ it, x = 0) :
    (m.exec (fun _ _ => 1) it).map Prod.fst = (m.calls q).map Prod.snd ∧ ∀ c ∈ m.exec (fun _ _ => 1) it, ∀ x ∈ c.2, x = 0 := by
  match m with
  | .call f => simpa [SPipe.Nest.exec, SPipe.Nest.calls] using hz
  | .loop l body =>
    simp only [SPipe.Nest.exec, SPipe.Nest.calls, List.range_one, List.flatMap_cons, List.flatMap_nil, List.append_nil]
    exact execL_one body (it ++ [0]) (q ++ [l]) (by
      intro x hx
      rcases List.mem_append.1 hx with hx | hx
      · exact hz x hx
      · simpa using hx)
theorem execL_one (ms : List SPipe.Nest) (it : List Nat) (q : List (Nat × Nat)) (hz : ∀ x ∈ it, x = 0) :
    (SPipe.execL (fun _ _ => 1) it ms).map Prod.fst = (callsL q ms).map Prod.snd ∧ ∀ c ∈ SPipe.execL (fun _ _ => 1) it ms, ∀ x ∈ c.2, x = 0 := by
  match ms with
  | [] => simp [SPipe.execL, callsL]
  | m :: ms =>
    obtain ⟨a1, a2⟩ := exec_one m it q hz
    obtain ⟨b1, b2⟩ := execL_one ms it q hz
    refine ⟨by simp [SPipe.execL, callsL, a1, b1], ?_⟩
    intro c hc
    simp only [SPipe.execL, List.mem_append] at hc
    exact hc.elim (a2 c) (b2 c)
end

mutual
theorem exec_len (m : SPipe.Nest) (it : List Nat) (q : List (Nat × Nat)) (hl : it.length = q.length) :
    (m.exec (fun _ _ => 1) it).map (fun c => (c.1, c.2.length)) = (m.calls q).map fun c => (c.2, c.1.length) := by
  match m with
  | .call f => simp [SPipe.Nest.exec, SPipe.Nest.calls, hl]
  | .loop l body =>
    simp only [SPipe.Nest.exec, SPipe.Nest.calls, List.range_one, List.flatMap_cons, List.flatMap_nil, List.append_nil]
    exact execL_len body (it ++ [0]) (q ++ [l]) (by simp [hl])
theorem execL_len (ms : List SPipe.Nest) (it : List Nat) (q : List (Nat × Nat)) (hl : it.length = q.length) :
    (SPipe.execL (fun _ _ => 1) it ms).map (fun c => (c.1, c.2.length)) = (callsL q ms).map fun c => (c.2, c.1.length) := by
  match ms with
  | [] => simp [SPipe.execL, callsL]
  | m :: ms => simp [SPipe.execL, callsL, exec_len m it q hl, execL_len ms it q hl]
end

/-- A producer is before its consumers in the text. -/
theorem first_of (hlay : SPipe.Lay A.toS order L) {b : List SPipe.Nest} (hb : SPipe.NestOK A.toS order L b) : (callsN b).Pairwise fun f p => p ∉ A.toS.prods f := by
  have h1 := hb.inTime fun _ _ => 1
  obtain ⟨e1, e2⟩ := execL_one b [] [] (by simp)
  have e3 := execL_len b [] [] rfl
  rw [callsN, ← e1, List.pairwise_map]
  refine h1.imp_of_mem ?_
  intro c c' hc hc' hin hp
  refine hin hp ?_
  have key : ∀ c ∈ SPipe.execL (fun _ _ => 1) [] b, c.1 ∈ order ∧ c.2.length = (around A.toS L c.1).length := by
    intro c hc
    have : (c.1, c.2.length) ∈ (SPipe.execL (fun _ _ => 1) [] b).map fun c => (c.1, c.2.length) := List.mem_map.2 ⟨c, hc, rfl⟩
    rw [e3, List.mem_map] at this
    obtain ⟨d, hd, hd'⟩ := this
    simp only [Prod.mk.injEq] at hd'
    have hl := hb.loops d hd
    refine ⟨?_, by rw [← hd'.2, hl, hd'.1]⟩
    rw [← hd'.1]
    exact hb.once.mem_iff.1 (List.mem_map.2 ⟨d, hd, rfl⟩)
  obtain ⟨o1, l1⟩ := key c hc
  obtain ⟨o2, l2⟩ := key c' hc'
  have hle : (L c'.1).length ≤ c.2.length := by rw [l1]; exact (hlay.encl _ o2 _ o1 hp).length_le
  have hle' : (L c'.1).length ≤ c'.2.length := by rw [l2, SPipe.around_own, List.length_append]; omega
  have z1 : c.2 = List.replicate c.2.length 0 := List.eq_replicate_iff.2 ⟨rfl, e2 c hc⟩
  have z2 : c'.2 = List.replicate c'.2.length 0 := List.eq_replicate_iff.2 ⟨rfl, e2 c' hc'⟩
  rw [z1, z2, List.take_replicate, List.take_replicate, Nat.min_eq_left hle, Nat.min_eq_left hle']

/-- The declarations of a nest, and the loops and calls. -/
theorem makeRootA_spec (h : Ctx A order T L S cAt) (hc : ∀ f ∈ order, cAt f = lastId (L f)) (hr : ∀ f ∈ order, rAt f = lastId (around A.toS L f)) {n : Nat} {b : List SPipe.Nest}
    (hb : SPipe.buildNest A.toS cAt rAt order n = some b) (hT : T = callsN b) (hne : order ≠ []) :
    ∃ r s, makeRootA A cAt rAt order n initA = some (r, s) ∧ ROK A order T r 0 T.length ∧ stripL r.body = b ∧ Acc A order T S initA s 0 T.length (declsL [] r.body) ∧
      ∀ b, New A T 0 T.length b → b ∈ aKeys (declsL [] r.body) := by
  obtain ⟨it, hbit, hit⟩ := SPipe.buildAt_items hb
  have hfull : slice T 0 T.length = T := by simp [slice]
  have hall : ∀ f ∈ order, ([] : List (Nat × Nat)) <+: around A.toS L f → f ∈ slice T 0 T.length := by
    intro f hf _
    rw [hfull]
    exact h.perm.mem_iff.2 hf
  have hlt : 0 < T.length := by
    rw [h.perm.length_eq]
    exact List.length_pos_of_ne_nil hne
  obtain ⟨rs, s1, b1, b2, b3, b4, b5⟩ := build_spec h hc hr (makeLoopA_spec h hc hr n) (SPipe.makeLoop_NS h.lay hc hr n) (P := []) (Or.inl rfl) hit order.reverse
    (fun f hf => List.mem_reverse.1 hf) [] initA 0 T.length st_init (Nat.le_refl _) (Nat.zero_le _) (by rw [hfull, hT, hbit])
  obtain ⟨r, s2, l1, l2, l3, l4, l5⟩ := layAt_spec h (P := []) (Or.inl rfl) st_init b2 hlt b4 b5 hall
  refine ⟨r, s2, ?_, l2, by rw [l3, b3, hbit], l4, fun x hx => l5 x hx List.nil_prefix⟩
  have b1' : order.reverse.foldlM (buildStep A cAt rAt order (makeLoopA A cAt rAt order n) none) ([], initA) = some (rs, s1) := by simpa [lastId] using b1
  simp only [makeRootA, buildA, b1', Option.bind_eq_bind, Option.bind_some]
  exact l1

/-- The rest of the constants go around everything. -/
theorem finish_spec (h : Ctx A order T L S cAt) (hc : ∀ f ∈ order, cAt f = lastId (L f)) {r : Rng} {s : LSt} (h1 : ROK A order T r 0 T.length) (h2 : Acc A order T S initA s 0 T.length (declsL [] r.body))
    (h3 : ∀ b, New A T 0 T.length b → b ∈ aKeys (declsL [] r.body)) : stripL (finish (r, s)) = stripL r.body ∧ LayoutOK A order L (finish (r, s)) := by
  have hfull : slice T 0 T.length = T := by simp [slice]
  have hE := constAll_spec (q := []) s.consts r h1 (by
    intro c _ f hf _
    rw [hfull]
    exact h.perm.mem_iff.2 hf)
  have hD : ∀ r : Rng, D [] [r] = declsL [] r.body := fun r => by simp [D]
  have hW := Acc.wrap (s1 := s) (s2 := { s with consts := [] }) h st_init (by rw [hD]; exact h2) hE (by simp) (by simp) rfl rfl (by simp) h2.st.nodupC (by simp)
  rw [hD] at hW
  have hst := hE.strip
  simp only [strips, List.flatMap_cons, List.flatMap_nil, List.append_nil] at hst
  refine ⟨hst, ?_⟩
  have hnew : ∀ b, New A T 0 T.length b ↔ b ∈ (order.flatMap A.outputs).filter fun b => !A.isOut b := by
    intro b
    rw [List.mem_filter, List.mem_flatMap]
    constructor
    · rintro ⟨f, hf, hb, ho⟩
      rw [hfull] at hf
      exact ⟨⟨f, h.perm.mem_iff.1 hf, hb⟩, by simp [ho]⟩
    · rintro ⟨⟨f, hf, hb⟩, ho⟩
      exact ⟨f, by rw [hfull]; exact h.perm.mem_iff.2 hf, hb, by simpa using ho⟩
  obtain ⟨new, p1, p2, -, -⟩ := hE.decls
  rw [hD, hD] at p1
  unfold finish
  refine ⟨?_, ⟨?_, ?_⟩, fun x hx => (hW.fit x hx).1, ?_, ?_⟩
  · refine (List.perm_ext_iff_of_nodup hW.nodupA (h.wf.outs.filter _)).2 fun b => ?_
    rw [← hnew]
    refine ⟨hW.memA b, fun hb => ?_⟩
    rw [(aKeys_perm p1).mem_iff, aKeys_append]
    exact List.mem_append_right _ (h3 b hb)
  · simpa using hW.nodupK
  · intro c
    have := hW.memK c
    simp only [List.append_nil, initA, List.not_mem_nil, false_or] at this
    rw [this]
    constructor
    · rintro ⟨f, hf, hc, hk⟩
      rw [hfull] at hf
      exact ⟨hk, f, h.perm.mem_iff.1 hf, hc⟩
    · rintro ⟨hk, f, hf, hc⟩
      exact ⟨f, by rw [hfull]; exact h.perm.mem_iff.2 hf, hc, hk⟩
  · intro x hx hk f hf hb
    obtain ⟨f1, f2, -⟩ := hW.fit x hx
    rw [f2 hk]
    obtain ⟨-, -, -, ho⟩ := hW.memA x.b (mem_aKeys.2 ⟨x, hx, hk, rfl⟩)
    exact (h.level f hf x.b hb ho).2
  · intro x hx hk f hf hb
    obtain ⟨f1, f2, -⟩ := hW.fit x hx
    obtain ⟨-, -, -, ho⟩ := hW.memA x.b (mem_aKeys.2 ⟨x, hx, hk, rfl⟩)
    obtain ⟨l1, l2⟩ := h.level f hf x.b hb ho
    rw [f2 hk]
    unfold levelOf at l1
    split at l1 <;> rename_i hsa <;> rw [hsa]
    · exact (List.getLast?_eq_none_iff).1 l1
    · exact h.lay.level (h.valid hf hb ho) (Or.inr ⟨f, hf, List.prefix_append _ _⟩) (by rw [l1]; exact hc f hf)
    · exact l1

/-- C49. The placement of allocations, for the locations that were found: every buffer is allocated once, around all calls that use it, where the user asked for it; every
constant is declared once, around all calls that use it; and the loops and calls are those of the schedule. -/
theorem layout_spec (ho : SPipe.OrderOK A.toS order) (hs : SPipe.ScheduleOK A.toS order L) (hl : ∀ f ∈ order, (A.loops f).Nodup) (hw : WF A order) (hst : StoreOK A order L)
    (hc : ∀ f ∈ order, cAt f = lastId (L f)) (hr : ∀ f ∈ order, rAt f = lastId (around A.toS L f)) {n : Nat} {b : List SPipe.Nest} (hb : SPipe.buildNest A.toS cAt rAt order n = some b)
    (hne : order ≠ []) : ∃ r, makeRootA A cAt rAt order n initA = some r ∧ stripL (finish r) = b ∧ LayoutOK A order L (finish r) := by
  have hN := SPipe.buildNest_spec ho hs hl hc hr hb
  have hlay := hs.lay ho hl
  have hS : ∀ b, ∃ q, ∀ f ∈ order, b ∈ A.outputs f → A.isOut b = false → lastId q = levelOf A cAt f b ∧ q <+: L f := by
    intro b
    by_cases hex : ∃ f ∈ order, b ∈ A.outputs f ∧ A.isOut b = false
    · obtain ⟨f, hf, hbf, hob⟩ := hex
      have hq : ∃ q, lastId q = levelOf A cAt f b ∧ q <+: L f := by
        unfold levelOf
        split
        · exact ⟨[], rfl, List.nil_prefix⟩
        · exact ⟨L f, (hc f hf).symm, List.prefix_refl _⟩
        · next l hsl =>
          obtain ⟨q, h1, h2⟩ := hst f hf b hbf hob l hsl
          exact ⟨q, h2, h1⟩
      obtain ⟨q, h1, h2⟩ := hq
      refine ⟨q, fun g hg hbg _ => ?_⟩
      have : f = g := by
        have := hw.prod f hf b hbf
        rw [hw.prod g hg b hbg] at this
        exact (Option.some.inj this).symm
      subst this
      exact ⟨h1, h2⟩
    · exact ⟨[], fun f hf hbf hob => absurd ⟨f, hf, hbf, hob⟩ hex⟩
  choose S hS using hS
  have hx : Ctx A order (callsN b) L S cAt := ⟨hw, hlay, hN.once, first_of hlay hN, fun f hf b hb ho => hS b f hf hb ho⟩
  obtain ⟨r, s, r1, r2, r3, r4, r5⟩ := makeRootA_spec hx hc hr hb rfl hne
  obtain ⟨f1, f2⟩ := finish_spec hx hc r2 r4 r5
  exact ⟨(r, s), r1, f1.trans r3, f2⟩

/-- C49. The statement of a pipeline. If the builder has a schedule, it makes a statement with the loops and calls of the schedule, and with all allocations and constants. -/
theorem buildPipeline_spec {n : Nat} {s : SPipe.Locs} {b : List SPipe.Nest} (h : SPipe.schedule A.toS n = some (order, s, b)) (hl : ∀ f, SPipe.Needed A.toS f → (A.loops f).Nodup)
    (hw : WF A order) (hne : order ≠ []) : ∃ L, SPipe.ScheduleOK A.toS order L ∧ SPipe.NestOK A.toS order L b ∧
      (StoreOK A order L → ∃ ms, buildPipeline A n = some ms ∧ stripL ms = b ∧ LayoutOK A order L ms) := by
  obtain ⟨ho, L, hs, hc, hr, hN⟩ := SPipe.schedule_spec h hl
  refine ⟨L, hs, hN, fun hst => ?_⟩
  unfold SPipe.schedule at h
  simp only [Option.bind_eq_bind, Option.bind_eq_some_iff, Option.some.injEq] at h
  obtain ⟨⟨order', deps⟩, h1, s', h2, b', h3, h4⟩ := h
  simp only [Prod.mk.injEq] at h4
  obtain ⟨rfl, rfl, rfl⟩ := h4
  obtain ⟨r, r1, r2, r3⟩ := layout_spec ho hs (fun f hf => hl f ((ho.mem f).1 hf)) hw hst hc hr h3 hne
  refine ⟨finish r, ?_, r2, r3⟩
  simp [buildPipeline, h1, h2, r1]

end APipe

end Slinky
