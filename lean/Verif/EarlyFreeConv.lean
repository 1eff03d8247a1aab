import Verif.EarlyFreeProof

/-!
# No execution is lost by `insert_early_free`
-/

namespace Slinky

theorem terminal_conv {x h : Nat} {v : Bool} {s : Stmt} {ρ : HEnv} {tr : List HEv} {ok : Bool} (hb : s.BufOK)
    (hr : Runs s ρ tr ok) (ho : (ρ x).obj = some h) : ∃ tr', Runs (efTerminal [x] false v s).s ρ tr' ok ∧ (tr' = tr ∨ (s.Mem x ∧ Ins h tr tr')) := by
  unfold efTerminal
  split
  · next hd =>
    split
    · simp only [runs_blockMake, List.headD_cons]
      cases ok with
      | false => exact ⟨tr, .inl ⟨rfl, hr⟩, .inl rfl⟩
      | true =>
        refine ⟨tr ++ [.free h], .inr ⟨tr, [.free h], rfl, hr, ?_⟩, .inr ⟨?_, tr, [], by simp, rfl, by simp⟩⟩
        · exact (runsL_single _ ρ _ true).mpr ((runs_checkFree ho).mpr ⟨rfl, rfl⟩)
        · simp only [Bool.not_false, List.any_cons, List.any_nil, Bool.or_false, Bool.true_and] at hd
          unfold anyDep at hd
          cases hl : dependsOnS s x with
          | nil => rw [hl] at hd; cases hd
          | cons p ps => exact ⟨p, (dependsOnS_flags s hb x p).mp (by rw [hl]; simp)⟩
    · exact ⟨tr, hr, .inl rfl⟩
  · exact ⟨tr, hr, .inl rfl⟩

theorem Ins.merge' {h : Nat} {a a' b c : List HEv} (hb : .use h ∉ b) (hi : Ins h a a') (hm : HMerge a b c) : ∃ c', HMerge a' b c' ∧ Ins h c c' := by
  obtain ⟨a1, a2, rfl, rfl, ha⟩ := hi
  obtain ⟨p, q, rfl, h1⟩ := hm.insert (.free h)
  have key : ∀ {a1 b p q : List HEv}, .use h ∉ b → .use h ∉ a2 → HMerge (a1 ++ a2) b (p ++ q) → ∃ p' q', p ++ q = p' ++ q' ∧ HMerge (a1 ++ .free h :: a2) b (p' ++ .free h :: q') ∧
      HEv.use h ∉ q' := by
    intro a1
    induction a1 with
    | nil =>
      intro b p q hb ha hm
      refine ⟨[], p ++ q, rfl, .left _ hm, ?_⟩
      intro hq
      rcases (hm.mem _).mp hq with hq | hq
      · exact ha hq
      · exact hb hq
    | cons e a1 ih =>
      intro b p q hb ha hm
      generalize hc : p ++ q = c at hm
      generalize hl : e :: a1 ++ a2 = l at hm
      clear hc
      induction hm with
      | nil => cases hl
      | left f hm _ =>
        cases hl
        obtain ⟨p', q', h1, h2, h3⟩ := ih (p := []) hb ha hm
        simp only [List.nil_append] at h1
        exact ⟨e :: p', q', by rw [h1]; rfl, .left _ h2, h3⟩
      | right f hm ih2 =>
        obtain ⟨p', q', h1, h2, h3⟩ := ih2 (fun h' => hb (by simp [h'])) hl
        exact ⟨f :: p', q', by rw [h1]; rfl, .right _ h2, h3⟩
  obtain ⟨p', q', h2, h3, h4⟩ := key hb ha hm
  exact ⟨_, h3, p', q', h2, rfl, h4⟩

/-- Executions before `insert_free_into_allocate` are executions after, with a `free` of the allocation that may be added. -/
theorem efMut_conv (x h : Nat) :
    (∀ (s : Stmt) (v : Bool) (ρ : HEnv) (tr : List HEv) (ok : Bool), s.BufOK → s.OneUser x → Runs s ρ tr ok →
      (ρ x).obj = some h → (∀ y, (ρ y).owns h → y = x) → .alloc h ∉ tr → ∃ tr', Runs (efMut [x] false v s).s ρ tr' ok ∧ (tr' = tr ∨ (s.Mem x ∧ Ins h tr tr'))) ∧
    (∀ (ss : Stmts) (v : Bool) (ρ : HEnv) (tr : List HEv) (ok : Bool), ss.BufOK → ss.OneUser x → RunsL ss ρ tr ok →
      (ρ x).obj = some h → (∀ y, (ρ y).owns h → y = x) → .alloc h ∉ tr →
      ∃ tr', RunsL (.ofList (efMuts [x] false v ss).ss) ρ tr' ok ∧ (tr' = tr ∨ ((∃ p : Dep, ss.Uses (some p) x) ∧ Ins h tr tr'))) := by
  apply Stmt.shape
  case undef => intro v ρ tr' ok _ _ hr _ _ _; exact ⟨tr', hr, .inl rfl⟩
  case call => intro t i o xs v ρ tr ok hb _ hr ho _ _; simp only [efMut]; exact terminal_conv hb hr ho
  case copy => intro t i o xs _ _ v ρ tr ok hb _ hr ho _ _; simp only [efMut]; exact terminal_conv hb hr ho
  case check => intro c v ρ tr ok hb _ hr ho _ _; simp only [efMut]; exact terminal_conv hb hr ho
  case lets => intro bs s cl _ v ρ tr ok hb _ hr ho _ _; simp only [efMut]; exact terminal_conv hb hr ho
  case loop => intro y wk b st s _ v ρ tr ok hb _ hr ho _ _; simp only [efMut]; exact terminal_conv hb hr ho
  case block =>
    intro ss ih v ρ tr ok hb hu hr ho hw ha
    simp only [efMut]
    split
    · simp only [runs_blockMake]
      exact ih v ρ tr ok hb hu hr ho hw ha
    · exact ⟨tr, hr, .inl rfl⟩
  case allocate =>
    intro z k e ds s ih v ρ tr ok hb hu hr ho hw ha
    simp only [efMut]
    rcases hr with ⟨rfl, hk⟩ | ⟨k, t, h1, rfl⟩
    · exact ⟨[], .inl ⟨rfl, hk⟩, .inl rfl⟩
    · simp only [List.mem_cons, List.mem_append, not_or] at ha
      have hk : k ≠ h := fun hk => ha.1 (by rw [hk])
      obtain ⟨t', h2, h3⟩ := ih v _ _ _ hb.2.2 hu.2 h1 (by rw [HEnv.set_other _ (Ne.symm hu.1)]; exact ho) (by
        intro y hy
        by_cases hyz : y = z
        · subst hyz; rw [HEnv.set_same] at hy; exact (hk hy.symm).elim
        · rw [HEnv.set_other _ hyz] at hy; exact hw y hy) ha.2.1
      refine ⟨.alloc k :: (t' ++ closing k t'), .inr ⟨k, t', h2, rfl⟩, ?_⟩
      rcases h3 with rfl | ⟨⟨p, hp⟩, h3⟩
      · exact .inl rfl
      · rw [closing_congr hk h3]
        exact .inr ⟨⟨p, .inr (.inr ⟨Ne.symm hu.1, hp⟩)⟩, (h3.right (by unfold closing; split <;> simp)).left [.alloc k]⟩
  case const =>
    intro z b s ih v ρ tr ok hb hu hr ho hw ha
    simp only [efMut]
    obtain ⟨t, h2, h3⟩ := ih v _ _ _ hb hu.2 hr (by rw [HEnv.set_other _ (Ne.symm hu.1)]; exact ho) (by
        intro y hy
        by_cases hyz : y = z
        · subst hyz; rw [HEnv.set_same] at hy; exact hy.elim
        · rw [HEnv.set_other _ hyz] at hy; exact hw y hy) ha
    exact ⟨t, h2, h3.imp id (fun ⟨⟨p, hp⟩, h⟩ => ⟨⟨p, Ne.symm hu.1, hp⟩, h⟩)⟩
  case bnd =>
    intro b s ih v ρ tr ok hb hu hr ho hw ha
    rcases efMut_plug1 x false v b s with he | ⟨_, hs, hd, he, _⟩
    · rw [he]; exact ⟨tr, hr, .inl rfl⟩
    · rw [he]
      rw [runs_plug] at hr
      rw [bufOK_plug] at hb
      rw [oneUser_plug] at hu
      obtain ⟨t, h2, h3⟩ := ih v _ _ _ hb.2 hu hr (by rw [HEnv.set_other _ (Ne.symm hs)]; exact ho) (by
          intro y hy
          by_cases hyz : y = b.sym
          · subst hyz; rw [HEnv.set_same] at hy
            obtain ⟨z, hz, h4⟩ := hy
            rw [hw z h4] at hz
            rw [from_dep hb.1 hz] at hd; cases hd
          · rw [HEnv.set_other _ hyz] at hy; exact hw y hy) ha
      refine ⟨t, (runs_plug ..).mpr h2, h3.imp id (fun ⟨⟨p, hp⟩, h⟩ => ⟨⟨p, ?_⟩, h⟩)⟩
      exact (uses_plug ..).mpr (.inr (.inl ⟨Ne.symm hs, hp⟩))
  case async =>
    intro z t s ih1 ih2 v ρ tr ok hb hu hr ho hw ha
    simp only [efMut]
    rw [runs_async] at hr
    obtain ⟨rfl, hb1, hb2⟩ := hb
    obtain ⟨a, b, oa, ob, hm1, hok, h1, h2⟩ := hr
    have haa : .alloc h ∉ a := fun h' => ha ((hm1.mem _).mpr (.inl h'))
    have hab : .alloc h ∉ b := fun h' => ha ((hm1.mem _).mpr (.inr h'))
    simp only [HEnv.setOpt] at h1 h2
    cases ht : (efMut [x] false v t).found with
    | true =>
      rw [efMut_found.1]
      obtain ⟨a0, h3, h4⟩ := ih1 v _ _ _ hb1 hu.2.1 h1 ho hw haa
      rcases h4 with rfl | ⟨hmx, h4⟩
      · exact ⟨tr, (runs_async ..).mpr ⟨_, b, oa, ob, hm1, hok, h3, h2⟩, .inl rfl⟩
      · have hub : .use h ∉ b := by
          intro hm
          rcases runs_use.1 _ _ _ _ h2 _ hm with h5 | ⟨y, h5, h6⟩
          · exact hab h5
          · rw [hw y h5] at h6; exact hu.1 ⟨hmx, h6⟩
        obtain ⟨c, h5, h6⟩ := h4.merge' hub hm1
        obtain ⟨p, hp⟩ := hmx
        exact ⟨c, (runs_async ..).mpr ⟨a0, b, oa, ob, h5, hok, h3, h2⟩, .inr ⟨⟨p, by simp, .inl hp⟩, h6⟩⟩
    | false =>
      rw [efMut_notFound ht]
      have hua := (efMut_noUse x h).1 t v ρ a oa hb1 hu.2.1 ht h1 hw haa
      obtain ⟨b0, h3, h4⟩ := ih2 (efMut [x] false v t).visited _ _ _ hb2 hu.2.2 h2 ho hw hab
      rcases h4 with rfl | ⟨⟨p, hp⟩, h4⟩
      · exact ⟨tr, (runs_async ..).mpr ⟨a, _, oa, ob, hm1, hok, h1, h3⟩, .inl rfl⟩
      · obtain ⟨c, h5, h6⟩ := h4.merge' hua hm1.symm
        exact ⟨c, (runs_async ..).mpr ⟨a, b0, oa, ob, h5.symm, hok, h1, h3⟩, .inr ⟨⟨p, by simp, .inr hp⟩, h6⟩⟩
  case nil => intro v ρ tr' ok _ _ hr _ _ _; exact ⟨tr', hr, .inl rfl⟩
  case cons =>
    intro s ss ih1 ih2 v ρ tr ok hb hu hr ho hw ha
    have hc := efMut_same.2 ss [x] false v
    cases hf : (efMuts [x] false v ss).found with
    | true =>
      simp only [efMuts, hf, Bool.or_true, if_true, Stmts.ofList]
      rcases hr with ⟨rfl, hr⟩ | ⟨a, b, rfl, h1, h2⟩
      · exact ⟨tr, .inl ⟨rfl, hr⟩, .inl rfl⟩
      · simp only [List.mem_append, not_or] at ha
        obtain ⟨b0, h3, h4⟩ := ih2 v _ _ _ hb.2 hu.2 h2 ho hw ha.2
        refine ⟨a ++ b0, .inr ⟨a, b0, rfl, h1, h3⟩, ?_⟩
        rcases h4 with rfl | ⟨⟨p, hp⟩, h4⟩
        · exact .inl rfl
        · exact .inr ⟨⟨p, .inr hp⟩, h4.left a⟩
    | false =>
      have hch : (efMuts [x] false v ss).changed = false := by
        cases h1 : (efMuts [x] false v ss).changed with
        | false => rfl
        | true => rw [hc.2.1 h1] at hf; cases hf
      simp only [efMuts, hf, hch, Bool.or_self, Bool.false_eq_true, if_false, efMuts_notFound hf, Stmts.ofList, toList_ofList']
      rcases hr with ⟨rfl, hr⟩ | ⟨a, b, rfl, h1, h2⟩
      · obtain ⟨a0, h3, h4⟩ := ih1 (efMuts [x] false v ss).visited _ _ _ hb.1 hu.1 hr ho hw ha
        exact ⟨a0, .inl ⟨rfl, h3⟩, h4.imp id (fun ⟨⟨p, hp⟩, h⟩ => ⟨⟨p, .inl hp⟩, h⟩)⟩
      · simp only [List.mem_append, not_or] at ha
        obtain ⟨a0, h3, h4⟩ := ih1 (efMuts [x] false v ss).visited _ _ _ hb.1 hu.1 h1 ho hw ha.1
        have hub := (efMut_noUse x h).2 ss v ρ b ok hb.2 hu.2 hf h2 hw ha.2
        refine ⟨a0 ++ b, .inr ⟨a0, b, rfl, h3, h2⟩, ?_⟩
        rcases h4 with rfl | ⟨⟨p, hp⟩, h4⟩
        · exact .inl rfl
        · exact .inr ⟨⟨p, .inl hp⟩, h4.right hub⟩

/-- What is shown for each statement. -/
def EfConv (s s' : Stmt) : Prop := ∀ (ρ : HEnv) (tr : List HEv) (ok : Bool), Runs s ρ tr ok → (∀ h, tr.count (.alloc h) ≤ 1) →
  (∀ h, .alloc h ∈ tr → ¬ ρ.Known h) → ∃ tr', Runs s' ρ tr' ok ∧ Early tr' tr

theorem conv_refl (s : Stmt) : EfConv s s := fun _ tr _ hr _ _ => ⟨tr, hr, .refl _⟩

/-- Insert a moved event at the right place. -/
theorem Early.insert_right (g : Nat) {b c : List HEv} : ∀ {a : List HEv}, Early a (b ++ c) → Early (.free g :: a) (b ++ .free g :: c) :=
  fun h => .move g h

theorem Early.merge' {a b c : List HEv} (hm : HMerge a b c) {a' : List HEv} (h : Early a' a) : ∃ c', HMerge a' b c' ∧ Early c' c := by
  induction h generalizing b c with
  | nil => exact ⟨c, hm, .refl _⟩
  | same e h1 ih =>
    rename_i a1' a1
    obtain ⟨p, q, b₁, b₂, rfl, rfl, h2, h3⟩ := HMerge.erase e (a₁ := []) hm
    obtain ⟨q', h4, h5⟩ := ih h3
    exact ⟨p ++ e :: q', h2.append (a₁ := []) (.left e h4), (Early.refl p).append (.same e h5)⟩
  | move g h1 ih =>
    obtain ⟨p, q, b₁, b₂, rfl, rfl, h2, h3⟩ := hm.erase
    obtain ⟨c', h4, h5⟩ := ih (h2.append h3)
    exact ⟨.free g :: c', .left _ h4, .move g h5⟩

theorem Early.trans_count {a b : List HEv} (h : Early a b) (e : HEv) : a.count e = b.count e := by
  induction h with
  | nil => rfl
  | same f _ ih => simp only [List.count_cons, ih]
  | move g _ ih => simp only [List.count_cons, ih, List.count_append]; omega

theorem Early.split (g : Nat) : ∀ (b₁ : List HEv) {b₂ c : List HEv}, Early (b₁ ++ .free g :: b₂) c → ∃ c₁ c₂, c = c₁ ++ .free g :: c₂ ∧ Early (b₁ ++ b₂) (c₁ ++ c₂)
  | [], b₂, c, h => by
    simp only [List.nil_append] at h
    cases h with
    | same _ h => exact ⟨[], _, rfl, h⟩
    | move _ h => exact ⟨_, _, rfl, h⟩
  | e :: b₁, b₂, c, h => by
    simp only [List.cons_append] at h
    cases h with
    | same _ h =>
      obtain ⟨c₁, c₂, rfl, h2⟩ := Early.split g b₁ h
      exact ⟨e :: c₁, c₂, rfl, .same e h2⟩
    | move k h =>
      rename_i p q
      obtain ⟨c₁, c₂, h1, h2⟩ := Early.split g b₁ h
      rcases List.append_eq_append_iff.mp h1 with ⟨r, rfl, rfl⟩ | ⟨r, rfl, h3⟩
      · -- c₁ = p ++ r
        refine ⟨p ++ .free k :: r, c₂, by simp, ?_⟩
        simp only [List.append_assoc, List.cons_append] at h2 ⊢
        exact .move k h2
      · cases r with
        | nil =>
          simp only [List.nil_append] at h3
          subst h3
          refine ⟨c₁ ++ [.free k], c₂, by simp, ?_⟩
          simp only [List.append_assoc, List.cons_append, List.nil_append]
          exact .move k h2
        | cons r0 r =>
          simp only [List.cons_append, List.cons.injEq] at h3
          obtain ⟨rfl, rfl⟩ := h3
          refine ⟨c₁, r ++ .free k :: q, by simp, ?_⟩
          rw [← List.append_assoc] at h2 ⊢
          exact .move k h2

theorem Early.trans {a b c : List HEv} (h1 : Early a b) : Early b c → Early a c := by
  intro h2
  induction h1 generalizing c with
  | nil => exact h2
  | same e _ ih =>
    cases h2 with
    | same _ h => exact .same e (ih h)
    | move k h => exact .move k (ih h)
  | move g _ ih =>
    obtain ⟨c₁, c₂, rfl, h3⟩ := Early.split g _ h2
    exact .move g (ih h3)

theorem conv_iters {s s' : Stmt} (hg : EfConv s s') (ρ : HEnv) : ∀ (its : List (List HEv × Bool)) (b : List HEv),
    (∀ p ∈ its, Runs s ρ p.1 p.2) → HMergeAll (its.map Prod.fst) b → (∀ h, b.count (.alloc h) ≤ 1) → (∀ h, .alloc h ∈ b → ¬ ρ.Known h) →
      ∃ its' : List (List HEv × Bool), ∃ b', (∀ p ∈ its', Runs s' ρ p.1 p.2) ∧ its'.map Prod.snd = its.map Prod.snd ∧ HMergeAll (its'.map Prod.fst) b' ∧ Early b' b
  | [], b, _, hm, _, _ => by
    have hm : b = [] := hm
    subst hm
    exact ⟨[], [], by simp, rfl, rfl, .nil⟩
  | q :: its, b, hr, hm, hc, hk => by
    obtain ⟨r, h1, h2⟩ := hm
    obtain ⟨t, g3, g4⟩ := hg ρ q.1 q.2 (hr q (by simp)) (count_left h2 hc) (fun h hh => hk h ((h2.mem _).mpr (.inl hh)))
    obtain ⟨its', r', i3, i4, i5, i6⟩ := conv_iters hg ρ its r (fun p hp => hr p (by simp [hp])) h1 (count_right h2 hc)
      (fun h hh => hk h ((h2.mem _).mpr (.inr hh)))
    obtain ⟨c, j1, j2⟩ := Early.merge' h2 g4
    obtain ⟨d, k1, k2⟩ := Early.merge' j1.symm i6
    refine ⟨(t, q.2) :: its', d, ?_, by simp [i4], ⟨r', i5, k1.symm⟩, ?_⟩
    · intro p hp
      simp only [List.mem_cons] at hp
      rcases hp with rfl | hp
      · exact g3
      · exact i3 p hp
    · exact k2.trans j2

theorem conv_seq {ss ss' : Stmts} {s s' : Stmt} (g1 : EfConv s s') (g2 : EfConv (.block ss) (.block ss')) : EfConv (.block (.cons s ss)) (.block (.cons s' ss')) := by
  intro ρ tr ok hr hc hk
  rcases hr with ⟨rfl, hr⟩ | ⟨a, b, rfl, h1, h2⟩
  · obtain ⟨t, i3, i4⟩ := g1 ρ tr false hr hc hk
    exact ⟨t, .inl ⟨rfl, i3⟩, i4⟩
  · have hm := HMerge.of_append a b
    obtain ⟨t, i3, i4⟩ := g1 ρ a true h1 (count_left hm hc) (fun h hh => hk h ((hm.mem _).mpr (.inl hh)))
    obtain ⟨u, j3, j4⟩ := g2 ρ b ok h2 (count_right hm hc) (fun h hh => hk h ((hm.mem _).mpr (.inr hh)))
    exact ⟨t ++ u, .inr ⟨t, u, rfl, i3, j3⟩, i4.append j4⟩

/-- No execution is lost. -/
theorem earlyFreeR_conv : (∀ s : Stmt, s.BufOK → s.NoFreeE → s.FreeOK → EfConv s (earlyFreeR s).1) ∧
    (∀ ss : Stmts, ss.BufOK → ss.NoFreeE → ss.FreeOK → EfConv (.block ss) (.block (.ofList (earlyFreeRs ss).1))) := by
  apply Stmt.shape
  case undef => intro _ _ _; exact conv_refl _
  case call => intro t i o xs _ _ _; exact conv_refl _
  case copy => intro t i o xs _ _ _ _ _; exact conv_refl _
  case check => intro c _ _ _; exact conv_refl _
  case lets =>
    rintro bs s cl ih hb hn hf ρ tr ok ⟨a, b, rfl, h1, h2⟩ hc hk
    simp only [earlyFreeR]
    have hm := HMerge.of_append a b
    obtain ⟨t, i3, i4⟩ := ih hb.2 hn hf _ b ok h2 (count_right hm hc) (fun h hh hk' => hk h ((hm.mem _).mpr (.inr hh)) (known_bind hk'))
    exact ⟨a ++ t, ⟨a, t, rfl, h1, i3⟩, (Early.refl a).append i4⟩
  case loop =>
    rintro x wk i st s ih hb hn hf ρ tr ok ⟨a, b, its, rfl, h1, h2, h3, h4⟩ hc hk
    simp only [earlyFreeR]
    have hm := HMerge.of_append a b
    obtain ⟨its', b0, i3, i4, i5, i6⟩ := conv_iters (ih hb.2.2.2 hn hf) _ its b h2 h3 (count_right hm hc)
      (fun h hh hk' => hk h ((hm.mem _).mpr (.inr hh)) (known_none hk'))
    refine ⟨a ++ b0, ⟨a, b0, its', rfl, h1, i3, i5, ?_⟩, (Early.refl a).append i6⟩
    rw [h4]
    have e1 : ∀ l : List (List HEv × Bool), l.all Prod.snd = (l.map Prod.snd).all id := by intro l; simp [List.all_map]
    rw [e1, e1, i4]
  case block =>
    intro ss ih hb hn hf
    simp only [earlyFreeR]
    split
    · intro ρ tr ok hr hc hk
      simp only [runs_blockMake]
      exact ih hb hn hf ρ tr ok hr hc hk
    · exact conv_refl _
  case allocate =>
    intro x k e ds s ih hb hn hf ρ tr ok hr hc hk
    have hfr : ¬ (earlyFreeR s).1.Frees x := fun h => noFreeE_frees.1 s hn x (earlyFreeR_keeps.1 s |>.1 x h)
    rcases hr with ⟨rfl, hk'⟩ | ⟨h, t, h1, rfl⟩
    · refine ⟨[], ?_, .nil⟩
      simp only [earlyFreeR]
      split <;> exact .inl ⟨rfl, hk'⟩
    · have hown : ∀ y, ((ρ.set x ⟨some h, fun k => k = h⟩) y).owns h → y = x := by
        intro y hy
        by_cases hyx : y = x
        · exact hyx
        · rw [HEnv.set_other _ hyx] at hy
          exact (hk h (by simp) ⟨y, .inl hy⟩).elim
      have hobj : ∀ y, ((ρ.set x ⟨some h, fun k => k = h⟩) y).obj = some h → y = x := by
        intro y hy
        by_cases hyx : y = x
        · exact hyx
        · rw [HEnv.set_other _ hyx] at hy
          exact (hk h (by simp) ⟨y, .inr hy⟩).elim
      have hcnt : ∀ k, t.count (.alloc k) ≤ 1 := by
        intro k
        have := hc k
        rw [List.count_cons, List.count_append] at this
        omega
      have hah : HEv.alloc h ∉ t := by
        have := hc h
        rw [List.count_cons_self, List.count_append] at this
        exact List.count_eq_zero.mp (by omega)
      obtain ⟨t', g3, g4⟩ := ih hb.2.2 hn hf.2 _ t ok h1 hcnt (by
        rintro k hk' ⟨y, hy⟩
        by_cases hyx : y = x
        · subst hyx; rw [HEnv.set_same] at hy
          have : k = h := by
            rcases hy with hy | hy
            · exact hy
            · simpa using hy.symm
          subst this
          exact hah hk'
        · rw [HEnv.set_other _ hyx] at hy
          exact hk k (by simp [hk']) ⟨y, hy⟩)
      have hah' : HEv.alloc h ∉ t' := by rw [g4.mem]; exact hah
      have hf1 : HEv.free h ∉ t' := by
        intro hm
        rcases runs_free.1 _ _ _ _ g3 _ hm with h1 | ⟨y, h1, h2⟩
        · exact hah' h1
        · rw [hobj y h1] at h2; exact hfr h2
      have hf0 : HEv.free h ∉ t := by rw [← g4.mem]; exact hf1
      have hc0 : closing h t = [.free h] := by unfold closing; rw [if_neg hf0]
      have hc1 : closing h t' = [.free h] := by unfold closing; rw [if_neg hf1]
      simp only [earlyFreeR]
      split
      · next hh =>
        obtain ⟨t'', h2, h3⟩ := (efMut_conv x h).1 _ false _ _ _ ((earlyFreeR_keeps.1 s).2.2.1 hb.2.2) ((earlyFreeR_keeps.1 s).2.2.2 x (hf.1 hh)) g3
          (by rw [HEnv.set_same]) hown hah'
        refine ⟨_, .inr ⟨h, t'', h2, rfl⟩, .same _ ?_⟩
        rw [hc0]
        rcases h3 with rfl | ⟨_, a, b, rfl, rfl, _⟩
        · rw [hc1]; exact g4.append (.refl _)
        · have : closing h (a ++ HEv.free h :: b) = [] := by unfold closing; rw [if_pos (by simp)]
          rw [this, List.append_nil]
          exact g4.insert h a
      · refine ⟨_, .inr ⟨h, t', g3, rfl⟩, .same _ ?_⟩
        rw [hc0, hc1]
        exact g4.append (.refl _)
  case const =>
    intro x b s ih hb hn hf ρ tr ok hr hc hk
    simp only [earlyFreeR]
    exact ih hb hn hf _ tr ok hr hc (fun h hh hk' => hk h hh (known_none hk'))
  case bnd =>
    intro b s ih hb hn hf ρ tr ok hr hc hk
    rw [bufOK_plug] at hb
    rw [noFreeE_plug] at hn
    rw [freeOK_plug] at hf
    rw [earlyFreeR_plug]
    rw [runs_plug] at hr
    obtain ⟨t, g3, g4⟩ := ih hb.2 hn hf _ tr ok hr hc (fun h hh hk' => hk h hh (known_slot hk'))
    exact ⟨t, (runs_plug ..).mpr g3, g4⟩
  case async =>
    intro x t s ih1 ih2 hb hn hf ρ tr ok hr hc hk
    obtain ⟨rfl, hb1, hb2⟩ := hb
    rw [runs_async] at hr
    obtain ⟨a, b, oa, ob, hm, hok, h1, h2⟩ := hr
    obtain ⟨t, i3, i4⟩ := ih1 hb1 hn.1 hf.1 ρ a oa h1 (count_left hm hc) (fun h hh => hk h ((hm.mem _).mpr (.inl hh)))
    obtain ⟨u, j3, j4⟩ := ih2 hb2 hn.2 hf.2 ρ b ob h2 (count_right hm hc) (fun h hh => hk h ((hm.mem _).mpr (.inr hh)))
    obtain ⟨c, k1, k2⟩ := Early.merge' hm i4
    obtain ⟨d, l1, l2⟩ := Early.merge' k1.symm j4
    simp only [earlyFreeR]
    exact ⟨d, (runs_async ..).mpr ⟨t, u, oa, ob, l1.symm, hok, i3, j3⟩, l2.trans k2⟩
  case nil => intro _ _ _; exact conv_refl _
  case cons =>
    intro s ss ih1 ih2 hb hn hf
    exact conv_seq (ih1 hb.1 hn.1 hf.1) (ih2 hb.2 hn.2 hf.2)

end Slinky
