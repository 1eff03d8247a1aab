import Verif.EarlyFreeSyn

/-!
# Proofs about `insert_early_free`
-/

namespace Slinky

/-! ## One allocation -/

theorem efTerminal_notFound {x : Nat} {v : Bool} {s : Stmt} (h : (efTerminal [x] false v s).found = false) : anyDep (dependsOnS s x) = false := by
  unfold efTerminal at h
  cases hd : anyDep (dependsOnS s x) with
  | false => rfl
  | true =>
    simp only [hd, List.any_cons, Bool.true_or, Bool.not_false, Bool.and_self, if_true] at h
    split at h <;> cases h

/-- No use of the allocation, if the symbol is not in the statement. -/
theorem terminal_noUse {x h : Nat} {v : Bool} {s : Stmt} {ρ : HEnv} {tr : List HEv} {ok : Bool} (hb : s.BufOK)
    (hf : (efTerminal [x] false v s).found = false) (hr : Runs s ρ tr ok) (ho : ∀ y, (ρ y).owns h → y = x) (ha : .alloc h ∉ tr) : .use h ∉ tr := by
  intro hm
  rcases runs_use.1 _ _ _ _ hr _ hm with h1 | ⟨y, h1, h2⟩
  · exact ha h1
  · rw [ho y h1] at h2
    have := mem_dep hb h2
    rw [efTerminal_notFound hf] at this
    cases this

/-- If `insert_free_into_allocate` finds nothing, then the allocation is not used. -/
theorem efMut_noUse (x h : Nat) :
    (∀ (s : Stmt) (v : Bool) (ρ : HEnv) (tr : List HEv) (ok : Bool), s.BufOK → s.OneUser x → (efMut [x] false v s).found = false → Runs s ρ tr ok →
      (∀ y, (ρ y).owns h → y = x) → .alloc h ∉ tr → .use h ∉ tr) ∧
    (∀ (ss : Stmts) (v : Bool) (ρ : HEnv) (tr : List HEv) (ok : Bool), ss.BufOK → ss.OneUser x → (efMuts [x] false v ss).found = false →
      RunsL ss ρ tr ok → (∀ y, (ρ y).owns h → y = x) → .alloc h ∉ tr → .use h ∉ tr) := by
  apply Stmt.shape
  case undef => rintro v ρ tr ok _ _ _ ⟨rfl, _⟩ _ _ hm; cases hm
  case call => intro t i o xs v ρ tr ok hb _ hf; simp only [efMut] at hf; exact terminal_noUse hb hf
  case copy => intro t i o xs _ _ v ρ tr ok hb _ hf; simp only [efMut] at hf; exact terminal_noUse hb hf
  case check => intro c v ρ tr ok hb _ hf; simp only [efMut] at hf; exact terminal_noUse hb hf
  case lets => intro bs s cl _ v ρ tr ok hb _ hf; simp only [efMut] at hf; exact terminal_noUse hb hf
  case loop => intro y wk b st s _ v ρ tr ok hb _ hf; simp only [efMut] at hf; exact terminal_noUse hb hf
  case block =>
    intro ss ih v ρ tr ok hb hu hf hr
    refine ih v ρ tr ok hb hu ?_ hr
    simp only [efMut] at hf
    split at hf <;> exact hf
  case allocate =>
    intro z k e ds s ih v ρ tr ok hb hu hf hr ho ha hm
    simp only [efMut] at hf
    rcases hr with ⟨rfl, _⟩ | ⟨k, t, h1, rfl⟩
    · cases hm
    · simp only [List.mem_cons, List.mem_append, not_or] at ha
      have hk : h ≠ k := fun hk => ha.1 (by rw [hk])
      refine ih v _ _ _ hb.2.2 hu.2 hf h1 ?_ ha.2.1 ?_
      · intro y hy
        by_cases hyz : y = z
        · subst hyz; rw [HEnv.set_same] at hy; exact (hk hy).elim
        · rw [HEnv.set_other _ hyz] at hy; exact ho y hy
      · simp only [closing, List.mem_cons, List.mem_append] at hm
        rcases hm with hm | hm | hm
        · cases hm
        · exact hm
        · split at hm <;> simp at hm
  case const =>
    intro z b s ih v ρ tr ok hb hu hf hr ho ha
    simp only [efMut] at hf
    refine ih v _ _ _ hb hu.2 hf hr ?_ ha
    intro y hy
    by_cases hyz : y = z
    · subst hyz; rw [HEnv.set_same] at hy; exact hy.elim
    · rw [HEnv.set_other _ hyz] at hy; exact ho y hy
  case bnd =>
    intro b s ih v ρ tr ok hb hu hf hr ho ha
    rw [bufOK_plug] at hb
    rw [oneUser_plug] at hu
    rw [runs_plug] at hr
    rw [efMut_plug] at hf
    have hdep : b.dep [x] = false := by
      cases hd : b.dep [x] with
      | false => rfl
      | true =>
        rw [hd] at hf
        split at hf
        · cases hf
        · simp only [Bool.false_or] at hf
          rw [efMut_found.2.2] at hf; cases hf
    have hslot : ¬ (b.slot ρ).owns h := by
      rintro ⟨y, h1, h2⟩
      rw [ho y h2] at h1
      rw [from_dep hb.1 h1] at hdep; cases hdep
    split at hf
    · next hx =>
      simp only [List.mem_singleton] at hx
      intro hm
      rcases runs_use.1 _ _ _ _ hr _ hm with h1 | ⟨y, h1, h2⟩
      · exact ha h1
      · by_cases hy : y = b.sym
        · subst hy; rw [HEnv.set_same] at h1; exact hslot h1
        · rw [HEnv.set_other _ hy] at h1; exact hy ((ho y h1).trans hx.symm)
    · rw [hdep] at hf
      refine ih v _ _ _ hb.2 hu hf hr ?_ ha
      intro y hy
      by_cases hyz : y = b.sym
      · subst hyz; rw [HEnv.set_same] at hy; exact (hslot hy).elim
      · rw [HEnv.set_other _ hyz] at hy; exact ho y hy
  case async =>
    intro z t s ih1 ih2 v ρ tr ok hb hu hf hr ho ha hm
    rw [runs_async, hb.1] at hr
    obtain ⟨a, b, oa, ob, hm1, _, h1, h2⟩ := hr
    simp only [efMut] at hf
    have ht : (efMut [x] false v t).found = false := by
      cases ht : (efMut [x] false v t).found with
      | false => rfl
      | true => rw [ht, efMut_found.2.2] at hf; cases hf
    rw [ht] at hf
    rcases (hm1.mem _).mp hm with hm | hm
    · exact ih1 v _ _ _ hb.2.1 hu.2.1 ht h1 ho (fun h' => ha ((hm1.mem _).mpr (.inl h'))) hm
    · exact ih2 _ _ _ _ hb.2.2 hu.2.2 hf h2 ho (fun h' => ha ((hm1.mem _).mpr (.inr h'))) hm
  case nil => rintro v ρ tr ok _ _ _ ⟨rfl, _⟩ _ _ hm; cases hm
  case cons =>
    intro s ss ih1 ih2 v ρ tr ok hb hu hf hr ho ha hm
    simp only [efMuts] at hf
    have hc := efMut_same.2 ss [x] false v
    have hr2 : (efMuts [x] false v ss).found = false ∧ (efMut [x] false (efMuts [x] false v ss).visited s).found = false := by
      split at hf
      · next h1 =>
        dsimp only at hf
        rw [hf, Bool.or_false] at h1
        rw [hc.2.1 h1] at hf; cases hf
      · next h1 =>
        simp only [Bool.or_eq_true, not_or, Bool.not_eq_true] at h1
        dsimp only at hf
        rw [h1.2] at hf
        exact ⟨h1.2, hf⟩
    rcases hr with ⟨_, hr⟩ | ⟨a, b, rfl, h1, h2⟩
    · exact ih1 _ _ _ _ hb.1 hu.1 hr2.2 hr ho ha hm
    · simp only [List.mem_append, not_or] at ha
      rcases List.mem_append.mp hm with hm | hm
      · exact ih1 _ _ _ _ hb.1 hu.1 hr2.2 h1 ho ha.1 hm
      · exact ih2 _ _ _ _ hb.2 hu.2 hr2.1 h2 ho ha.2 hm

/-- One `free` is added, after the last use. -/
def Ins (h : Nat) (tr tr' : List HEv) : Prop := ∃ a b, tr = a ++ b ∧ tr' = a ++ .free h :: b ∧ .use h ∉ b

theorem Ins.left {h : Nat} {tr tr' : List HEv} (c : List HEv) : Ins h tr tr' → Ins h (c ++ tr) (c ++ tr') := by
  rintro ⟨a, b, rfl, rfl, hb⟩
  exact ⟨c ++ a, b, by simp, by simp, hb⟩

theorem Ins.right {h : Nat} {tr tr' : List HEv} {c : List HEv} (hc : .use h ∉ c) : Ins h tr tr' → Ins h (tr ++ c) (tr' ++ c) := by
  rintro ⟨a, b, rfl, rfl, hb⟩
  exact ⟨a, b ++ c, by simp, by simp, by simp [hb, hc]⟩

theorem Ins.merge {h : Nat} {a a' b c' : List HEv} (hb : .use h ∉ b) (hi : Ins h a a') (hm : HMerge a' b c') : ∃ c, HMerge a b c ∧ Ins h c c' := by
  obtain ⟨a1, a2, rfl, rfl, ha⟩ := hi
  obtain ⟨p, q, b1, b2, rfl, rfl, h1, h2⟩ := hm.erase
  refine ⟨p ++ q, h1.append h2, p, q, rfl, rfl, ?_⟩
  intro hq
  rcases (h2.mem _).mp hq with hq | hq
  · exact ha hq
  · exact hb (by simp [hq])

theorem Ins.mem {h : Nat} {tr tr' : List HEv} (hi : Ins h tr tr') {e : HEv} (he : e ∈ tr) : e ∈ tr' := by
  obtain ⟨a, b, rfl, rfl, _⟩ := hi
  simp at he ⊢
  tauto

theorem runs_checkFree {x h : Nat} {ρ : HEnv} {tr : List HEv} {ok : Bool} (ho : (ρ x).obj = some h) :
    Runs (checkFree x) ρ tr ok ↔ ok = true ∧ tr = [.free h] := by
  simp only [checkFree, Runs, freeArg_checkFree, ho]

theorem terminal_runs {x h : Nat} {v : Bool} {s : Stmt} {ρ : HEnv} {tr' : List HEv} {ok : Bool} (hb : s.BufOK)
    (hr : Runs (efTerminal [x] false v s).s ρ tr' ok) (ho : (ρ x).obj = some h) : ∃ tr, Runs s ρ tr ok ∧ (tr' = tr ∨ (s.Mem x ∧ Ins h tr tr')) := by
  unfold efTerminal at hr
  split at hr
  · next hd =>
    split at hr
    · dsimp only at hr
      rw [runs_blockMake] at hr
      simp only [List.headD_cons] at hr
      rcases hr with ⟨rfl, hr⟩ | ⟨a, b, rfl, h1, h2⟩
      · exact ⟨tr', hr, .inl rfl⟩
      · have h2' := (runsL_single _ ρ b ok).mp h2
        rw [runs_checkFree ho] at h2'
        obtain ⟨rfl, rfl⟩ := h2'
        refine ⟨a, h1, .inr ⟨?_, a, [], by simp, by simp, by simp⟩⟩
        simp only [Bool.not_false, List.any_cons, List.any_nil, Bool.or_false, Bool.true_and] at hd
        unfold anyDep at hd
        cases hl : dependsOnS s x with
        | nil => rw [hl] at hd; cases hd
        | cons p ps => exact ⟨p, (dependsOnS_flags s hb x p).mp (by rw [hl]; simp)⟩
    · exact ⟨tr', hr, .inl rfl⟩
  · exact ⟨tr', hr, .inl rfl⟩

theorem closing_congr {h k : Nat} (hk : k ≠ h) {t t' : List HEv} (hi : Ins h t t') : closing k t' = closing k t := by
  obtain ⟨a, b, rfl, rfl, _⟩ := hi
  unfold closing
  simp [hk]

/-- Executions after `insert_free_into_allocate` are executions before, with a `free` of the allocation that may be added after its last use. -/
theorem efMut_runs (x h : Nat) :
    (∀ (s : Stmt) (v : Bool) (ρ : HEnv) (tr' : List HEv) (ok : Bool), s.BufOK → s.OneUser x → Runs (efMut [x] false v s).s ρ tr' ok →
      (ρ x).obj = some h → (∀ y, (ρ y).owns h → y = x) → .alloc h ∉ tr' → ∃ tr, Runs s ρ tr ok ∧ (tr' = tr ∨ (s.Mem x ∧ Ins h tr tr'))) ∧
    (∀ (ss : Stmts) (v : Bool) (ρ : HEnv) (tr' : List HEv) (ok : Bool), ss.BufOK → ss.OneUser x → RunsL (.ofList (efMuts [x] false v ss).ss) ρ tr' ok →
      (ρ x).obj = some h → (∀ y, (ρ y).owns h → y = x) → .alloc h ∉ tr' →
      ∃ tr, RunsL ss ρ tr ok ∧ (tr' = tr ∨ ((∃ p : Dep, ss.Uses (some p) x) ∧ Ins h tr tr'))) := by
  apply Stmt.shape
  case undef => intro v ρ tr' ok _ _ hr _ _ _; exact ⟨tr', hr, .inl rfl⟩
  case call => intro t i o xs v ρ tr ok hb _ hr ho _ _; simp only [efMut] at hr; exact terminal_runs hb hr ho
  case copy => intro t i o xs _ _ v ρ tr ok hb _ hr ho _ _; simp only [efMut] at hr; exact terminal_runs hb hr ho
  case check => intro c v ρ tr ok hb _ hr ho _ _; simp only [efMut] at hr; exact terminal_runs hb hr ho
  case lets => intro bs s cl _ v ρ tr ok hb _ hr ho _ _; simp only [efMut] at hr; exact terminal_runs hb hr ho
  case loop => intro y wk b st s _ v ρ tr ok hb _ hr ho _ _; simp only [efMut] at hr; exact terminal_runs hb hr ho
  case block =>
    intro ss ih v ρ tr' ok hb hu hr ho hw ha
    simp only [efMut] at hr
    split at hr
    · dsimp only at hr
      rw [runs_blockMake] at hr
      exact ih v ρ tr' ok hb hu hr ho hw ha
    · exact ⟨tr', hr, .inl rfl⟩
  case allocate =>
    intro z k e ds s ih v ρ tr' ok hb hu hr ho hw ha
    simp only [efMut] at hr
    rcases hr with ⟨rfl, hk⟩ | ⟨k, t', h1, rfl⟩
    · exact ⟨[], .inl ⟨rfl, hk⟩, .inl rfl⟩
    · simp only [List.mem_cons, List.mem_append, not_or] at ha
      have hk : k ≠ h := fun hk => ha.1 (by rw [hk])
      obtain ⟨t, h2, h3⟩ := ih v _ _ _ hb.2.2 hu.2 h1 (by rw [HEnv.set_other _ (Ne.symm hu.1)]; exact ho) (by
        intro y hy
        by_cases hyz : y = z
        · subst hyz; rw [HEnv.set_same] at hy; exact (hk hy.symm).elim
        · rw [HEnv.set_other _ hyz] at hy; exact hw y hy) ha.2.1
      refine ⟨.alloc k :: (t ++ closing k t), .inr ⟨k, t, h2, rfl⟩, ?_⟩
      rcases h3 with rfl | ⟨⟨p, hp⟩, h3⟩
      · exact .inl rfl
      · refine .inr ⟨⟨p, .inr (.inr ⟨Ne.symm hu.1, hp⟩)⟩, ?_⟩
        rw [closing_congr hk h3]
        exact (h3.right (by unfold closing; split <;> simp)).left [.alloc k]
  case const =>
    intro z b s ih v ρ tr' ok hb hu hr ho hw ha
    simp only [efMut] at hr
    obtain ⟨t, h2, h3⟩ := ih v _ _ _ hb hu.2 hr (by rw [HEnv.set_other _ (Ne.symm hu.1)]; exact ho) (by
        intro y hy
        by_cases hyz : y = z
        · subst hyz; rw [HEnv.set_same] at hy; exact hy.elim
        · rw [HEnv.set_other _ hyz] at hy; exact hw y hy) ha
    exact ⟨t, h2, h3.imp id (fun ⟨⟨p, hp⟩, h⟩ => ⟨⟨p, Ne.symm hu.1, hp⟩, h⟩)⟩
  case bnd =>
    intro b s ih v ρ tr' ok hb hu hr ho hw ha
    rcases efMut_plug1 x false v b s with he | ⟨_, hs, hd, he, _⟩
    · rw [he] at hr; exact ⟨tr', hr, .inl rfl⟩
    · rw [he, runs_plug] at hr
      rw [bufOK_plug] at hb
      rw [oneUser_plug] at hu
      obtain ⟨t, h2, h3⟩ := ih v _ _ _ hb.2 hu hr (by rw [HEnv.set_other _ (Ne.symm hs)]; exact ho) (by
          intro y hy
          by_cases hyz : y = b.sym
          · subst hyz; rw [HEnv.set_same] at hy
            obtain ⟨z, hz, h4⟩ := hy
            rw [hw z h4] at hz
            rw [from_dep hb.1 hz] at hd; cases hd
          · rw [HEnv.set_other _ hyz] at hy; exact hw y hy) ha
      refine ⟨t, (runs_plug ..).mpr h2, h3.imp id (fun ⟨⟨p, hp⟩, h⟩ => ⟨⟨p, ?_⟩, h⟩)⟩
      exact (uses_plug ..).mpr (.inr (.inl ⟨Ne.symm hs, hp⟩))
  case async =>
    intro z t s ih1 ih2 v ρ tr' ok hb hu hr ho hw ha
    simp only [efMut] at hr
    rw [runs_async] at hr
    obtain ⟨rfl, hb1, hb2⟩ := hb
    obtain ⟨a, b, oa, ob, hm1, hok, h1, h2⟩ := hr
    have haa : .alloc h ∉ a := fun h' => ha ((hm1.mem _).mpr (.inl h'))
    have hab : .alloc h ∉ b := fun h' => ha ((hm1.mem _).mpr (.inr h'))
    simp only [HEnv.setOpt] at h1 h2
    cases ht : (efMut [x] false v t).found with
    | true =>
      rw [ht, efMut_found.1] at h2
      obtain ⟨a0, h3, h4⟩ := ih1 v _ _ _ hb1 hu.2.1 h1 ho hw haa
      rcases h4 with rfl | ⟨hmx, h4⟩
      · exact ⟨tr', (runs_async ..).mpr ⟨_, b, oa, ob, hm1, hok, h3, h2⟩, .inl rfl⟩
      · have hub : .use h ∉ b := by
          intro hm
          rcases runs_use.1 _ _ _ _ h2 _ hm with h5 | ⟨y, h5, h6⟩
          · exact hab h5
          · rw [hw y h5] at h6; exact hu.1 ⟨hmx, h6⟩
        obtain ⟨c, h5, h6⟩ := h4.merge hub hm1
        obtain ⟨p, hp⟩ := hmx
        exact ⟨c, (runs_async ..).mpr ⟨a0, b, oa, ob, h5, hok, h3, h2⟩, .inr ⟨⟨p, by simp, .inl hp⟩, h6⟩⟩
    | false =>
      rw [efMut_notFound ht] at h1
      rw [ht] at h2
      have hua := (efMut_noUse x h).1 t v ρ a oa hb1 hu.2.1 ht h1 hw haa
      obtain ⟨b0, h3, h4⟩ := ih2 _ _ _ _ hb2 hu.2.2 h2 ho hw hab
      rcases h4 with rfl | ⟨⟨p, hp⟩, h4⟩
      · exact ⟨tr', (runs_async ..).mpr ⟨a, _, oa, ob, hm1, hok, h1, h3⟩, .inl rfl⟩
      · obtain ⟨c, h5, h6⟩ := h4.merge hua hm1.symm
        exact ⟨c, (runs_async ..).mpr ⟨a, b0, oa, ob, h5.symm, hok, h1, h3⟩, .inr ⟨⟨p, by simp, .inr hp⟩, h6⟩⟩
  case nil => intro v ρ tr' ok _ _ hr _ _ _; exact ⟨tr', hr, .inl rfl⟩
  case cons =>
    intro s ss ih1 ih2 v ρ tr' ok hb hu hr ho hw ha
    have hc := efMut_same.2 ss [x] false v
    cases hf : (efMuts [x] false v ss).found with
    | true =>
      simp only [efMuts, hf, Bool.or_true, if_true, Stmts.ofList] at hr
      rcases hr with ⟨rfl, hr⟩ | ⟨a, b, rfl, h1, h2⟩
      · exact ⟨tr', .inl ⟨rfl, hr⟩, .inl rfl⟩
      · simp only [List.mem_append, not_or] at ha
        obtain ⟨b0, h3, h4⟩ := ih2 _ _ _ _ hb.2 hu.2 h2 ho hw ha.2
        refine ⟨a ++ b0, .inr ⟨a, b0, rfl, h1, h3⟩, ?_⟩
        rcases h4 with rfl | ⟨⟨p, hp⟩, h4⟩
        · exact .inl rfl
        · exact .inr ⟨⟨p, .inr hp⟩, h4.left a⟩
    | false =>
      have hch : (efMuts [x] false v ss).changed = false := by
        cases h1 : (efMuts [x] false v ss).changed with
        | false => rfl
        | true => rw [hc.2.1 h1] at hf; cases hf
      simp only [efMuts, hf, hch, Bool.or_self, Bool.false_eq_true, if_false, efMuts_notFound hf, Stmts.ofList, toList_ofList'] at hr
      rcases hr with ⟨rfl, hr⟩ | ⟨a, b, rfl, h1, h2⟩
      · obtain ⟨a0, h3, h4⟩ := ih1 _ _ _ _ hb.1 hu.1 hr ho hw ha
        exact ⟨a0, .inl ⟨rfl, h3⟩, h4.imp id (fun ⟨⟨p, hp⟩, h⟩ => ⟨⟨p, .inl hp⟩, h⟩)⟩
      · simp only [List.mem_append, not_or] at ha
        obtain ⟨a0, h3, h4⟩ := ih1 _ _ _ _ hb.1 hu.1 h1 ho hw ha.1
        have hub := (efMut_noUse x h).2 ss v ρ b ok hb.2 hu.2 hf h2 hw ha.2
        refine ⟨a0 ++ b, .inr ⟨a0, b, rfl, h3, h2⟩, ?_⟩
        rcases h4 with rfl | ⟨⟨p, hp⟩, h4⟩
        · exact .inl rfl
        · exact .inr ⟨⟨p, .inl hp⟩, h4.right hub⟩

/-! ## `Early` -/

theorem Early.refl : ∀ a : List HEv, Early a a
  | [] => .nil
  | e :: a => .same e (Early.refl a)

theorem Early.append {a b c d : List HEv} (h1 : Early a b) (h2 : Early c d) : Early (a ++ c) (b ++ d) := by
  induction h1 with
  | nil => exact h2
  | same e _ ih => exact .same e ih
  | move h _ ih =>
    simp only [List.append_assoc, List.cons_append] at ih ⊢
    exact .move h ih

theorem Early.insert (h : Nat) : ∀ (a : List HEv) {b t : List HEv}, Early (a ++ b) t → Early (a ++ .free h :: b) (t ++ [.free h])
  | [], b, t, he => .move h (by simpa using he)
  | e :: a, b, t, he => by
    generalize hl : e :: a ++ b = l at he
    cases he with
    | nil => cases hl
    | same f h1 =>
      cases hl
      exact .same e (Early.insert h a h1)
    | move g h1 =>
      cases hl
      have := Early.insert h a h1
      simp only [List.append_assoc, List.cons_append] at this ⊢
      exact .move g this

theorem Early.merge {a' b' c' : List HEv} (hm : HMerge a' b' c') : ∀ {a b : List HEv}, Early a' a → Early b' b → ∃ c, HMerge a b c ∧ Early c' c := by
  induction hm with
  | nil => intro a b h1 h2; cases h1; cases h2; exact ⟨[], .nil, .nil⟩
  | left e _ ih =>
    intro a b h1 h2
    cases h1 with
    | same _ h1 =>
      obtain ⟨c, h3, h4⟩ := ih h1 h2
      exact ⟨e :: c, .left e h3, .same e h4⟩
    | move g h1 =>
      obtain ⟨c, h3, h4⟩ := ih h1 h2
      obtain ⟨p, q, rfl, h5⟩ := h3.insert (.free g)
      exact ⟨_, h5, .move g h4⟩
  | right e _ ih =>
    intro a b h1 h2
    cases h2 with
    | same _ h2 =>
      obtain ⟨c, h3, h4⟩ := ih h1 h2
      exact ⟨e :: c, .right e h3, .same e h4⟩
    | move g h2 =>
      obtain ⟨c, h3, h4⟩ := ih h1 h2
      obtain ⟨p, q, rfl, h5⟩ := h3.symm.insert (.free g)
      exact ⟨_, h5.symm, .move g h4⟩

theorem Early.mem {a b : List HEv} (h : Early a b) (e : HEv) : e ∈ a ↔ e ∈ b := by
  induction h with
  | nil => simp
  | same f _ ih => simp [ih]
  | move g _ ih => simp only [List.mem_cons, ih, List.mem_append]; tauto

/-! ## Lives -/

theorem on_alloc (h k : Nat) : (HEv.alloc k).on h = (k == h) := rfl
theorem on_free (h k : Nat) : (HEv.free k).on h = (k == h) := rfl


/-- One allocation, uses, and one free. -/
def Life (h : Nat) (tr : List HEv) : Prop := ∃ n, tr.filter (·.on h) = .alloc h :: (List.replicate n (.use h) ++ [.free h])

/-- The events are about allocations in them or known ones. -/
def Closed (K : Nat → Prop) (tr : List HEv) : Prop := ∀ h, ∀ e ∈ tr, e.on h = true → .alloc h ∈ tr ∨ K h

theorem Closed.filter {K : Nat → Prop} {tr : List HEv} (hc : Closed K tr) {h : Nat} (ha : .alloc h ∉ tr) (hk : ¬ K h) : tr.filter (·.on h) = [] := by
  rw [List.filter_eq_nil_iff]
  intro e he ho
  rcases hc h e he ho with h1 | h1
  · exact ha h1
  · exact hk h1

theorem HMerge.of_append : ∀ a b : List HEv, HMerge a b (a ++ b)
  | [], b => (HMerge.self_nil b).symm
  | e :: a, b => .left e (HMerge.of_append a b)

theorem Closed.merge {K : Nat → Prop} {a b c : List HEv} (hm : HMerge a b c) (h1 : Closed K a) (h2 : Closed K b) : Closed K c := by
  intro h e he ho
  rcases (hm.mem _).mp he with he | he
  · exact (h1 h e he ho).imp (fun h' => (hm.mem _).mpr (.inl h')) id
  · exact (h2 h e he ho).imp (fun h' => (hm.mem _).mpr (.inr h')) id

theorem life_merge {K : Nat → Prop} {a b c : List HEv} (hm : HMerge a b c) (hc : ∀ h, c.count (.alloc h) ≤ 1) (hk : ∀ h, .alloc h ∈ c → ¬ K h)
    (ha : Closed K a) (hb : Closed K b) (la : ∀ h, .alloc h ∈ a → Life h a) (lb : ∀ h, .alloc h ∈ b → Life h b) : ∀ h, .alloc h ∈ c → Life h c := by
  intro h hh
  have h1 := hc h
  rw [hm.count] at h1
  have hf := hm.filter (·.on h)
  rcases (hm.mem _).mp hh with h2 | h2
  · have h3 := List.count_pos_iff.mpr h2
    have h4 : HEv.alloc h ∉ b := List.count_eq_zero.mp (by omega)
    rw [hb.filter h4 (hk h hh)] at hf
    unfold Life
    rw [hf.nil_right]
    exact la h h2
  · have h3 := List.count_pos_iff.mpr h2
    have h4 : HEv.alloc h ∉ a := List.count_eq_zero.mp (by omega)
    rw [ha.filter h4 (hk h hh)] at hf
    unfold Life
    rw [hf.symm.nil_right]
    exact lb h h2

theorem closed_of_runs {s : Stmt} {ρ : HEnv} {tr : List HEv} {ok : Bool} (hr : Runs s ρ tr ok) : Closed ρ.Known tr :=
  fun _ _ he ho => runs_known hr he ho

theorem Closed.mono {K K' : Nat → Prop} (h : ∀ k, K k → K' k) {tr : List HEv} (hc : Closed K tr) : Closed K' tr :=
  fun k e he ho => (hc k e he ho).imp id (h k)

theorem known_none {ρ : HEnv} {x h : Nat} (hk : (ρ.set x .none).Known h) : ρ.Known h := by
  obtain ⟨y, hy⟩ := hk
  by_cases hyx : y = x
  · subst hyx; rw [HEnv.set_same] at hy; simp [HSlot.none] at hy
  · rw [HEnv.set_other _ hyx] at hy; exact ⟨y, hy⟩

theorem known_bind {ρ : HEnv} {bs : Binds} {h : Nat} (hk : (ρ.bind bs).Known h) : ρ.Known h := by
  obtain ⟨y, hy⟩ := hk
  by_cases hyx : y ∈ bs.syms
  · simp only [HEnv.bind, hyx, if_true, reduceCtorEq, or_false] at hy
    obtain ⟨q, z, _, hz⟩ := hy
    exact ⟨z, .inl hz⟩
  · simp only [HEnv.bind, hyx, if_false] at hy; exact ⟨y, hy⟩

theorem known_slot {ρ : HEnv} {b : HBnd} {h : Nat} (hk : (ρ.set b.sym (b.slot ρ)).Known h) : ρ.Known h := by
  obtain ⟨y, hy⟩ := hk
  by_cases hyx : y = b.sym
  · subst hyx; rw [HEnv.set_same] at hy
    simp only [HBnd.slot, reduceCtorEq, or_false] at hy
    obtain ⟨z, _, hz⟩ := hy
    exact ⟨z, .inl hz⟩
  · rw [HEnv.set_other _ hyx] at hy; exact ⟨y, hy⟩

/-- What is shown for each statement. -/
def EfGoal (s s' : Stmt) : Prop := ∀ (ρ : HEnv) (tr' : List HEv) (ok : Bool), Runs s' ρ tr' ok → (∀ h, tr'.count (.alloc h) ≤ 1) →
  (∀ h, .alloc h ∈ tr' → ¬ ρ.Known h) → .bad ∉ tr' ∧ (∀ h, .alloc h ∈ tr' → Life h tr') ∧ ∃ tr, Runs s ρ tr ok ∧ Early tr' tr

theorem touches_only {ρ : HEnv} {P : Nat → Prop} {tr : List HEv} (h : Touches ρ P tr) : .bad ∉ tr ∧ (∀ k, .alloc k ∉ tr) ∧ (∀ k, .free k ∉ tr) ∧ Closed ρ.Known tr := by
  refine ⟨fun hb => ?_, fun k hb => ?_, fun k hb => ?_, fun k e he ho => ?_⟩
  · obtain ⟨_, _, h1, _⟩ := h _ hb; cases h1
  · obtain ⟨_, _, h1, _⟩ := h _ hb; cases h1
  · obtain ⟨_, _, h1, _⟩ := h _ hb; cases h1
  · obtain ⟨g, x, rfl, _, h1⟩ := h _ he
    simp only [HEv.on, beq_iff_eq] at ho
    subst ho
    exact .inr ⟨x, .inl h1⟩

theorem goal_touches {s : Stmt} (h : ∀ ρ tr ok, Runs s ρ tr ok → ∃ P, Touches ρ P tr) : EfGoal s s := by
  intro ρ tr' ok hr _ _
  obtain ⟨P, hp⟩ := h _ _ _ hr
  obtain ⟨h1, h2, _, _⟩ := touches_only hp
  exact ⟨h1, fun k hk => (h2 k hk).elim, tr', hr, .refl _⟩

theorem count_left {a b c : List HEv} (hm : HMerge a b c) (hc : ∀ h, c.count (.alloc h) ≤ 1) (h : Nat) : a.count (.alloc h) ≤ 1 := by
  have := hc h; rw [hm.count] at this; omega
theorem count_right {a b c : List HEv} (hm : HMerge a b c) (hc : ∀ h, c.count (.alloc h) ≤ 1) (h : Nat) : b.count (.alloc h) ≤ 1 := by
  have := hc h; rw [hm.count] at this; omega

/-- The iterations of a loop. -/
theorem goal_iters {s s' : Stmt} (hg : EfGoal s s') (ρ : HEnv) : ∀ (its' : List (List HEv × Bool)) (b' : List HEv),
    (∀ p ∈ its', Runs s' ρ p.1 p.2) → HMergeAll (its'.map Prod.fst) b' → (∀ h, b'.count (.alloc h) ≤ 1) → (∀ h, .alloc h ∈ b' → ¬ ρ.Known h) →
    Closed ρ.Known b' ∧ .bad ∉ b' ∧ (∀ h, .alloc h ∈ b' → Life h b') ∧
      ∃ its : List (List HEv × Bool), ∃ b, (∀ p ∈ its, Runs s ρ p.1 p.2) ∧ its.map Prod.snd = its'.map Prod.snd ∧ HMergeAll (its.map Prod.fst) b ∧ Early b' b
  | [], b', _, hm, _, _ => by
    have hm : b' = [] := hm
    subst hm
    exact ⟨fun _ e he => (by cases he), by simp, by simp, [], [], by simp, rfl, rfl, .nil⟩
  | q :: its', b', hr, hm, hc, hk => by
    obtain ⟨r, h1, h2⟩ := hm
    have hq := hr q (by simp)
    obtain ⟨g1, g2, t, g3, g4⟩ := hg ρ q.1 q.2 hq (count_left h2 hc) (fun h hh => hk h ((h2.mem _).mpr (.inl hh)))
    obtain ⟨i0, i1, i2, its, b, i3, i4, i5, i6⟩ := goal_iters hg ρ its' r (fun p hp => hr p (by simp [hp])) h1 (count_right h2 hc)
      (fun h hh => hk h ((h2.mem _).mpr (.inr hh)))
    obtain ⟨c, j1, j2⟩ := Early.merge h2 g4 i6
    refine ⟨(closed_of_runs hq).merge h2 i0, ?_, life_merge h2 hc hk (closed_of_runs hq) i0 g2 i2, (t, q.2) :: its, c, ?_, ?_, ⟨b, i5, j1⟩, j2⟩
    · intro hb
      rcases (h2.mem _).mp hb with hb | hb
      · exact g1 hb
      · exact i1 hb
    · intro p hp
      simp only [List.mem_cons] at hp
      rcases hp with rfl | hp
      · exact g3
      · exact i3 p hp
    · simp [i4]

theorem filter_uses {h : Nat} {a : List HEv} (ha : .alloc h ∉ a) (hf : .free h ∉ a) : ∃ n, a.filter (·.on h) = List.replicate n (.use h) := by
  refine ⟨(a.filter (·.on h)).length, List.eq_replicate_iff.mpr ⟨rfl, ?_⟩⟩
  intro e he
  simp only [List.mem_filter] at he
  obtain ⟨h1, h2⟩ := he
  cases e <;> simp only [HEv.on, beq_iff_eq, Bool.false_eq_true] at h2
  · subst h2; exact (ha h1).elim
  · rw [h2]
  · subst h2; exact (hf h1).elim

theorem filter_none {h : Nat} {a : List HEv} (ha : .alloc h ∉ a) (hf : .free h ∉ a) (hu : .use h ∉ a) : a.filter (·.on h) = [] := by
  rw [List.filter_eq_nil_iff]
  intro e he
  cases e <;> simp only [HEv.on, beq_iff_eq, Bool.false_eq_true, not_false_eq_true]
  · rintro rfl; exact ha he
  · rintro rfl; exact hu he
  · rintro rfl; exact hf he

/-- A block of statements. -/
theorem goal_seq {ss ss' : Stmts} {s s' : Stmt} (g1 : EfGoal s s') (g2 : EfGoal (.block ss) (.block ss')) : EfGoal (.block (.cons s ss)) (.block (.cons s' ss')) := by
  intro ρ tr' ok hr hc hk
  rcases hr with ⟨rfl, hr⟩ | ⟨a, b, rfl, h1, h2⟩
  · obtain ⟨i1, i2, t, i3, i4⟩ := g1 ρ tr' false hr hc hk
    exact ⟨i1, i2, t, .inl ⟨rfl, i3⟩, i4⟩
  · have hm := HMerge.of_append a b
    obtain ⟨i1, i2, t, i3, i4⟩ := g1 ρ a true h1 (count_left hm hc) (fun h hh => hk h ((hm.mem _).mpr (.inl hh)))
    obtain ⟨j1, j2, u, j3, j4⟩ := g2 ρ b ok h2 (count_right hm hc) (fun h hh => hk h ((hm.mem _).mpr (.inr hh)))
    refine ⟨by simp [i1, j1], life_merge hm hc hk (closed_of_runs h1) (closed_of_runs (s := .block ss') h2) i2 j2, t ++ u, .inr ⟨t, u, rfl, i3, j3⟩,
      i4.append j4⟩

/-- The allocation itself. -/
theorem goal_alloc {x h : Nat} {s s₁ : Stmt} {ρ : HEnv} {t' t'' : List HEv} {ok : Bool} (hg : EfGoal s s₁) (hn : s.NoFreeE) (hfr : ¬ s₁.Frees x)
    (hr : Runs s₁ (ρ.set x ⟨some h, fun k => k = h⟩) t' ok) (hi : t'' = t' ∨ Ins h t' t'')
    (hc : ∀ k, (HEv.alloc h :: (t'' ++ closing h t'')).count (.alloc k) ≤ 1) (hk : ∀ k, .alloc k ∈ HEv.alloc h :: (t'' ++ closing h t'') → ¬ ρ.Known k) :
    .bad ∉ HEv.alloc h :: (t'' ++ closing h t'') ∧ (∀ k, .alloc k ∈ HEv.alloc h :: (t'' ++ closing h t'') → Life k (HEv.alloc h :: (t'' ++ closing h t''))) ∧
      ∃ t, Runs s (ρ.set x ⟨some h, fun k => k = h⟩) t ok ∧ Early (HEv.alloc h :: (t'' ++ closing h t'')) (.alloc h :: (t ++ closing h t)) := by
  have hcl : ∀ t : List HEv, ∀ k, HEv.alloc k ∉ closing h t := by intro t k; unfold closing; split <;> simp
  have hcnt : ∀ k, (t'' ++ closing h t'').count (.alloc k) = t''.count (.alloc k) := by
    intro k; rw [List.count_append, List.count_eq_zero.mpr (hcl t'' k)]; rfl
  have hcnt2 : ∀ k, t''.count (.alloc k) = t'.count (.alloc k) := by
    intro k
    rcases hi with rfl | ⟨a, b, rfl, rfl, _⟩
    · rfl
    · simp [List.count_append]
  have hah : HEv.alloc h ∉ t' := by
    have := hc h
    rw [List.count_cons_self, hcnt, hcnt2] at this
    exact List.count_eq_zero.mp (by omega)
  have hmem : ∀ k, HEv.alloc k ∈ t' → HEv.alloc k ∈ t'' := by
    intro k hk'
    rcases hi with rfl | hi
    · exact hk'
    · exact hi.mem hk'
  have hknown : ∀ k, HEv.alloc k ∈ t' → ¬ (ρ.set x ⟨some h, fun k => k = h⟩).Known k := by
    rintro k hk' ⟨y, hy⟩
    by_cases hyx : y = x
    · subst hyx; rw [HEnv.set_same] at hy
      have : k = h := by
        rcases hy with hy | hy
        · exact hy
        · simpa using hy.symm
      subst this
      exact hah hk'
    · rw [HEnv.set_other _ hyx] at hy
      exact hk k (by simp [hmem k hk']) ⟨y, hy⟩
  obtain ⟨i1, i2, t, i3, i4⟩ := hg _ t' ok hr (fun k => by
    have := hc k
    rw [← hcnt2, ← hcnt]
    rw [List.count_cons] at this
    omega) hknown
  have hobj : ∀ y, ((ρ.set x ⟨some h, fun k => k = h⟩) y).obj = some h → y = x := by
    intro y hy
    by_cases hyx : y = x
    · exact hyx
    · rw [HEnv.set_other _ hyx] at hy
      exact (hk h (by simp) ⟨y, .inr hy⟩).elim
  have hf1 : HEv.free h ∉ t' := by
    intro hm
    rcases runs_free.1 _ _ _ _ hr _ hm with h1 | ⟨y, h1, h2⟩
    · exact hah h1
    · rw [hobj y h1] at h2; exact hfr h2
  have hf0 : HEv.free h ∉ t := by rw [← i4.mem]; exact hf1
  have hc0 : closing h t = [.free h] := by unfold closing; rw [if_neg hf0]
  rcases hi with rfl | ⟨a, b, rfl, rfl, hub⟩
  · have hc1 : closing h t'' = [.free h] := by unfold closing; rw [if_neg hf1]
    rw [hc1]
    refine ⟨by simp [i1], ?_, t, i3, ?_⟩
    · intro k hk'
      simp only [List.mem_cons, HEv.alloc.injEq, List.mem_append, List.not_mem_nil, or_false, reduceCtorEq] at hk'
      rcases hk' with rfl | hk'
      · obtain ⟨n, hn⟩ := filter_uses hah hf1
        refine ⟨n, ?_⟩
        simp [on_alloc, on_free, hn]
      · have hne : k ≠ h := by rintro rfl; exact hah hk'
        obtain ⟨n, hn⟩ := i2 k hk'
        refine ⟨n, ?_⟩
        have hne' : (h == k) = false := by simpa using Ne.symm hne
        simp only [List.filter_cons, on_alloc, on_free, hne', List.filter_append, hn, List.filter_nil]
        simp
    · rw [hc0]
      exact .same _ (i4.append (.refl _))
  · have hc1 : closing h (a ++ HEv.free h :: b) = [] := by unfold closing; rw [if_pos (by simp)]
    rw [hc1, List.append_nil]
    simp only [List.mem_append, not_or] at hah hf1 i1
    refine ⟨by simp [i1], ?_, t, i3, ?_⟩
    · intro k hk'
      simp only [List.mem_cons, HEv.alloc.injEq, List.mem_append, reduceCtorEq, false_or] at hk'
      rcases hk' with rfl | hk'
      · obtain ⟨n, hn⟩ := filter_uses hah.1 hf1.1
        refine ⟨n, ?_⟩
        simp [on_alloc, on_free, hn, filter_none hah.2 hf1.2 hub]
      · have hne : k ≠ h := by rintro rfl; exact hk'.elim hah.1 hah.2
        obtain ⟨n, hn⟩ := i2 k (List.mem_append.mpr hk')
        refine ⟨n, ?_⟩
        have hne' : (h == k) = false := by simpa using Ne.symm hne
        rw [List.filter_append] at hn
        simp only [List.filter_cons, on_alloc, on_free, hne', List.filter_append]
        simpa using hn
    · rw [hc0]
      exact .same _ (i4.insert h a)

/-- The result of the pass. -/
theorem earlyFreeR_goal : (∀ s : Stmt, s.BufOK → s.NoFreeE → s.FreeOK → EfGoal s (earlyFreeR s).1) ∧
    (∀ ss : Stmts, ss.BufOK → ss.NoFreeE → ss.FreeOK → EfGoal (.block ss) (.block (.ofList (earlyFreeRs ss).1))) := by
  apply Stmt.shape
  case undef =>
    rintro _ _ _ ρ tr' ok ⟨rfl, h⟩ _ _
    exact ⟨by simp, by simp, [], ⟨rfl, h⟩, .nil⟩
  case call => intro t i o xs _ _ _; exact goal_touches (fun ρ tr ok h => ⟨_, h⟩)
  case copy => intro t i o xs _ _ _ _ _; exact goal_touches (fun ρ tr ok h => ⟨_, h⟩)
  case check =>
    intro c _ hn _
    refine goal_touches (fun ρ tr ok h => ?_)
    simp only [Stmt.NoFreeE] at hn
    simp only [Runs, hn] at h
    exact ⟨_, h⟩
  case lets =>
    rintro bs s cl ih hb hn hf ρ tr' ok hr hc hk
    simp only [earlyFreeR] at hr
    obtain ⟨a, b, rfl, h1, h2⟩ := hr
    have hm := HMerge.of_append a b
    obtain ⟨t1, t2, t3, t4⟩ := touches_only h1
    obtain ⟨i1, i2, t, i3, i4⟩ := ih hb.2 hn hf _ b ok h2 (count_right hm hc) (fun h hh hk' => hk h ((hm.mem _).mpr (.inr hh)) (known_bind hk'))
    exact ⟨by simp [i1, t1], life_merge hm hc hk t4 ((closed_of_runs h2).mono fun _ => known_bind) (fun h hh => (t2 h hh).elim) i2,
      a ++ t, ⟨a, t, rfl, h1, i3⟩, (Early.refl a).append i4⟩
  case loop =>
    rintro x wk i st s ih hb hn hf ρ tr' ok hr hc hk
    simp only [earlyFreeR] at hr
    obtain ⟨a, b, its', rfl, h1, h2, h3, h4⟩ := hr
    have hm := HMerge.of_append a b
    obtain ⟨t1, t2, t3, t4⟩ := touches_only h1
    obtain ⟨i0, i1, i2, its, b0, i3, i4, i5, i6⟩ := goal_iters (ih hb.2.2.2 hn hf) _ its' b h2 h3 (count_right hm hc)
      (fun h hh hk' => hk h ((hm.mem _).mpr (.inr hh)) (known_none hk'))
    refine ⟨by simp [i1, t1], life_merge hm hc hk t4 (i0.mono fun _ => known_none) (fun h hh => (t2 h hh).elim) i2,
      a ++ b0, ⟨a, b0, its, rfl, h1, i3, i5, ?_⟩, (Early.refl a).append i6⟩
    rw [h4]
    have e1 : ∀ l : List (List HEv × Bool), l.all Prod.snd = (l.map Prod.snd).all id := by intro l; simp [List.all_map]
    rw [e1, e1, i4]
  case block =>
    intro ss ih hb hn hf
    simp only [earlyFreeR]
    split
    · intro ρ tr' ok hr hc hk
      dsimp only at hr
      rw [runs_blockMake] at hr
      exact ih hb hn hf ρ tr' ok hr hc hk
    · next hch =>
      have : (earlyFreeRs ss).2 = false → (earlyFreeRs ss).1 = ss.toList := by
        have key : (∀ s : Stmt, (earlyFreeR s).2 = false → (earlyFreeR s).1 = s) ∧ (∀ ss : Stmts, (earlyFreeRs ss).2 = false → (earlyFreeRs ss).1 = ss.toList) := by
          apply Stmt.shape
          case undef => intro _; rfl
          case call => intros; rfl
          case copy => intros; rfl
          case check => intros; rfl
          case lets => intro bs s cl ih h; simp only [earlyFreeR] at h ⊢; rw [ih h]
          case loop => intro x wk b st s ih h; simp only [earlyFreeR] at h ⊢; rw [ih h]
          case block =>
            intro ss ih h
            simp only [earlyFreeR] at h ⊢
            split
            · next h1 => rw [if_pos h1] at h; cases h
            · rfl
          case allocate =>
            intro x k e ds s ih h
            simp only [earlyFreeR] at h ⊢
            split
            · next h1 =>
              rw [if_pos h1] at h
              simp only [Bool.or_eq_false_iff] at h
              have h3 := (efMut_same.1 _ _ _ _).1 h.2
              dsimp only
              rw [h3, ih h.1]
            · next h1 => rw [if_neg h1] at h; simp only [ih h]
          case const => intro x b s ih h; simp only [earlyFreeR] at h ⊢; rw [ih h]
          case bnd => intro b s ih h; rw [earlyFreeR_plug] at h ⊢; dsimp only at h ⊢; rw [ih h]
          case async =>
            intro x t s ih1 ih2 h
            simp only [earlyFreeR, Bool.or_eq_false_iff] at h ⊢
            rw [ih1 h.1, ih2 h.2]
          case nil => intro _; rfl
          case cons =>
            intro s ss ih1 ih2 h
            simp only [earlyFreeRs, Bool.or_eq_false_iff, Stmts.toList] at h ⊢
            rw [ih1 h.1, ih2 h.2]
        exact key.2 ss
      have h2 := ih hb hn hf
      rw [this (by simpa using hch), toList_ofList'] at h2
      exact h2
  case allocate =>
    intro x k e ds s ih hb hn hf ρ tr' ok hr hc hk
    have hfr : ¬ (earlyFreeR s).1.Frees x := fun h => noFreeE_frees.1 s hn x (earlyFreeR_keeps.1 s |>.1 x h)
    simp only [earlyFreeR] at hr
    split at hr
    · next hh =>
      rcases hr with ⟨rfl, hk'⟩ | ⟨h, t'', h1, rfl⟩
      · exact ⟨by simp, by simp, [], .inl ⟨rfl, hk'⟩, .nil⟩
      · have hown : ∀ y, ((ρ.set x ⟨some h, fun k => k = h⟩) y).owns h → y = x := by
          intro y hy
          by_cases hyx : y = x
          · exact hyx
          · rw [HEnv.set_other _ hyx] at hy
            exact (hk h (by simp) ⟨y, .inl hy⟩).elim
        have hah : HEv.alloc h ∉ t'' := by
          have := hc h
          rw [List.count_cons_self, List.count_append] at this
          exact List.count_eq_zero.mp (by omega)
        obtain ⟨t', h2, h3⟩ := (efMut_runs x h).1 _ _ _ _ _ ((earlyFreeR_keeps.1 s).2.2.1 hb.2.2) ((earlyFreeR_keeps.1 s).2.2.2 x (hf.1 hh)) h1
          (by rw [HEnv.set_same]) hown hah
        obtain ⟨g1, g2, t, g3, g4⟩ := goal_alloc (ih hb.2.2 hn hf.2) hn hfr h2 (h3.imp id And.right) hc hk
        exact ⟨g1, g2, _, .inr ⟨h, t, g3, rfl⟩, g4⟩
    · rcases hr with ⟨rfl, hk'⟩ | ⟨h, t'', h1, rfl⟩
      · exact ⟨by simp, by simp, [], .inl ⟨rfl, hk'⟩, .nil⟩
      · obtain ⟨g1, g2, t, g3, g4⟩ := goal_alloc (ih hb.2.2 hn hf.2) hn hfr h1 (.inl rfl) hc hk
        exact ⟨g1, g2, _, .inr ⟨h, t, g3, rfl⟩, g4⟩
  case const =>
    intro x b s ih hb hn hf ρ tr' ok hr hc hk
    simp only [earlyFreeR] at hr
    exact ih hb hn hf _ tr' ok hr hc (fun h hh hk' => hk h hh (known_none hk'))
  case bnd =>
    intro b s ih hb hn hf ρ tr' ok hr hc hk
    rw [bufOK_plug] at hb
    rw [noFreeE_plug] at hn
    rw [freeOK_plug] at hf
    rw [earlyFreeR_plug, runs_plug] at hr
    obtain ⟨g1, g2, t, g3, g4⟩ := ih hb.2 hn hf _ tr' ok hr hc (fun h hh hk' => hk h hh (known_slot hk'))
    exact ⟨g1, g2, t, (runs_plug ..).mpr g3, g4⟩
  case async =>
    intro x t s ih1 ih2 hb hn hf ρ tr' ok hr hc hk
    obtain ⟨rfl, hb1, hb2⟩ := hb
    simp only [earlyFreeR] at hr
    rw [runs_async] at hr
    obtain ⟨a, b, oa, ob, hm, hok, h1, h2⟩ := hr
    obtain ⟨i1, i2, t, i3, i4⟩ := ih1 hb1 hn.1 hf.1 ρ a oa h1 (count_left hm hc) (fun h hh => hk h ((hm.mem _).mpr (.inl hh)))
    obtain ⟨j1, j2, u, j3, j4⟩ := ih2 hb2 hn.2 hf.2 ρ b ob h2 (count_right hm hc) (fun h hh => hk h ((hm.mem _).mpr (.inr hh)))
    obtain ⟨c, k1, k2⟩ := Early.merge hm i4 j4
    refine ⟨?_, life_merge hm hc hk (closed_of_runs h1) (closed_of_runs h2) i2 j2, c, (runs_async ..).mpr ⟨t, u, oa, ob, k1, hok, i3, j3⟩, k2⟩
    intro hb
    rcases (hm.mem _).mp hb with hb | hb
    · exact i1 hb
    · exact j1 hb
  case nil =>
    rintro _ _ _ ρ tr' ok ⟨rfl, h⟩ _ _
    exact ⟨by simp, by simp, [], ⟨rfl, h⟩, .nil⟩
  case cons =>
    intro s ss ih1 ih2 hb hn hf
    exact goal_seq (ih1 hb.1 hn.1 hf.1) (ih2 hb.2 hn.2 hf.2)

end Slinky
