import Verif.EarlyFreeConv

/-!
# C50: `insert_early_free` frees allocations once, and not before their last use
-/

namespace Slinky

theorem not_known_start (h : Nat) : ¬ HEnv.start.Known h := by
  rintro ⟨y, h | h⟩
  · exact h
  · simp [HEnv.start, HSlot.none] at h

/-- C50, under the conditions that no other allocation or constant buffer has the name of a heap allocation in its scope and no two threads use it:
in every execution of the result, each allocation is made once, then used, and then freed once; nothing else is freed; and the execution is one of the
original statement where some frees are earlier. Also, no execution of the original is lost. (Allocations are distinguished by numbers, hence the
condition that no number occurs twice.) -/
theorem earlyFree_spec_partial (s : Stmt) (hb : s.BufOK) (hn : s.NoFreeE) (hf : s.FreeOK) :
    (∀ tr ok, Runs (earlyFree s) .start tr ok → (∀ h, tr.count (.alloc h) ≤ 1) →
      .bad ∉ tr ∧ (∀ h, GoodLife h tr) ∧ ∃ tr₀, Runs s .start tr₀ ok ∧ Early tr tr₀) ∧
    (∀ tr₀ ok, Runs s .start tr₀ ok → (∀ h, tr₀.count (.alloc h) ≤ 1) → ∃ tr, Runs (earlyFree s) .start tr ok ∧ Early tr tr₀) := by
  constructor
  · intro tr ok hr hc
    obtain ⟨h1, h2, h3⟩ := earlyFreeR_goal.1 s hb hn hf .start tr ok hr hc (fun h _ => not_known_start h)
    refine ⟨h1, fun h => ?_, h3⟩
    by_cases ha : HEv.alloc h ∈ tr
    · exact .inr (h2 h ha)
    · exact .inl ((closed_of_runs hr).filter ha (not_known_start h))
  · intro tr ok hr hc
    exact earlyFreeR_conv.1 s hb hn hf .start tr ok hr hc (fun h _ => not_known_start h)

/-- Is the event not a `free`? -/
def HEv.notFree : HEv → Bool
  | .free _ => false
  | _ => true

/-- The meaning of `Early`: the events other than frees are the same, and at each point, what is freed in the original is freed in the result (so the
allocations that are live at any time are a subset). -/
theorem Early.spec {a b : List HEv} (h : Early a b) : a.Perm b ∧ a.filter HEv.notFree = b.filter HEv.notFree ∧
    ∀ p q, a = p ++ q → ∃ p' q', b = p' ++ q' ∧ p.filter HEv.notFree = p'.filter HEv.notFree ∧ ∀ k, .free k ∈ p' → .free k ∈ p := by
  refine ⟨List.perm_iff_count.mpr h.trans_count, ?_, ?_⟩
  · induction h with
    | nil => rfl
    | same e _ ih => simp only [List.filter_cons, ih]
    | move g _ ih => simp only [List.filter_cons, List.filter_append, HEv.notFree] at ih ⊢; simpa using ih
  · induction h with
    | nil =>
      intro p q hp
      refine ⟨[], [], rfl, ?_, by simp⟩
      rw [(List.append_eq_nil_iff.mp hp.symm).1]
    | same e _ ih =>
      intro p q hp
      cases p with
      | nil => exact ⟨[], _, rfl, rfl, by simp⟩
      | cons f p =>
        simp only [List.cons_append, List.cons.injEq] at hp
        obtain ⟨rfl, hp⟩ := hp
        obtain ⟨p', q', rfl, h1, h2⟩ := ih p q hp
        refine ⟨e :: p', q', rfl, by simp only [List.filter_cons, h1], ?_⟩
        intro k hk
        simp only [List.mem_cons] at hk ⊢
        exact hk.imp id (h2 k)
    | move g _ ih =>
      rename_i a b c _
      intro p q hp
      cases p with
      | nil => exact ⟨[], _, rfl, rfl, by simp⟩
      | cons f p =>
        simp only [List.cons_append, List.cons.injEq] at hp
        obtain ⟨rfl, hp⟩ := hp
        obtain ⟨p', q', h0, h1, h2⟩ := ih p q hp
        rcases List.append_eq_append_iff.mp h0 with ⟨r, rfl, rfl⟩ | ⟨r, rfl, rfl⟩
        · refine ⟨b ++ .free g :: r, q', by simp, ?_, ?_⟩
          · simpa [List.filter_cons, HEv.notFree] using h1
          · intro k hk
            simp only [List.mem_append, List.mem_cons, HEv.free.injEq] at hk ⊢
            rcases hk with hk | hk | hk
            · exact .inr (h2 k (by simp [hk]))
            · exact .inl hk
            · exact .inr (h2 k (by simp [hk]))
        · refine ⟨p', r ++ .free g :: c, by simp, ?_, ?_⟩
          · simpa [List.filter_cons, HEv.notFree] using h1
          · intro k hk; exact List.mem_cons_of_mem _ (h2 k hk)

/-! ## The free is right after the last use -/

/-- A call. -/
def Stmt.IsCall (s : Stmt) : Prop := ∃ t i o xs, s = .call t i o xs

theorem earlyFreeRs_calls : ∀ ss : List Stmt, (∀ s ∈ ss, s.IsCall) → earlyFreeRs (.ofList ss) = (ss, false)
  | [], _ => rfl
  | s :: ss, h => by
    obtain ⟨t, i, o, xs, rfl⟩ := h s (by simp)
    simp only [Stmts.ofList, earlyFreeRs, earlyFreeR, earlyFreeRs_calls ss (fun s hs => h s (by simp [hs])), Bool.or_self]

theorem efMut_call {s : Stmt} (h : s.IsCall) (names : List Nat) (f v : Bool) : efMut names f v s = efTerminal names f v s := by
  obtain ⟨t, i, o, xs, rfl⟩ := h
  simp only [efMut]

theorem not_mem_dep {s : Stmt} (hs : s.BufOK) {x : Nat} (h : ¬ s.Mem x) : anyDep (dependsOnS s x) = false := by
  cases hd : anyDep (dependsOnS s x) with
  | false => rfl
  | true =>
    unfold anyDep at hd
    cases hl : dependsOnS s x with
    | nil => rw [hl] at hd; cases hd
    | cons p ps => exact (h ⟨p, (dependsOnS_flags s hs x p).mp (by rw [hl]; simp)⟩).elim

theorem efMuts_post (x : Nat) : ∀ post : List Stmt, (∀ s ∈ post, s.IsCall ∧ s.BufOK ∧ ¬ s.Mem x) →
    efMuts [x] false false (.ofList post) = ⟨post, false, false, !post.isEmpty⟩
  | [], _ => rfl
  | s :: ss, h => by
    obtain ⟨h1, h2, h3⟩ := h s (by simp)
    simp only [Stmts.ofList, efMuts, efMuts_post x ss (fun s hs => h s (by simp [hs])), efMut_call h1, efTerminal, List.any_cons, List.any_nil,
      not_mem_dep h2 h3, Bool.or_self, Bool.and_false, Bool.false_eq_true, if_false, List.isEmpty_cons, Bool.not_false]

theorem efMuts_pre (x : Nat) (ss : Stmts) (hf : (efMuts [x] false false ss).found = true) : ∀ pre : List Stmt,
    (efMuts [x] false false (.ofList (pre ++ ss.toList))).found = true ∧ (efMuts [x] false false (.ofList (pre ++ ss.toList))).ss = pre ++ (efMuts [x] false false ss).ss ∧
    (efMuts [x] false false (.ofList (pre ++ ss.toList))).changed = (efMuts [x] false false ss).changed
  | [] => by simp only [List.nil_append, toList_ofList', hf, and_self]
  | s :: pre => by
    obtain ⟨h1, h2, h3⟩ := efMuts_pre x ss hf pre
    simp only [List.cons_append, Stmts.ofList, efMuts, h1, h2, h3, Bool.or_true, if_true, and_self]

theorem flattenBlocks_append (a b : List Stmt) : flattenBlocks (a ++ b) = flattenBlocks a ++ flattenBlocks b := by
  induction a with
  | nil => rfl
  | cons s a ih => rw [List.cons_append, flattenBlocks_cons, flattenBlocks_cons, ih, List.append_assoc]

theorem flattenBlocks_calls : ∀ ss : List Stmt, (∀ s ∈ ss, s.IsCall) → flattenBlocks ss = ss
  | [], _ => rfl
  | s :: ss, h => by
    obtain ⟨t, i, o, xs, rfl⟩ := h s (by simp)
    rw [flattenBlocks_cons, flattenBlocks_calls ss (fun s hs => h s (by simp [hs]))]
    rfl

theorem eraseUndefs_calls : ∀ ss : List Stmt, (∀ s ∈ ss, s.defined = true) → eraseUndefs ss = ss := by
  intro ss h
  exact List.filter_eq_self.mpr h

theorem isCall_defined {s : Stmt} (h : s.IsCall) : s.defined = true := by
  obtain ⟨t, i, o, xs, rfl⟩ := h
  rfl

theorem blockMake_calls2 {t c : Stmt} (ht : t.IsCall) (hc : c.defined = true) (hb : ∀ ss, c ≠ .block ss) : blockMake [t, c] = .block (.ofList [t, c]) := by
  have h1 : flattenBlocks [t, c] = [t, c] := by
    obtain ⟨_, _, _, _, rfl⟩ := ht
    rw [flattenBlocks_cons, flattenBlocks_cons]
    cases c <;> simp [flattenBlocks] at hb ⊢
  unfold blockMake
  rw [h1, eraseUndefs_calls _ (by simp [isCall_defined ht, hc])]

/-- C50: in a sequence of calls, the free is inserted right after the last call that uses the allocation, if that is not the last call. -/
theorem earlyFree_inserts (x : Nat) (e : Expr) (ds : List DimE) (pre post : List Stmt) (t : Stmt) (hpre : ∀ s ∈ pre, s.IsCall) (ht : t.IsCall)
    (hpost : ∀ s ∈ post, s.IsCall ∧ s.BufOK ∧ ¬ s.Mem x) (htb : t.BufOK) (htm : t.Mem x) (hne : post ≠ []) :
    earlyFree (.allocate x .heap e ds (.block (.ofList (pre ++ t :: post)))) =
      .allocate x .heap e ds (.block (.ofList (pre ++ t :: checkFree x :: post))) := by
  have hcalls : ∀ s ∈ pre ++ t :: post, s.IsCall := by
    intro s hs
    simp only [List.mem_append, List.mem_cons] at hs
    rcases hs with hs | rfl | hs
    · exact hpre s hs
    · exact ht
    · exact (hpost s hs).1
  have hne' : (!post.isEmpty) = true := by cases post <;> simp at hne ⊢
  have h1 : efMuts [x] false false (.ofList (t :: post)) = ⟨blockMake [t, checkFree x] :: post, true, true, true⟩ := by
    simp only [Stmts.ofList, efMuts, efMuts_post x post hpost, efMut_call ht, efTerminal, List.any_cons, List.any_nil,
      mem_dep htb htm, hne', Bool.or_self, Bool.not_false, Bool.or_false, Bool.and_self, if_true, Bool.false_eq_true, if_false, List.headD_cons]
  obtain ⟨g1, g2, g3⟩ := efMuts_pre x (.ofList (t :: post)) (by rw [h1]) pre
  rw [ofList_toList'] at g1 g2 g3
  rw [h1] at g2 g3
  have h2 : blockMake (pre ++ blockMake [t, checkFree x] :: post) = .block (.ofList (pre ++ t :: checkFree x :: post)) := by
    rw [blockMake_calls2 ht rfl (by intro ss h; cases h)]
    unfold blockMake
    have h3 : flattenBlocks (pre ++ Stmt.block (.ofList [t, checkFree x]) :: post) = pre ++ t :: checkFree x :: post := by
      rw [flattenBlocks_append, flattenBlocks_calls pre hpre, flattenBlocks_cons, flattenBlocks_calls post (fun s hs => (hpost s hs).1)]
      rfl
    rw [h3, eraseUndefs_calls _ (by
      intro s hs
      simp only [List.mem_append, List.mem_cons] at hs
      rcases hs with hs | rfl | rfl | hs
      · exact isCall_defined (hpre s hs)
      · exact isCall_defined ht
      · rfl
      · exact isCall_defined (hpost s hs).1)]
    rcases pre with _ | ⟨p, _ | ⟨q, pre⟩⟩ <;> rfl
  simp only [earlyFree, earlyFreeR, earlyFreeRs_calls _ hcalls, Bool.false_eq_true, if_false, if_true, efMut, g3, g2, h2]

/-! ## Examples -/

/-- Two calls that use an allocation, and one that does not. -/
def efEx : Stmt := .allocate 1 .heap (.const 1) [] (.block (.ofList [.call 7 [] [1] [], .call 8 [1] [2] [], .call 9 [2] [3] []]))

theorem efEx_result : earlyFree efEx =
    .allocate 1 .heap (.const 1) [] (.block (.ofList [.call 7 [] [1] [], .call 8 [1] [2] [], checkFree 1, .call 9 [2] [3] []])) := rfl

theorem efEx_conds : efEx.BufOK ∧ efEx.NoFreeE ∧ efEx.FreeOK := by
  simp [efEx, Stmt.BufOK, Stmts.BufOK, Stmt.NoFreeE, Stmts.NoFreeE, Stmt.FreeOK, Stmts.FreeOK, Stmt.OneUser, Stmts.OneUser, Stmts.ofList, Expr.BufOK]

theorem touches_nil (ρ : HEnv) (P : Nat → Prop) : Touches ρ P [] := by intro e he; cases he

theorem touches_one {ρ : HEnv} {P : Nat → Prop} {h x : Nat} (h1 : P x) (h2 : (ρ x).owns h) : Touches ρ P [.use h] := by
  intro e he
  simp only [List.mem_singleton] at he
  exact ⟨h, x, he, h1, h2⟩

/-- The free is before the third call. -/
theorem efEx_run : Runs (earlyFree efEx) .start [.alloc 0, .use 0, .use 0, .free 0] true := by
  rw [efEx_result]
  refine .inr ⟨0, [.use 0, .use 0, .free 0], ?_, rfl⟩
  refine .inr ⟨[.use 0], [.use 0, .free 0], rfl, touches_one (x := 1) ⟨.output, .inr (.inl ⟨by simp, by simp [Dep.out]⟩)⟩ rfl, ?_⟩
  refine .inr ⟨[.use 0], [.free 0], rfl, touches_one (x := 1) ⟨.input, .inl ⟨by simp, by simp [Dep.inp]⟩⟩ rfl, ?_⟩
  refine .inr ⟨[.free 0], [], rfl, ⟨rfl, rfl⟩, ?_⟩
  exact .inr ⟨[], [], rfl, touches_nil _ _, rfl, rfl⟩

/-- A task and a body that use the same allocation. -/
def efRace : Stmt :=
  .allocate 1 .heap (.const 1) [] (.async none (.block (.ofList [.call 7 [1] [2] [], .call 8 [2] [3] []])) (.call 9 [1] [4] []))

/-- **A candidate bug**: if the task and the body of an `async` use an allocation, then the task frees it, also while the body uses it. -/
theorem earlyFree_async_counterexample : efRace.BufOK ∧ efRace.NoFreeE ∧
    earlyFree efRace = .allocate 1 .heap (.const 1) []
      (.async none (.block (.ofList [.call 7 [1] [2] [], checkFree 1, .call 8 [2] [3] []])) (.call 9 [1] [4] [])) ∧
    ∃ tr, Runs (earlyFree efRace) .start tr true ∧ (∀ h, tr.count (.alloc h) ≤ 1) ∧ ¬ GoodLife 0 tr := by
  refine ⟨by simp [efRace, Stmt.BufOK, Stmts.BufOK, Stmts.ofList, Expr.BufOK], by simp [efRace, Stmt.NoFreeE, Stmts.NoFreeE, Stmts.ofList], rfl,
    [.alloc 0, .free 0, .use 0], ?_, ?_, ?_⟩
  · show Runs (.allocate 1 .heap (.const 1) [] (.async none (.block (.ofList [.call 7 [1] [2] [], checkFree 1, .call 8 [2] [3] []])) (.call 9 [1] [4] []))) _ _ _
    refine .inr ⟨0, [.free 0, .use 0], ?_, rfl⟩
    rw [runs_async]
    refine ⟨[.free 0], [.use 0], true, true, .left _ (.right _ .nil), rfl, ?_, ?_⟩
    · refine .inr ⟨[], [.free 0], rfl, touches_nil _ _, .inr ⟨[.free 0], [], rfl, ⟨rfl, rfl⟩, ?_⟩⟩
      exact .inr ⟨[], [], rfl, touches_nil _ _, rfl, rfl⟩
    · exact touches_one (x := 1) ⟨.input, .inl ⟨by simp, by simp [Dep.inp]⟩⟩ rfl
  · intro h
    by_cases h0 : h = 0
    · subst h0; decide
    · simp [Ne.symm h0]
  · rintro (h | ⟨n, h⟩)
    · simp [HEv.on] at h
    · have h1 : [HEv.alloc 0, .free 0, .use 0] = .alloc 0 :: (List.replicate n (.use 0) ++ [.free 0]) := h
      simp only [List.cons.injEq, true_and] at h1
      cases n with
      | zero => simp at h1
      | succ n => simp [List.replicate_succ] at h1

/-- An allocation that is shadowed by another one. -/
def efShadow : Stmt :=
  .allocate 1 .heap (.const 1) [] (.block (.ofList [.call 7 [] [1] [],
    .allocate 1 .heap (.const 1) [] (.block (.ofList [.call 8 [] [1] [], .call 9 [2] [3] []]))]))

/-- **A candidate bug**: if an allocation is shadowed by an allocation of the same name, that one is freed twice. -/
theorem earlyFree_shadow_counterexample : efShadow.BufOK ∧ efShadow.NoFreeE ∧
    earlyFree efShadow = .allocate 1 .heap (.const 1) [] (.block (.ofList [.call 7 [] [1] [],
      .allocate 1 .heap (.const 1) [] (.block (.ofList [.call 8 [] [1] [], checkFree 1, checkFree 1, .call 9 [2] [3] []]))])) ∧
    ∃ tr, Runs (earlyFree efShadow) .start tr true ∧ (∀ h, tr.count (.alloc h) ≤ 1) ∧ tr.count (.free 1) = 2 := by
  refine ⟨by simp [efShadow, Stmt.BufOK, Stmts.BufOK, Stmts.ofList, Expr.BufOK], by simp [efShadow, Stmt.NoFreeE, Stmts.NoFreeE, Stmts.ofList], rfl,
    [.alloc 0, .alloc 1, .free 1, .free 1, .free 0], ?_, ?_, by decide⟩
  · show Runs (.allocate 1 .heap (.const 1) [] (.block (.ofList [.call 7 [] [1] [],
      .allocate 1 .heap (.const 1) [] (.block (.ofList [.call 8 [] [1] [], checkFree 1, checkFree 1, .call 9 [2] [3] []]))]))) _ _ _
    refine .inr ⟨0, [.alloc 1, .free 1, .free 1], ?_, rfl⟩
    refine .inr ⟨[], _, rfl, touches_nil _ _, .inr ⟨[.alloc 1, .free 1, .free 1], [], rfl, ?_, rfl, rfl⟩⟩
    refine .inr ⟨1, [.free 1, .free 1], ?_, rfl⟩
    refine .inr ⟨[], _, rfl, touches_nil _ _, .inr ⟨[.free 1], [.free 1], rfl, ⟨rfl, rfl⟩, .inr ⟨[.free 1], [], rfl, ⟨rfl, rfl⟩, ?_⟩⟩⟩
    exact .inr ⟨[], [], rfl, touches_nil _ _, rfl, rfl⟩
  · intro h
    by_cases h0 : h = 0
    · subst h0; decide
    · by_cases h1 : h = 1
      · subst h1; decide
      · simp [Ne.symm h0, Ne.symm h1]

/-- An allocation that is shadowed by a constant buffer. -/
def efConst : Stmt :=
  .allocate 1 .heap (.const 1) [] (.block (.ofList [.call 7 [] [1] [],
    .constantBuffer 1 ⟨some 0, 1, []⟩ (.block (.ofList [.call 8 [1] [2] [], .call 9 [2] [3] []]))]))

/-- **A candidate bug**: if an allocation is shadowed by a constant buffer, that buffer is freed, though it is not an allocation. -/
theorem earlyFree_const_counterexample : efConst.BufOK ∧ efConst.NoFreeE ∧
    earlyFree efConst = .allocate 1 .heap (.const 1) [] (.block (.ofList [.call 7 [] [1] [],
      .constantBuffer 1 ⟨some 0, 1, []⟩ (.block (.ofList [.call 8 [1] [2] [], checkFree 1, .call 9 [2] [3] []]))])) ∧
    ∃ tr, Runs (earlyFree efConst) .start tr true ∧ (∀ h, tr.count (.alloc h) ≤ 1) ∧ .bad ∈ tr := by
  refine ⟨by simp [efConst, Stmt.BufOK, Stmts.BufOK, Stmts.ofList, Expr.BufOK], by simp [efConst, Stmt.NoFreeE, Stmts.NoFreeE, Stmts.ofList], rfl,
    [.alloc 0, .bad, .free 0], ?_, ?_, by decide⟩
  · show Runs (.allocate 1 .heap (.const 1) [] (.block (.ofList [.call 7 [] [1] [],
      .constantBuffer 1 ⟨some 0, 1, []⟩ (.block (.ofList [.call 8 [1] [2] [], checkFree 1, .call 9 [2] [3] []]))]))) _ _ _
    refine .inr ⟨0, [.bad], ?_, rfl⟩
    refine .inr ⟨[], _, rfl, touches_nil _ _, .inr ⟨[.bad], [], rfl, ?_, rfl, rfl⟩⟩
    refine .inr ⟨[], _, rfl, touches_nil _ _, .inr ⟨[.bad], [], rfl, ⟨rfl, rfl⟩, ?_⟩⟩
    exact .inr ⟨[], [], rfl, touches_nil _ _, rfl, rfl⟩
  · intro h
    by_cases h0 : h = 0
    · subst h0; decide
    · simp [Ne.symm h0]

end Slinky
