import Verif.ParMain

/-!
# C51: `parallelize_tasks` keeps the order of statements that depend on each other
-/

namespace Slinky

variable {V : Type}

theorem TWorld.Legal.of_same {W : TWorld V} {r r' : List (TAct V)} {t : List (TAct V × Bool)} {ok : Bool} (h : W.Legal r t ok) (hs : W.Same r r') :
    W.Legal r' t ok := by
  obtain ⟨⟨rest, h1, h2⟩, h3⟩ := h
  exact ⟨⟨rest, h1.trans hs, h2⟩, h3⟩

/-- C51, under the conditions in `Stmt.TaskOK`. `Γ` contains the symbols of the buffers outside of the statement, and different buffers have different
memory. For everything that the result can do (`p'`, where each allocation is new memory), the original can do `p` such that, if nothing in `p` that
runs at the same time depends on each other, then that is so for `p'`, and every execution of `p'` (with any interleaving, and with errors at any
point) is a legal execution of the actions of `p` in the original order. -/
theorem parallelizeTasks_spec_partial (W : TWorld V) (hW : W.OK) (s : Stmt) (Γ : List Nat) (hs : s.TaskOK Γ []) (ρ : Nat → V)
    (hΓ : ∀ x k, W.mem (ρ x) k → x ∈ Γ) (hd : ∀ x y k, W.mem (ρ x) k → W.mem (ρ y) k → x = y)
    (p' : TProc V) (hp : W.Unr (parallelizeTasks s) ρ p') (hf : W.Fresh ρ p') :
    ∃ p, W.Unr s ρ p ∧ p'.serial.Perm p.serial ∧
      (p.RaceFree W → p'.RaceFree W ∧ W.Same p'.serial p.serial ∧ ∀ t ok, TProc.Run p' t ok → W.Legal p.serial t ok) := by
  have E : PT.EnvOK W (fun _ => none) (fun r k => W.mem (ρ r) k) Γ [] ρ :=
    ⟨fun z k h => by simpa [PT.look] using h, hd, hΓ, fun z h => absurd rfl h, hΓ, fun z hz => absurd hz (by simp)⟩
  obtain ⟨p, h1, h2, _⟩ := (PT.visit_main hW).1 s (fun _ => none) ⟨[], [], false⟩ Γ [] (fun r k => W.mem (ρ r) k) ρ hs E p' hp
    ⟨hf.1, fun h hh r hr => hf.2 h hh r hr⟩
  refine ⟨p, h1, h2.1, fun hr => ?_⟩
  obtain ⟨h3, h4⟩ := h2.2 hr
  exact ⟨h3, h4, fun t ok ht => (ht.legal h3).of_same h4⟩

mutual
/-- There is only one thread: loops are serial and there are no tasks. -/
def Stmt.OneThread (W : TWorld V) : Stmt → Prop
  | .undef => True
  | .call .. => True
  | .copy .. => True
  | .check _ => True
  | .lets _ s _ => s.OneThread W
  | .block ss => ss.OneThread W
  | .loop _ wk _ _ s => (∀ ρ, W.serial wk ρ = true) ∧ s.OneThread W
  | .allocate _ _ _ _ s => s.OneThread W
  | .constantBuffer _ _ s => s.OneThread W
  | .makeBuffer _ _ _ _ s => s.OneThread W
  | .cloneBuffer _ _ s => s.OneThread W
  | .cropBuffer _ _ _ s => s.OneThread W
  | .cropDim _ _ _ _ s => s.OneThread W
  | .sliceBuffer _ _ _ s => s.OneThread W
  | .sliceDim _ _ _ _ s => s.OneThread W
  | .transpose _ _ _ s => s.OneThread W
  | .async .. => False
/-- See `Stmt.OneThread`. -/
def Stmts.OneThread (W : TWorld V) : Stmts → Prop
  | .nil => True
  | .cons s ss => s.OneThread W ∧ ss.OneThread W
end

mutual
theorem oneThread_raceFree (W : TWorld V) : ∀ (s : Stmt) (ρ : Nat → V) (p : TProc V), s.OneThread W → W.Unr s ρ p → p.RaceFree W
  | .undef, _, _, _, h => by simp only [TWorld.Unr] at h; subst h; trivial
  | .call .., _, _, _, h => by simp only [TWorld.Unr] at h; subst h; trivial
  | .copy .., _, _, _, h => by simp only [TWorld.Unr] at h; subst h; trivial
  | .check _, _, _, _, h => by simp only [TWorld.Unr] at h; subst h; trivial
  | .lets _ s _, _, _, h0, h => oneThread_raceFree W s _ _ h0 (by simpa only [TWorld.Unr] using h)
  | .block ss, _, _, h0, h => oneThreads_raceFree W ss _ _ h0 (by simpa only [TWorld.Unr] using h)
  | .loop x wk b st s, ρ, _, h0, h => by
    simp only [TWorld.Unr, h0.1 ρ, if_true] at h
    obtain ⟨ps, h1, rfl⟩ := h
    rw [TProc.seqs_raceFree]
    intro q hq
    obtain ⟨i, hi, rfl⟩ := List.getElem_of_mem hq
    have := (List.forall₂_iff_get.mp h1).2 i (by rw [(List.forall₂_iff_get.mp h1).1]; exact hi) hi
    exact oneThread_raceFree W s _ _ h0.2 this
  | .allocate _ _ _ _ s, _, _, h0, h => by
    simp only [TWorld.Unr] at h
    obtain ⟨_, q, h1, rfl⟩ := h
    exact ⟨trivial, oneThread_raceFree W s _ _ h0 h1⟩
  | .constantBuffer _ _ s, _, _, h0, h => oneThread_raceFree W s _ _ h0 (by simpa only [TWorld.Unr] using h)
  | .makeBuffer _ _ _ _ s, _, _, h0, h => oneThread_raceFree W s _ _ h0 (by simpa only [TWorld.Unr] using h)
  | .cloneBuffer _ _ s, _, _, h0, h => oneThread_raceFree W s _ _ h0 (by simpa only [TWorld.Unr] using h)
  | .cropBuffer _ _ _ s, _, _, h0, h => oneThread_raceFree W s _ _ h0 (by simpa only [TWorld.Unr] using h)
  | .cropDim _ _ _ _ s, _, _, h0, h => oneThread_raceFree W s _ _ h0 (by simpa only [TWorld.Unr] using h)
  | .sliceBuffer _ _ _ s, _, _, h0, h => oneThread_raceFree W s _ _ h0 (by simpa only [TWorld.Unr] using h)
  | .sliceDim _ _ _ _ s, _, _, h0, h => oneThread_raceFree W s _ _ h0 (by simpa only [TWorld.Unr] using h)
  | .transpose _ _ _ s, _, _, h0, h => oneThread_raceFree W s _ _ h0 (by simpa only [TWorld.Unr] using h)
  | .async .., _, _, h0, _ => h0.elim
theorem oneThreads_raceFree (W : TWorld V) : ∀ (ss : Stmts) (ρ : Nat → V) (p : TProc V), ss.OneThread W → W.UnrL ss ρ p → p.RaceFree W
  | .nil, _, _, _, h => by simp only [TWorld.UnrL] at h; subst h; trivial
  | .cons s ss, _, _, h0, h => by
    simp only [TWorld.UnrL] at h
    obtain ⟨a, b, h1, h2, rfl⟩ := h
    exact ⟨oneThread_raceFree W s _ _ h0.1 h1, oneThreads_raceFree W ss _ _ h0.2 h2⟩
end

/-- The order of actions that depend on each other is the same: if no two different actions with `P` are independent, the actions with `P` are in the
same order. -/
theorem TWorld.Same.order {W : TWorld V} {t u : List (TAct V)} (h : W.Same t u) (P : TAct V → Bool)
    (hP : ∀ a b, P a = true → P b = true → W.Indep a b → a = b) : t.filter P = u.filter P := by
  induction h with
  | refl _ => rfl
  | swap u a b v hi =>
    simp only [List.filter_append, List.filter_cons]
    cases h1 : P a <;> cases h2 : P b <;> simp_all
    have := hP a b h1 h2 hi
    subst this
    exact ⟨rfl, rfl⟩
  | trans _ _ h1 h2 => exact h1.trans h2

/-- C51 for a statement that has only one thread, and for what the memory is at the end: the result cannot have a race, and if `step` is what an action
does to the memory, where the order of independent actions does not matter, every execution of the result that succeeds leaves the memory that the
original leaves. -/
theorem parallelizeTasks_state_partial (W : TWorld V) (hW : W.OK) (s : Stmt) (Γ : List Nat) (hs : s.TaskOK Γ []) (h1 : s.OneThread W) (ρ : Nat → V)
    (hΓ : ∀ x k, W.mem (ρ x) k → x ∈ Γ) (hd : ∀ x y k, W.mem (ρ x) k → W.mem (ρ y) k → x = y)
    (p' : TProc V) (hp : W.Unr (parallelizeTasks s) ρ p') (hf : W.Fresh ρ p') {M : Type} (step : M → TAct V → M)
    (hstep : ∀ m a b, W.Indep a b → step (step m a) b = step (step m b) a) :
    p'.RaceFree W ∧ ∃ p, W.Unr s ρ p ∧ ∀ t m, TProc.Run p' t true → (t.map Prod.fst).foldl step m = p.serial.foldl step m := by
  obtain ⟨p, g1, _, g2⟩ := parallelizeTasks_spec_partial W hW s Γ hs ρ hΓ hd p' hp hf
  obtain ⟨g3, _, g5⟩ := g2 (oneThread_raceFree W s ρ p h1 g1)
  refine ⟨g3, p, g1, fun t m ht => ?_⟩
  obtain ⟨⟨rest, g6, g7⟩, _⟩ := g5 t true ht
  rw [g7 rfl, List.append_nil] at g6
  have key : ∀ a b : List (TAct V), W.Same a b → ∀ m, a.foldl step m = b.foldl step m := by
    intro a b h
    induction h with
    | refl _ => exact fun _ => rfl
    | swap u a b v hi =>
      intro m
      simp only [List.foldl_append, List.foldl_cons]
      rw [hstep _ a b hi]
    | trans _ _ i1 i2 => exact fun m => (i1 m).trans (i2 m)
  exact key _ _ g6 m

/-! ## Examples -/

/-- A world: a value is the list of the memory that it refers to, a loop has two iterations, and it is serial if `max_workers` is 1. -/
def ptW : TWorld (List Nat) where
  mem v k := k ∈ v
  value e ρ := e.plain.flatMap ρ
  iters _ _ _ _ := [[], []]
  serial wk _ := match wk with | .const 1 => true | _ => false
  alloc _ _ _ _ _ h := [h]
  const _ := []
  view b ρ := b.srcs.flatMap ρ
  handle := []

theorem ptW_ok : ptW.OK where
  alloc := by intro _ _ _ _ _ h m hm; simpa [ptW] using hm
  const := by intro _ m hm; simp [ptW] at hm
  view := by intro b ρ m hm; simpa [ptW] using hm
  value := by intro b ρ m hm; simpa [ptW] using hm
  iters := by intro _ _ _ _ v hv m hm; simp [ptW] at hv; subst hv; simp [ptW] at hm

/-- Each of the symbols 0 to 9 is a buffer with memory of its own. -/
def ptEnv : Nat → List Nat := fun x => if x < 10 then [x] else []

theorem ptEnv_scope (x k : Nat) (h : ptW.mem (ptEnv x) k) : x ∈ List.range 10 := by
  by_contra hx
  simp only [List.mem_range] at hx
  simp [ptW, ptEnv, hx] at h

theorem ptEnv_disj (x y k : Nat) (h : ptW.mem (ptEnv x) k) (h' : ptW.mem (ptEnv y) k) : x = y := by
  have hx := List.mem_range.mp (ptEnv_scope x k h)
  have hy := List.mem_range.mp (ptEnv_scope y k h')
  simp [ptW, ptEnv, hx] at h
  simp [ptW, ptEnv, hy] at h'
  omega

/-- A call in examples. -/
abbrev ptCall (i o : List Nat) : Stmt := .call 7 i o []

/-- The examples in builder/test/optimizations.cc:265-420, where the variables u, v, w, x, y, z are 1 to 6. -/
theorem parallelizeTasks_tests :
    parallelizeTasks (.block (.ofList [ptCall [4] [5], ptCall [4] [6]])) = .async none (ptCall [4] [5]) (ptCall [4] [6]) ∧
    parallelizeTasks (.block (.ofList [ptCall [4] [5], ptCall [5] [6]])) = .block (.ofList [ptCall [4] [5], ptCall [5] [6]]) ∧
    parallelizeTasks (.block (.ofList [.check (.var 3 .none 0), ptCall [4] [5], ptCall [4] [6]])) =
      .async none (ptCall [4] [5]) (.block (.ofList [.check (.var 3 .none 0), ptCall [4] [6]])) ∧
    parallelizeTasks (.block (.ofList [.check (.var 3 .none 0), ptCall [4] [5], ptCall [5] [6]])) =
      .block (.ofList [.check (.var 3 .none 0), ptCall [4] [5], ptCall [5] [6]]) ∧
    parallelizeTasks (.block (.ofList [ptCall [4] [5], ptCall [5] [5]])) = .block (.ofList [ptCall [4] [5], ptCall [5] [5]]) ∧
    parallelizeTasks (.block (.ofList [ptCall [4] [5], ptCall [5] [6], ptCall [5] [3], ptCall [5] [1]])) =
      .block (.ofList [ptCall [4] [5], .async none (ptCall [5] [6]) (.async none (ptCall [5] [3]) (ptCall [5] [1]))]) ∧
    parallelizeTasks (.block (.ofList [.check (.bin .lt (.var 4 .min 0) (.var 4 .max 0)), ptCall [4] [5], ptCall [4] [6]])) =
      .block (.ofList [.check (.bin .lt (.var 4 .min 0) (.var 4 .max 0)), .async none (ptCall [4] [5]) (ptCall [4] [6])]) ∧
    parallelizeTasks (.block (.ofList [ptCall [4] [5], ptCall [5] [6], ptCall [4] [3], ptCall [3] [1], ptCall [6, 1] [2]])) =
      .block (.ofList [.async none (.block (.ofList [ptCall [4] [5], ptCall [5] [6]])) (.block (.ofList [ptCall [4] [3], ptCall [3] [1]])),
        ptCall [6, 1] [2]]) ∧
    parallelizeTasks (.block (.ofList [ptCall [4] [5], ptCall [5] [6], ptCall [5] [5]])) =
      .block (.ofList [ptCall [4] [5], ptCall [5] [6], ptCall [5] [5]]) :=
  ⟨rfl, rfl, rfl, rfl, rfl, rfl, rfl, rfl, rfl⟩

/-- An allocation with two stages that make parts of it, in crops, and a stage that uses it. -/
def ptEx : Stmt :=
  .allocate 11 .heap (.const 1) [] (.block (.ofList [ptCall [1] [11],
    .cropDim 12 11 0 ⟨.const 0, .const 1, false⟩ (.block (.ofList [ptCall [12] [2], ptCall [12] [3], ptCall [2, 3] [4]])),
    .copy 0 11 [] 5 [] none, .check (.bin .lt (.var 5 .min 0) (.var 5 .max 0)),
    .loop 13 (.const 1) ⟨.const 0, .const 1, false⟩ (.const 1) (ptCall [4] [6])]))

/-- The hypotheses of C51 are met by an example in which stages run at the same time. -/
theorem ptEx_spec : ptEx.TaskOK (List.range 10) [] ∧ ptEx.OneThread ptW ∧
    parallelizeTasks ptEx = .allocate 11 .heap (.const 1) [] (.block (.ofList [ptCall [1] [11],
      .async none
        (.block (.ofList [.copy 0 11 [] 5 [] none, .check (.bin .lt (.var 5 .min 0) (.var 5 .max 0))]))
        (.block (.ofList [
          .cropDim 12 11 0 ⟨.const 0, .const 1, false⟩ (.block (.ofList [.async none (ptCall [12] [2]) (ptCall [12] [3]), ptCall [2, 3] [4]])),
          .loop 13 (.const 1) ⟨.const 0, .const 1, false⟩ (.const 1) (ptCall [4] [6])]))])) := by
  refine ⟨by simp [ptEx, ptCall, Stmt.TaskOK, Stmts.TaskOK, Stmts.ofList, Expr.plain],
    by simp [ptEx, ptCall, Stmt.OneThread, Stmts.OneThread, Stmts.ofList, ptW], rfl⟩

/-- There is something that the result of the example can do, where the allocation is new. -/
theorem ptEx_runs : ∃ p', ptW.Unr (parallelizeTasks ptEx) ptEnv p' ∧ ptW.Fresh ptEnv p' ∧ ∃ t, TProc.Run p' t true ∧ t.length = 9 := by
  rw [ptEx_spec.2.2]
  refine ⟨_, ⟨100, _, ⟨_, _, rfl, ⟨_, _, ⟨_, _, ⟨_, _, rfl, ⟨_, _, rfl, rfl, rfl⟩, rfl⟩, ⟨_, _, ⟨_, _, ⟨_, _, rfl, rfl, rfl⟩, ⟨_, _, rfl, rfl, rfl⟩, rfl⟩,
    ⟨_, _, ⟨_, .cons rfl (.cons rfl .nil), rfl⟩, rfl, rfl⟩, rfl⟩, rfl⟩, rfl, rfl⟩, rfl⟩, rfl⟩, ⟨List.nodup_singleton 100, ?_⟩, ?_⟩
  · intro h hh x hx
    have hh' : h ∈ [100] := hh
    rw [List.mem_singleton] at hh'
    subst hh'
    simp only [ptW, ptEnv] at hx
    split at hx <;> simp at hx
    omega
  · exact ⟨_, .seq (.act _ true) (.seq (.act _ true) (.seq (.par (.seq (.act _ true) (.seq (.act _ true) .skip))
      (.seq (.seq (.par (.act _ true) (.act _ true) (.left _ (.right _ .nil))) (.seq (.act _ true) .skip)) (.seq (.seq (.act _ true) (.seq (.act _ true) .skip)) .skip))
      (.right _ (.left _ (.right _ (.right _ (.left _ (.right _ (.right _ .nil)))))))) .skip)), rfl⟩

/-! ## What happens without the conditions -/

/-- There is an execution of the result that succeeds and is not a legal execution of the original, in which there was no race. -/
def PtBroken (s : Stmt) : Prop :=
  ∃ p' t, ptW.Unr (parallelizeTasks s) ptEnv p' ∧ ptW.Fresh ptEnv p' ∧ TProc.Run p' t true ∧
    ∀ p, ptW.Unr s ptEnv p → p.RaceFree ptW ∧ ¬ ptW.Legal p.serial t true

/-- An execution is not legal if it does `b` before `a`. -/
theorem not_legal {W : TWorld V} (a b : TAct V) (hne : a ≠ b) (hdep : ¬ W.Indep a b) (r u1 u2 v1 v2 : List (TAct V)) (t : List (TAct V × Bool))
    (ht : t.map Prod.fst = u1 ++ b :: u2) (hu : a ∉ u1 ∧ b ∉ u1) (hr : r = v1 ++ a :: v2) (hv : a ∉ v1 ∧ b ∉ v1) : ¬ W.Legal r t true := by
  classical
  rintro ⟨⟨rest, h1, h2⟩, _⟩
  rw [h2 rfl, List.append_nil, ht, hr] at h1
  have h3 := h1.order (fun x => decide (x = a ∨ x = b)) (by
    intro x y hx hy hi
    simp only [decide_eq_true_eq] at hx hy
    rcases hx with rfl | rfl <;> rcases hy with rfl | rfl
    · rfl
    · exact absurd hi hdep
    · exact absurd hi.symm hdep
    · rfl)
  have e1 : ∀ l : List (TAct V), a ∉ l ∧ b ∉ l → l.filter (fun x => decide (x = a ∨ x = b)) = [] := by
    intro l hl
    rw [List.filter_eq_nil_iff]
    intro x hx hh
    simp only [decide_eq_true_eq] at hh
    rcases hh with rfl | rfl
    · exact hl.1 hx
    · exact hl.2 hx
  rw [List.filter_append, List.filter_append, e1 _ hu, e1 _ hv] at h3
  simp at h3
  exact hne h3.1.symm

/-- Does the second action write what the first one reads? -/
theorem dep_of {W : TWorld V} {a b : TAct V} (k : Nat) (h : W.Writes a k) (h' : W.Reads b k ∨ W.Writes b k) : ¬ W.Indep a b :=
  fun hi => (hi k).1 ⟨h, h'⟩

/-- The padding of a copy is made by a call before it. -/
def ptPad : Stmt := .block (.ofList [ptCall [] [1], .copy 0 2 [] 3 [] (some 1)])

/-- **A candidate bug** (condition 1): the buffer that a copy pads with is not recorded as consumed, so it can be made after the copy. -/
theorem parallelizeTasks_pad_counterexample : parallelizeTasks ptPad = .async none (ptCall [] [1]) (.copy 0 2 [] 3 [] (some 1)) ∧ PtBroken ptPad := by
  refine ⟨rfl, .par (.act (.leaf (ptCall [] [1]) ptEnv)) (.act (.leaf (.copy 0 2 [] 3 [] (some 1)) ptEnv)),
    [(.leaf (.copy 0 2 [] 3 [] (some 1)) ptEnv, true), (.leaf (ptCall [] [1]) ptEnv, true)], ⟨_, _, rfl, rfl, rfl⟩, ⟨by simp [TProc.allocs, TProc.serial],
      by simp [TProc.allocs, TProc.serial]⟩, .par (.act _ true) (.act _ true) (.right _ (.left _ .nil)), ?_⟩
  rintro p ⟨a, q, rfl, ⟨b, q', rfl, rfl, rfl⟩, rfl⟩
  refine ⟨⟨trivial, trivial, trivial⟩, not_legal (.leaf (ptCall [] [1]) ptEnv) (.leaf (.copy 0 2 [] 3 [] (some 1)) ptEnv) (by simp) ?_ _ [] _ [] _ _
    rfl (by simp) rfl (by simp)⟩
  exact dep_of 1 ⟨1, by simp, by simp [ptW, ptEnv]⟩ (.inl (.inr ⟨1, rfl, by simp [ptW, ptEnv]⟩))

/-- A buffer is freed after a call that uses it. -/
def ptFree : Stmt := .block (.ofList [ptCall [1] [2], checkFree 1])

/-- **A candidate bug** (condition 2): `free` is not recorded as a use of the buffer, so a buffer is freed before it is used. -/
theorem parallelizeTasks_free_counterexample : parallelizeTasks ptFree = .block (.ofList [checkFree 1, ptCall [1] [2]]) ∧ PtBroken ptFree := by
  refine ⟨rfl, .seq (.act (.leaf (checkFree 1) ptEnv)) (.seq (.act (.leaf (ptCall [1] [2]) ptEnv)) .skip),
    [(.leaf (checkFree 1) ptEnv, true), (.leaf (ptCall [1] [2]) ptEnv, true)], ⟨_, _, rfl, ⟨_, _, rfl, rfl, rfl⟩, rfl⟩, ⟨by simp [TProc.allocs, TProc.serial,
      checkFree], by simp [TProc.allocs, TProc.serial, checkFree]⟩, .seq (.act _ true) (.seq (.act _ true) .skip), ?_⟩
  rintro p ⟨a, q, rfl, ⟨b, q', rfl, rfl, rfl⟩, rfl⟩
  refine ⟨⟨trivial, trivial, trivial⟩, not_legal (.leaf (ptCall [1] [2]) ptEnv) (.leaf (checkFree 1) ptEnv) (by simp [checkFree]) ?_ _ [] _ [] _ _
    rfl (by simp) rfl (by simp)⟩
  exact fun h => dep_of (W := ptW) (a := .leaf (checkFree 1) ptEnv) (b := .leaf (ptCall [1] [2]) ptEnv) 1
    ⟨1, by simp [Expr.v, Expr.occurs, Exprs.occurs], by simp [ptW, ptEnv]⟩ (.inl ⟨1, by simp, by simp [ptW, ptEnv]⟩) h.symm

/-- A buffer has a new name. -/
def ptLet : Stmt := .block (.ofList [ptCall [] [1], .lets (.cons 11 (.var 1 .none 0) .nil) (ptCall [11] [2]) false])

/-- Condition 3: a let is not recorded as an alias. -/
theorem parallelizeTasks_let_counterexample :
    parallelizeTasks ptLet = .async none (ptCall [] [1]) (.lets (.cons 11 (.var 1 .none 0) .nil) (ptCall [11] [2]) false) ∧ PtBroken ptLet := by
  have hl : ∀ q, ptW.Unr (.lets (.cons 11 (.var 1 .none 0) .nil) (ptCall [11] [2]) false) ptEnv q ↔
      q = .act (.leaf (ptCall [11] [2]) (TWorld.set ptEnv 11 [1])) := fun q => Iff.rfl
  refine ⟨rfl, .par (.act (.leaf (ptCall [] [1]) ptEnv)) (.act (.leaf (ptCall [11] [2]) (TWorld.set ptEnv 11 [1]))),
    [(.leaf (ptCall [11] [2]) (TWorld.set ptEnv 11 [1]), true), (.leaf (ptCall [] [1]) ptEnv, true)], ⟨_, _, rfl, (hl _).mpr rfl, rfl⟩,
    ⟨by simp [TProc.allocs, TProc.serial], by simp [TProc.allocs, TProc.serial]⟩, .par (.act _ true) (.act _ true) (.right _ (.left _ .nil)), ?_⟩
  rintro p ⟨a, q, rfl, ⟨b, q', hb, rfl, rfl⟩, rfl⟩
  rw [hl] at hb
  subst hb
  refine ⟨⟨trivial, trivial, trivial⟩, not_legal (.leaf (ptCall [] [1]) ptEnv) (.leaf (ptCall [11] [2]) (TWorld.set ptEnv 11 [1])) (by simp) ?_ _ [] _ [] _ _
    rfl (by simp) rfl (by simp)⟩
  exact dep_of 1 ⟨1, by simp, by simp [ptW, ptEnv]⟩ (.inl ⟨11, by simp, by simp [ptW, ptEnv, TWorld.set]⟩)

/-- A crop is used in an allocation that has the name of the buffer that was cropped. -/
def ptShadow : Stmt :=
  .cropDim 11 2 0 ⟨.const 0, .const 1, false⟩ (.block (.ofList [ptCall [] [11], .allocate 2 .heap (.const 1) [] (ptCall [11] [3])]))

/-- **A candidate bug** (condition 4): an allocation removes the uses of the buffer that it shadows, also if they are uses of an alias of that buffer. -/
theorem parallelizeTasks_shadow_counterexample : parallelizeTasks ptShadow =
      .cropDim 11 2 0 ⟨.const 0, .const 1, false⟩ (.async none (ptCall [] [11]) (.allocate 2 .heap (.const 1) [] (ptCall [11] [3]))) ∧
    PtBroken ptShadow := by
  let ρ : Nat → List Nat := TWorld.set ptEnv 11 [2]
  have hl : ∀ s q, ptW.Unr (.cropDim 11 2 0 ⟨.const 0, .const 1, false⟩ s) ptEnv q ↔ ptW.Unr s ρ q := fun s q => Iff.rfl
  have ha : ∀ q, ptW.Unr (.allocate 2 .heap (.const 1) [] (ptCall [11] [3])) ρ q ↔
      ∃ h p, p = .act (.leaf (ptCall [11] [3]) (TWorld.set ρ 2 [h])) ∧ q = .seq (.act (.alloc h)) p := fun q => Iff.rfl
  refine ⟨rfl, .par (.act (.leaf (ptCall [] [11]) ρ)) (.seq (.act (.alloc 100)) (.act (.leaf (ptCall [11] [3]) (TWorld.set ρ 2 [100])))),
    [(.alloc 100, true), (.leaf (ptCall [11] [3]) (TWorld.set ρ 2 [100]), true), (.leaf (ptCall [] [11]) ρ, true)],
    (hl (.async none (ptCall [] [11]) (.allocate 2 .heap (.const 1) [] (ptCall [11] [3]))) _).mpr ⟨_, _, rfl, (ha _).mpr ⟨_, _, rfl, rfl⟩, rfl⟩,
    ⟨by simp [TProc.allocs, TProc.serial], ?_⟩,
    .par (.act _ true) (.seq (.act _ true) (.act _ true)) (.right _ (.right _ (.left _ .nil))), ?_⟩
  · intro h hh x hx
    simp [TProc.allocs, TProc.serial] at hh
    subst hh
    simp only [ptW, ptEnv] at hx
    split at hx <;> simp at hx
    omega
  rintro p hp
  obtain ⟨a, q, rfl, ⟨b, q', hb, rfl, rfl⟩, rfl⟩ := (hl _ _).mp hp
  obtain ⟨h, _, rfl, rfl⟩ := (ha _).mp hb
  refine ⟨⟨trivial, ⟨trivial, trivial⟩, trivial⟩, not_legal (.leaf (ptCall [] [11]) ρ) (.leaf (ptCall [11] [3]) (TWorld.set ρ 2 [100])) (by simp) ?_ _
    [.alloc 100] _ [] _ _ rfl (by simp) rfl (by simp)⟩
  exact dep_of 2 ⟨11, by simp, by simp [ptW, ρ, TWorld.set]⟩ (.inl ⟨11, by simp, by simp [ptW, ρ, TWorld.set]⟩)

/-- A buffer that is made from one of two buffers. -/
def ptMake : Stmt :=
  .block (.ofList [ptCall [] [1], .makeBuffer 11 (.select (.var 20 .none 0) (.call .bufferAt (.cons (.var 1 .none 0) .nil))
    (.call .bufferAt (.cons (.var 2 .none 0) .nil))) (.const 1) [] (.block (.ofList [ptCall [11] [4], ptCall [4] [5]]))])

/-- **A candidate bug** (condition 5): a block removes the uses of buffers in the expressions around it. -/
theorem parallelizeTasks_make_counterexample : (∃ t, parallelizeTasks ptMake = .async none (ptCall [] [1]) t) ∧ PtBroken ptMake := by
  let ρ : Nat → List Nat := TWorld.set ptEnv 11 [1, 2]
  let mk : Stmt → Stmt := .makeBuffer 11 (.select (.var 20 .none 0) (.call .bufferAt (.cons (.var 1 .none 0) .nil))
    (.call .bufferAt (.cons (.var 2 .none 0) .nil))) (.const 1) []
  have hl : ∀ q, ptW.Unr (mk (.block (.ofList [ptCall [11] [4], ptCall [4] [5]]))) ptEnv q ↔
      ptW.Unr (.block (.ofList [ptCall [11] [4], ptCall [4] [5]])) ρ q := fun q => Iff.rfl
  refine ⟨⟨_, rfl⟩, .par (.act (.leaf (ptCall [] [1]) ptEnv)) (.seq (.act (.leaf (ptCall [11] [4]) ρ)) (.seq (.act (.leaf (ptCall [4] [5]) ρ)) .skip)),
    [(.leaf (ptCall [11] [4]) ρ, true), (.leaf (ptCall [4] [5]) ρ, true), (.leaf (ptCall [] [1]) ptEnv, true)],
    ⟨_, _, rfl, (hl _).mpr ⟨_, _, rfl, ⟨_, _, rfl, rfl, rfl⟩, rfl⟩, rfl⟩, ⟨by simp [TProc.allocs, TProc.serial], by simp [TProc.allocs, TProc.serial]⟩,
    .par (.act _ true) (.seq (.act _ true) (.seq (.act _ true) .skip)) (.right _ (.right _ (.left _ .nil))), ?_⟩
  rintro p ⟨a, q, rfl, ⟨b, q', hb, rfl, rfl⟩, rfl⟩
  obtain ⟨_, _, rfl, ⟨_, _, rfl, rfl, rfl⟩, rfl⟩ := (hl _).mp hb
  refine ⟨⟨trivial, ⟨trivial, trivial, trivial⟩, trivial⟩, not_legal (.leaf (ptCall [] [1]) ptEnv) (.leaf (ptCall [11] [4]) ρ) (by simp) ?_ _ [] _ [] _ _
    rfl (by simp) rfl (by simp)⟩
  exact dep_of 1 ⟨1, by simp, by simp [ptW, ptEnv]⟩ (.inl ⟨11, by simp, by simp [ptW, ρ, TWorld.set]⟩)

/-- A statement that has a task. -/
def ptAsync : Stmt := .block (.ofList [.async none (ptCall [] [1]) (.block (.ofList [ptCall [] [2], ptCall [2] [3]])), ptCall [1] [4]])

/-- **A candidate bug** (condition 6): a block removes what is produced by a task that runs at the same time as the block. -/
theorem parallelizeTasks_async_counterexample : parallelizeTasks ptAsync =
      .async none (.async none (ptCall [] [1]) (.block (.ofList [ptCall [] [2], ptCall [2] [3]]))) (ptCall [1] [4]) ∧
    PtBroken ptAsync := by
  refine ⟨rfl, .par (.par (.act (.leaf (ptCall [] [1]) ptEnv)) (.seq (.act (.leaf (ptCall [] [2]) ptEnv)) (.seq (.act (.leaf (ptCall [2] [3]) ptEnv)) .skip)))
      (.act (.leaf (ptCall [1] [4]) ptEnv)),
    [(.leaf (ptCall [1] [4]) ptEnv, true), (.leaf (ptCall [] [1]) ptEnv, true), (.leaf (ptCall [] [2]) ptEnv, true), (.leaf (ptCall [2] [3]) ptEnv, true)],
    ⟨_, _, ⟨_, _, rfl, ⟨_, _, rfl, ⟨_, _, rfl, rfl, rfl⟩, rfl⟩, rfl⟩, rfl, rfl⟩, ⟨by simp [TProc.allocs, TProc.serial], by simp [TProc.allocs, TProc.serial]⟩,
    .par (.par (.act _ true) (.seq (.act _ true) (.seq (.act _ true) .skip)) (.left _ (.right _ (.right _ .nil)))) (.act _ true)
      (.right _ (.left _ (.left _ (.left _ .nil)))), ?_⟩
  rintro p ⟨_, _, ⟨_, _, rfl, ⟨_, _, rfl, ⟨_, _, rfl, rfl, rfl⟩, rfl⟩, rfl⟩, ⟨b, q', rfl, rfl, rfl⟩, rfl⟩
  refine ⟨⟨⟨trivial, ⟨trivial, trivial, trivial⟩, ?_⟩, trivial, trivial⟩,
    not_legal (.leaf (ptCall [] [1]) ptEnv) (.leaf (ptCall [1] [4]) ptEnv) (by simp) ?_ _ [] _ [] _ _ rfl (by simp) rfl (by simp)⟩
  · intro a ha b hb k
    simp [TProc.serial] at ha hb
    subst ha
    rcases hb with rfl | rfl <;> simp [TWorld.Writes, TWorld.Reads, ptW, ptEnv] <;> omega
  · exact dep_of 1 ⟨1, by simp, by simp [ptW, ptEnv]⟩ (.inl ⟨1, by simp, by simp [ptW, ptEnv]⟩)

end Slinky
