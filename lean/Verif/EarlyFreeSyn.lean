import Verif.EarlyFreeRuns

/-!
# Syntactic lemmas about `insert_early_free`
-/

namespace Slinky

/-! ## Blocks -/

theorem runsL_append : ∀ (xs ys : List Stmt) (ρ : HEnv) (tr : List HEv) (ok : Bool),
    RunsL (.ofList (xs ++ ys)) ρ tr ok ↔
      (ok = false ∧ RunsL (.ofList xs) ρ tr false) ∨ ∃ a b, tr = a ++ b ∧ RunsL (.ofList xs) ρ a true ∧ RunsL (.ofList ys) ρ b ok
  | [], ys, ρ, tr, ok => by
    simp only [List.nil_append, Stmts.ofList, RunsL]
    constructor
    · intro h; exact .inr ⟨[], tr, rfl, ⟨rfl, trivial⟩, h⟩
    · rintro (⟨_, _, h⟩ | ⟨a, b, rfl, ⟨rfl, _⟩, h⟩)
      · cases h
      · exact h
  | x :: xs, ys, ρ, tr, ok => by
    simp only [List.cons_append, Stmts.ofList, RunsL]
    constructor
    · rintro (⟨h1, h2⟩ | ⟨a, b, rfl, h1, h2⟩)
      · exact .inl ⟨h1, .inl ⟨trivial, h2⟩⟩
      · rcases (runsL_append xs ys ρ b ok).mp h2 with ⟨h3, h4⟩ | ⟨c, d, rfl, h3, h4⟩
        · exact .inl ⟨h3, .inr ⟨a, b, rfl, h1, h4⟩⟩
        · exact .inr ⟨a ++ c, d, by simp, .inr ⟨a, c, rfl, h1, h3⟩, h4⟩
    · rintro (⟨h1, ⟨_, h2⟩ | ⟨a, b, rfl, h2, h3⟩⟩ | ⟨a, b, rfl, ⟨h1, _⟩ | ⟨c, d, rfl, h1, h2⟩, h3⟩)
      · exact .inl ⟨h1, h2⟩
      · exact .inr ⟨a, b, rfl, h2, (runsL_append xs ys ρ b ok).mpr (.inl ⟨h1, h3⟩)⟩
      · cases h1
      · exact .inr ⟨c, d ++ b, by simp, h1, (runsL_append xs ys ρ _ ok).mpr (.inr ⟨d, b, rfl, h2, h3⟩)⟩

theorem toList_ofList' : ∀ ss : Stmts, Stmts.ofList ss.toList = ss
  | .nil => rfl
  | .cons s ss => by simp [Stmts.toList, Stmts.ofList, toList_ofList' ss]

theorem ofList_toList' : ∀ ss : List Stmt, (Stmts.ofList ss).toList = ss
  | [] => rfl
  | s :: ss => by simp [Stmts.toList, Stmts.ofList, ofList_toList' ss]

theorem flattenBlocks_cons (s : Stmt) (rest : List Stmt) :
    flattenBlocks (s :: rest) = (match s with | .block ss => ss.toList | s => [s]) ++ flattenBlocks rest := by
  cases s <;> simp [flattenBlocks]

theorem runsL_single (s : Stmt) (ρ : HEnv) (tr : List HEv) (ok : Bool) : RunsL (.ofList [s]) ρ tr ok ↔ Runs s ρ tr ok := by
  simp only [Stmts.ofList, RunsL]
  constructor
  · rintro (⟨rfl, h⟩ | ⟨a, b, rfl, h, rfl, rfl⟩)
    · exact h
    · simpa using h
  · intro h
    cases ok
    · exact .inl ⟨rfl, h⟩
    · exact .inr ⟨tr, [], by simp, h, rfl, rfl⟩

theorem runsL_cons_congr {xs ys : List Stmt} {s : Stmt} {zs : List Stmt} (h1 : ∀ ρ tr ok, RunsL (.ofList xs) ρ tr ok ↔ Runs s ρ tr ok)
    (h2 : ∀ ρ tr ok, RunsL (.ofList ys) ρ tr ok ↔ RunsL (.ofList zs) ρ tr ok) (ρ : HEnv) (tr : List HEv) (ok : Bool) :
    RunsL (.ofList (xs ++ ys)) ρ tr ok ↔ RunsL (.ofList (s :: zs)) ρ tr ok := by
  rw [runsL_append]
  simp only [h1, h2, Stmts.ofList, RunsL]

theorem runsL_flatten : ∀ (ss : List Stmt) (ρ : HEnv) (tr : List HEv) (ok : Bool),
    RunsL (.ofList (flattenBlocks ss)) ρ tr ok ↔ RunsL (.ofList ss) ρ tr ok
  | [], _, _, _ => Iff.rfl
  | s :: rest, ρ, tr, ok => by
    rw [flattenBlocks_cons]
    refine runsL_cons_congr ?_ (runsL_flatten rest) ρ tr ok
    intro ρ tr ok
    split
    · rw [toList_ofList']; exact Iff.rfl
    · exact runsL_single _ ρ tr ok

theorem runsL_erase : ∀ (ss : List Stmt) (ρ : HEnv) (tr : List HEv) (ok : Bool),
    RunsL (.ofList (eraseUndefs ss)) ρ tr ok ↔ RunsL (.ofList ss) ρ tr ok
  | [], _, _, _ => Iff.rfl
  | s :: rest, ρ, tr, ok => by
    have h : eraseUndefs (s :: rest) = (if s.defined then [s] else []) ++ eraseUndefs rest := by
      unfold eraseUndefs
      by_cases hs : s.defined = true <;> simp [hs]
    rw [h]
    refine runsL_cons_congr ?_ (runsL_erase rest) ρ tr ok
    intro ρ tr ok
    by_cases hs : s.defined = true
    · simp only [hs, if_true]; exact runsL_single _ ρ tr ok
    · have : s = .undef := by cases s <;> simp [Stmt.defined] at hs ⊢
      subst this
      simp [Stmt.defined, Stmts.ofList, RunsL, Runs]

theorem runs_blockMake (ss : List Stmt) (ρ : HEnv) (tr : List HEv) (ok : Bool) : Runs (blockMake ss) ρ tr ok ↔ RunsL (.ofList ss) ρ tr ok := by
  rw [← runsL_flatten, ← runsL_erase]
  unfold blockMake
  split
  · next h => rw [h]; exact Iff.rfl
  · next s h => rw [h]; exact (runsL_single s ρ tr ok).symm
  · exact Iff.rfl

/-- Properties of all statements of a block. -/
theorem ef_blockMake_all {P : Stmt → Prop} (hu : P .undef) (hb : ∀ ss, P (.block ss) ↔ ∀ s ∈ ss.toList, P s) (ss : List Stmt) :
    P (blockMake ss) ↔ ∀ s ∈ ss, P s := by
  have h1 : ∀ ss, (∀ s ∈ flattenBlocks ss, P s) ↔ ∀ s ∈ ss, P s := by
    intro ss
    induction ss with
    | nil => simp [flattenBlocks]
    | cons s rest ih =>
      rw [flattenBlocks_cons]
      simp only [List.mem_append, or_imp, forall_and, List.mem_cons, forall_eq, ih]
      refine and_congr_left fun _ => ?_
      split
      · exact (hb _).symm
      · simp
  have h2 : ∀ ss, (∀ s ∈ eraseUndefs ss, P s) ↔ ∀ s ∈ ss, P s := by
    intro ss
    unfold eraseUndefs
    constructor
    · intro h s hs
      by_cases hd : s.defined = true
      · exact h s (List.mem_filter.mpr ⟨hs, hd⟩)
      · have : s = .undef := by cases s <;> simp [Stmt.defined] at hd ⊢
        subst this; exact hu
    · intro h s hs; exact h s (List.mem_filter.mp hs).1
  rw [← h1 ss, ← h2]
  unfold blockMake
  split
  · next h => rw [h]; simpa using hu
  · next s h => rw [h]; simp
  · rw [hb, ofList_toList']

theorem stmts_uses (p : DepO) (x : Nat) : ∀ ss : Stmts, ss.Uses p x ↔ ∃ s ∈ ss.toList, s.Uses p x
  | .nil => by simp [Stmts.Uses, Stmts.toList]
  | .cons s ss => by simp [Stmts.Uses, Stmts.toList, stmts_uses p x ss]
theorem stmts_frees (x : Nat) : ∀ ss : Stmts, ss.Frees x ↔ ∃ s ∈ ss.toList, s.Frees x
  | .nil => by simp [Stmts.Frees, Stmts.toList]
  | .cons s ss => by simp [Stmts.Frees, Stmts.toList, stmts_frees x ss]
theorem stmts_bufOK : ∀ ss : Stmts, ss.BufOK ↔ ∀ s ∈ ss.toList, s.BufOK
  | .nil => by simp [Stmts.BufOK, Stmts.toList]
  | .cons s ss => by simp [Stmts.BufOK, Stmts.toList, stmts_bufOK ss]
theorem stmts_oneUser (x : Nat) : ∀ ss : Stmts, ss.OneUser x ↔ ∀ s ∈ ss.toList, s.OneUser x
  | .nil => by simp [Stmts.OneUser, Stmts.toList]
  | .cons s ss => by simp [Stmts.OneUser, Stmts.toList, stmts_oneUser x ss]

theorem blockMake_uses (p : DepO) (x : Nat) (ss : List Stmt) : (blockMake ss).Uses p x ↔ ∃ s ∈ ss, s.Uses p x := by
  have := ef_blockMake_all (P := fun s => ¬ s.Uses p x) (by simp [Stmt.Uses]) (by intro ss; simp [Stmt.Uses, stmts_uses]) ss
  rw [← not_iff_not, this]
  simp
theorem blockMake_frees (x : Nat) (ss : List Stmt) : (blockMake ss).Frees x ↔ ∃ s ∈ ss, s.Frees x := by
  have := ef_blockMake_all (P := fun s => ¬ s.Frees x) (by simp [Stmt.Frees]) (by intro ss; simp [Stmt.Frees, stmts_frees]) ss
  rw [← not_iff_not, this]
  simp
theorem blockMake_bufOK (ss : List Stmt) : (blockMake ss).BufOK ↔ ∀ s ∈ ss, s.BufOK :=
  ef_blockMake_all (P := fun s => s.BufOK) (by simp [Stmt.BufOK]) (by intro ss; simp [Stmt.BufOK, stmts_bufOK]) ss
theorem blockMake_oneUser (x : Nat) (ss : List Stmt) : (blockMake ss).OneUser x ↔ ∀ s ∈ ss, s.OneUser x :=
  ef_blockMake_all (P := fun s => s.OneUser x) (by simp [Stmt.OneUser]) (by intro ss; simp [Stmt.OneUser, stmts_oneUser]) ss

/-! ## `insert_free_into_allocate` -/

theorem efTerminal_same (names : List Nat) (f v : Bool) (s : Stmt) :
    ((efTerminal names f v s).changed = false → (efTerminal names f v s).s = s) ∧
      ((efTerminal names f v s).changed = true → (efTerminal names f v s).found = true) ∧ (f = true → (efTerminal names f v s).changed = false ∧ (efTerminal names f v s).found = true) := by
  unfold efTerminal
  refine ⟨?_, ?_, ?_⟩
  · split
    · split <;> simp
    · simp
  · split
    · split <;> simp
    · simp
  · rintro rfl; simp

theorem efMut_same : (∀ (s : Stmt) (names : List Nat) (f v : Bool), ((efMut names f v s).changed = false → (efMut names f v s).s = s) ∧
      ((efMut names f v s).changed = true → (efMut names f v s).found = true) ∧
      (f = true → (efMut names f v s).changed = false ∧ (efMut names f v s).found = true)) ∧
    (∀ (ss : Stmts) (names : List Nat) (f v : Bool), ((efMuts names f v ss).changed = false → (efMuts names f v ss).ss = ss.toList) ∧
      ((efMuts names f v ss).changed = true → (efMuts names f v ss).found = true) ∧
      (f = true → (efMuts names f v ss).changed = false ∧ (efMuts names f v ss).found = true)) := by
  apply Stmt.shape
  case undef => intro names f v; simp [efMut]
  case call => intro t i o xs names f v; simp only [efMut]; exact efTerminal_same ..
  case copy => intro t i o xs _ _ names f v; simp only [efMut]; exact efTerminal_same ..
  case check => intro c names f v; simp only [efMut]; exact efTerminal_same ..
  case lets => intro bs s cl _ names f v; simp only [efMut]; exact efTerminal_same ..
  case loop => intro x wk b st s _ names f v; simp only [efMut]; exact efTerminal_same ..
  case block =>
    intro ss ih names f v
    obtain ⟨h1, h2, h3⟩ := ih names f v
    simp only [efMut]
    split
    · next hc => refine ⟨by simp, fun _ => h2 hc, fun hf => ?_⟩; rw [(h3 hf).1] at hc; cases hc
    · refine ⟨fun _ => rfl, by simp, fun hf => ⟨rfl, (h3 hf).2⟩⟩
  case allocate =>
    intro x k e ds s ih names f v
    obtain ⟨h1, h2, h3⟩ := ih names f v
    simp only [efMut]
    exact ⟨fun h => by rw [h1 h], h2, h3⟩
  case const =>
    intro x b s ih names f v
    obtain ⟨h1, h2, h3⟩ := ih names f v
    simp only [efMut]
    exact ⟨fun h => by rw [h1 h], h2, h3⟩
  case bnd =>
    intro b s ih names f v
    rw [efMut_plug]
    split
    · refine ⟨fun _ => rfl, by simp, ?_⟩
      rintro rfl; simp
    · obtain ⟨h1, h2, h3⟩ := ih (if b.dep names then names ++ [b.sym] else names) (f || b.dep names) v
      refine ⟨fun h => ?_, h2, ?_⟩
      · dsimp only at h ⊢; rw [h1 h]
      · rintro rfl; exact h3 (by simp)
  case async =>
    intro x t s ih1 ih2 names f v
    obtain ⟨h1, h2, h3⟩ := ih1 names f v
    obtain ⟨g1, g2, g3⟩ := ih2 names (efMut names f v t).found (efMut names f v t).visited
    simp only [efMut, Bool.or_eq_false_iff, Bool.or_eq_true]
    refine ⟨fun h => by rw [h1 h.1, g1 h.2], ?_, ?_⟩
    · rintro (h | h)
      · exact (g3 (h2 h)).2
      · exact g2 h
    · intro hf
      have := g3 (h3 hf).2
      exact ⟨⟨(h3 hf).1, this.1⟩, this.2⟩
  case nil => intro names f v; simp [efMuts, Stmts.toList]
  case cons =>
    intro s ss ih1 ih2 names f v
    obtain ⟨h1, h2, h3⟩ := ih2 names f v
    obtain ⟨g1, g2, g3⟩ := ih1 names (efMuts names f v ss).found (efMuts names f v ss).visited
    simp only [efMuts, Stmts.toList]
    split
    · next hc =>
      refine ⟨fun h => by dsimp only at h ⊢; rw [h1 h], h2, h3⟩
    · next hc =>
      simp only [Bool.or_eq_true, not_or, Bool.not_eq_true] at hc
      refine ⟨fun h => by dsimp only at h ⊢; rw [g1 h, h1 hc.1], g2, fun hf => ?_⟩
      have := (h3 hf).2
      rw [hc.2] at this; cases this

theorem efMut_found {names : List Nat} {v : Bool} {s : Stmt} :
    (efMut names true v s).s = s ∧ (efMut names true v s).changed = false ∧ (efMut names true v s).found = true := by
  obtain ⟨h1, _, h3⟩ := efMut_same.1 s names true v
  exact ⟨h1 (h3 rfl).1, h3 rfl⟩

theorem efMut_notFound {names : List Nat} {f v : Bool} {s : Stmt} (h : (efMut names f v s).found = false) : (efMut names f v s).s = s := by
  obtain ⟨h1, h2, _⟩ := efMut_same.1 s names f v
  cases hc : (efMut names f v s).changed with
  | false => exact h1 hc
  | true => rw [h2 hc] at h; cases h

theorem efMuts_notFound {names : List Nat} {f v : Bool} {s : Stmts} (h : (efMuts names f v s).found = false) : (efMuts names f v s).ss = s.toList := by
  obtain ⟨h1, h2, _⟩ := efMut_same.2 s names f v
  cases hc : (efMuts names f v s).changed with
  | false => exact h1 hc
  | true => rw [h2 hc] at h; cases h

/-- The statement of a declaration. -/
theorem efMut_plug1 (x : Nat) (f v : Bool) (b : HBnd) (s : Stmt) :
    (efMut [x] f v (b.plug s)).s = b.plug s ∨ (f = false ∧ b.sym ≠ x ∧ b.dep [x] = false ∧ (efMut [x] f v (b.plug s)).s = b.plug (efMut [x] false v s).s ∧
      (efMut [x] f v (b.plug s)).found = (efMut [x] false v s).found) := by
  rw [efMut_plug]
  split
  · exact .inl rfl
  · next hx =>
    by_cases hf : f = true
    · subst hf
      left
      simp only [Bool.true_or]
      rw [efMut_found.1]
    · by_cases hd : b.dep [x] = true
      · left
        rw [hd, Bool.or_true]
        dsimp only
        rw [efMut_found.1]
      · right
        simp only [Bool.not_eq_true] at hf hd
        subst hf
        refine ⟨rfl, by simpa using hx, hd, ?_⟩
        rw [hd]
        simp

theorem checkFree_uses {p : DepO} {x y : Nat} (h : (checkFree x).Uses p y) : y = x := by
  obtain ⟨q, _, h⟩ := h
  simp only [Expr.v, Reads, ReadsArgs] at h
  exact (h.resolve_right id).1.symm

theorem freeArg_checkFree (x : Nat) : freeArg (.call .free (.cons (.v x) .nil)) = some x := rfl

theorem efTerminal_frees {x : Nat} {f v : Bool} {s : Stmt} {y : Nat} (h : (efTerminal [x] f v s).s.Frees y) : y = x ∨ s.Frees y := by
  unfold efTerminal at h
  split at h
  · split at h
    · dsimp only at h
      rw [blockMake_frees] at h
      obtain ⟨t, ht, h⟩ := h
      simp only [List.mem_cons, List.not_mem_nil, or_false, List.headD_cons] at ht
      rcases ht with rfl | rfl
      · exact .inr h
      · simp only [checkFree, Stmt.Frees, freeArg_checkFree] at h
        exact .inl (Option.some.inj h).symm
    · exact .inr h
  · exact .inr h

theorem efTerminal_uses {x : Nat} {f v : Bool} {s : Stmt} {p : DepO} {y : Nat} (h : (efTerminal [x] f v s).s.Uses p y) : y = x ∨ s.Uses p y := by
  unfold efTerminal at h
  split at h
  · split at h
    · dsimp only at h
      rw [blockMake_uses] at h
      obtain ⟨t, ht, h⟩ := h
      simp only [List.mem_cons, List.not_mem_nil, or_false, List.headD_cons] at ht
      rcases ht with rfl | rfl
      · exact .inr h
      · exact .inl (checkFree_uses h)
    · exact .inr h
  · exact .inr h

theorem efTerminal_bufOK {x : Nat} {f v : Bool} {s : Stmt} (h : s.BufOK) : (efTerminal [x] f v s).s.BufOK := by
  unfold efTerminal
  split
  · split
    · dsimp only
      rw [blockMake_bufOK]
      intro t ht
      simp only [List.mem_cons, List.not_mem_nil, or_false] at ht
      rcases ht with rfl | rfl
      · exact h
      · simp [checkFree, Stmt.BufOK, Expr.BufOK, Exprs.BufOK, Expr.v]
    · exact h
  · exact h

theorem efTerminal_oneUser {x : Nat} {f v : Bool} {s : Stmt} {y : Nat} (h : s.OneUser y) : (efTerminal [x] f v s).s.OneUser y := by
  unfold efTerminal
  split
  · split
    · dsimp only
      rw [blockMake_oneUser]
      intro t ht
      simp only [List.mem_cons, List.not_mem_nil, or_false] at ht
      rcases ht with rfl | rfl
      · exact h
      · simp [checkFree, Stmt.OneUser]
    · exact h
  · exact h

/-- What `insert_free_into_allocate` keeps. -/
theorem efMut_keeps (x : Nat) :
    (∀ (s : Stmt) (f v : Bool), (∀ y, (efMut [x] f v s).s.Frees y → y = x ∨ s.Frees y) ∧ (∀ p y, (efMut [x] f v s).s.Uses p y → y = x ∨ s.Uses p y) ∧
      (s.BufOK → (efMut [x] f v s).s.BufOK) ∧ (∀ y, y ≠ x → s.OneUser y → (efMut [x] f v s).s.OneUser y)) ∧
    (∀ (ss : Stmts) (f v : Bool), (∀ y, ∀ s ∈ (efMuts [x] f v ss).ss, s.Frees y → y = x ∨ ss.Frees y) ∧
      (∀ p y, ∀ s ∈ (efMuts [x] f v ss).ss, s.Uses p y → y = x ∨ ss.Uses p y) ∧
      (ss.BufOK → ∀ s ∈ (efMuts [x] f v ss).ss, s.BufOK) ∧ (∀ y, y ≠ x → ss.OneUser y → ∀ s ∈ (efMuts [x] f v ss).ss, s.OneUser y)) := by
  apply Stmt.shape
  case undef => intro f v; simp [efMut]; exact ⟨fun _ => .inr, fun _ _ => .inr⟩
  case call => intro t i o xs f v; simp only [efMut]; exact ⟨fun _ => efTerminal_frees, fun _ _ => efTerminal_uses, efTerminal_bufOK, fun _ _ => efTerminal_oneUser⟩
  case copy => intro t i o xs _ _ f v; simp only [efMut]; exact ⟨fun _ => efTerminal_frees, fun _ _ => efTerminal_uses, efTerminal_bufOK, fun _ _ => efTerminal_oneUser⟩
  case check => intro c f v; simp only [efMut]; exact ⟨fun _ => efTerminal_frees, fun _ _ => efTerminal_uses, efTerminal_bufOK, fun _ _ => efTerminal_oneUser⟩
  case lets => intro bs s cl _ f v; simp only [efMut]; exact ⟨fun _ => efTerminal_frees, fun _ _ => efTerminal_uses, efTerminal_bufOK, fun _ _ => efTerminal_oneUser⟩
  case loop => intro y wk b st s _ f v; simp only [efMut]; exact ⟨fun _ => efTerminal_frees, fun _ _ => efTerminal_uses, efTerminal_bufOK, fun _ _ => efTerminal_oneUser⟩
  case block =>
    intro ss ih f v
    obtain ⟨h1, h2, h3, h4⟩ := ih f v
    simp only [efMut]
    split
    · dsimp only
      refine ⟨fun y h => ?_, fun p y h => ?_, fun h => ?_, fun y hy h => ?_⟩
      · rw [blockMake_frees] at h
        obtain ⟨s, hs, h⟩ := h
        exact h1 y s hs h
      · rw [blockMake_uses] at h
        obtain ⟨s, hs, h⟩ := h
        exact h2 p y s hs h
      · rw [blockMake_bufOK]; exact h3 h
      · rw [blockMake_oneUser]; exact h4 y hy h
    · exact ⟨fun _ => .inr, fun _ _ => .inr, id, fun _ _ => id⟩
  case allocate =>
    intro z k e ds s ih f v
    obtain ⟨h1, h2, h3, h4⟩ := ih f v
    simp only [efMut, Stmt.Frees, Stmt.Uses, Stmt.BufOK, Stmt.OneUser]
    refine ⟨fun y h => (h1 y h.2).imp id (fun h' => ⟨h.1, h'⟩), fun p y h => ?_, fun h => ⟨h.1, h.2.1, h3 h.2.2⟩, fun y hy h => ⟨h.1, h4 y hy h.2⟩⟩
    rcases h with h | h | h
    · exact .inr (.inl h)
    · exact .inr (.inr (.inl h))
    · exact (h2 p y h.2).imp id (fun h' => .inr (.inr ⟨h.1, h'⟩))
  case const =>
    intro z b s ih f v
    obtain ⟨h1, h2, h3, h4⟩ := ih f v
    simp only [efMut, Stmt.Frees, Stmt.Uses, Stmt.BufOK, Stmt.OneUser]
    exact ⟨fun y h => (h1 y h.2).imp id (fun h' => ⟨h.1, h'⟩), fun p y h => (h2 p y h.2).imp id (fun h' => ⟨h.1, h'⟩), h3, fun y hy h => ⟨h.1, h4 y hy h.2⟩⟩
  case bnd =>
    intro b s ih f v
    rcases efMut_plug1 x f v b s with he | ⟨_, hs, _, he, _⟩
    · rw [he]; exact ⟨fun _ => .inr, fun _ _ => .inr, id, fun _ _ => id⟩
    · obtain ⟨h1, h2, h3, h4⟩ := ih false v
      rw [he]
      simp only [frees_plug, uses_plug, bufOK_plug, oneUser_plug]
      refine ⟨fun y h => (h1 y h.2).imp id (fun h' => ⟨h.1, h'⟩), fun p y h => ?_, fun h => ⟨h.1, h3 h.2⟩, fun y hy h => h4 y hy h⟩
      rcases h with h | h | h
      · exact .inr (.inl h)
      · exact (h2 p y h.2).imp id (fun h' => .inr (.inl ⟨h.1, h'⟩))
      · rcases h2 p _ h.2.2 with h5 | h5
        · exact (hs h5).elim
        · exact .inr (.inr (.inr ⟨h.1, h.2.1, h5⟩))
  case async =>
    intro z t s ih1 ih2 f v
    obtain ⟨h1, h2, h3, h4⟩ := ih1 f v
    obtain ⟨g1, g2, g3, g4⟩ := ih2 (efMut [x] f v t).found (efMut [x] f v t).visited
    simp only [efMut, Stmt.Frees, Stmt.Uses, Stmt.BufOK, Stmt.OneUser]
    refine ⟨fun y h => ?_, fun p y h => ?_, fun h => ⟨h.1, h3 h.2.1, g3 h.2.2⟩, fun y hy h => ⟨?_, h4 y hy h.2.1, g4 y hy h.2.2⟩⟩
    · rcases h with ⟨h, h5 | h5⟩
      · exact (h1 y h5).imp id (fun h' => ⟨h, .inl h'⟩)
      · exact (g1 y h5).imp id (fun h' => ⟨h, .inr h'⟩)
    · rcases h with ⟨h, h5 | h5⟩
      · exact (h2 p y h5).imp id (fun h' => ⟨h, .inl h'⟩)
      · exact (g2 p y h5).imp id (fun h' => ⟨h, .inr h'⟩)
    · rintro ⟨⟨p, hp⟩, ⟨q, hq⟩⟩
      exact h.1 ⟨⟨p, (h2 _ y hp).resolve_left hy⟩, ⟨q, (g2 _ y hq).resolve_left hy⟩⟩
  case nil => intro f v; simp [efMuts]
  case cons =>
    intro s ss ih1 ih2 f v
    obtain ⟨h1, h2, h3, h4⟩ := ih2 f v
    obtain ⟨g1, g2, g3, g4⟩ := ih1 (efMuts [x] f v ss).found (efMuts [x] f v ss).visited
    simp only [efMuts, Stmts.Frees, Stmts.Uses, Stmts.BufOK, Stmts.OneUser]
    split
    · simp only [List.mem_cons]
      refine ⟨?_, ?_, ?_, ?_⟩
      · rintro y t (rfl | ht) h
        · exact .inr (.inl h)
        · exact (h1 y t ht h).imp id .inr
      · rintro p y t (rfl | ht) h
        · exact .inr (.inl h)
        · exact (h2 p y t ht h).imp id .inr
      · rintro h t (rfl | ht)
        · exact h.1
        · exact h3 h.2 t ht
      · rintro y hy h t (rfl | ht)
        · exact h.1
        · exact h4 y hy h.2 t ht
    · simp only [List.mem_cons]
      refine ⟨?_, ?_, ?_, ?_⟩
      · rintro y t (rfl | ht) h
        · exact (g1 y h).imp id .inl
        · exact (h1 y t ht h).imp id .inr
      · rintro p y t (rfl | ht) h
        · exact (g2 p y h).imp id .inl
        · exact (h2 p y t ht h).imp id .inr
      · rintro h t (rfl | ht)
        · exact g3 h.1
        · exact h3 h.2 t ht
      · rintro y hy h t (rfl | ht)
        · exact g4 y hy h.1
        · exact h4 y hy h.2 t ht

theorem earlyFreeR_lets (bs : Binds) (s : Stmt) (cl : Bool) : (earlyFreeR (.lets bs s cl)).1 = .lets bs (earlyFreeR s).1 cl := by simp only [earlyFreeR]

/-- What `insert_early_free` keeps. -/
theorem earlyFreeR_keeps :
    (∀ s : Stmt, (∀ y, (earlyFreeR s).1.Frees y → s.Frees y) ∧ (∀ p y, (earlyFreeR s).1.Uses p y → s.Uses p y) ∧
      (s.BufOK → (earlyFreeR s).1.BufOK) ∧ (∀ y, s.OneUser y → (earlyFreeR s).1.OneUser y)) ∧
    (∀ ss : Stmts, (∀ y, ∀ s ∈ (earlyFreeRs ss).1, s.Frees y → ss.Frees y) ∧ (∀ p y, ∀ s ∈ (earlyFreeRs ss).1, s.Uses p y → ss.Uses p y) ∧
      (ss.BufOK → ∀ s ∈ (earlyFreeRs ss).1, s.BufOK) ∧ (∀ y, ss.OneUser y → ∀ s ∈ (earlyFreeRs ss).1, s.OneUser y)) := by
  apply Stmt.shape
  case undef => simp [earlyFreeR]
  case call => intros; simp [earlyFreeR]
  case copy => intros; simp [earlyFreeR]
  case check => intros; simp [earlyFreeR]
  case lets =>
    rintro bs s cl ⟨h1, h2, h3, _⟩
    simp only [earlyFreeR, Stmt.Frees, Stmt.Uses, Stmt.BufOK, Stmt.OneUser]
    exact ⟨fun y h => ⟨h.1, h1 y h.2⟩, fun p y h => h.imp id (fun h => ⟨h.1, h2 p y h.2⟩), fun h => ⟨h.1, h3 h.2⟩, fun _ h => h⟩
  case loop =>
    rintro x wk b st s ⟨h1, h2, h3, _⟩
    simp only [earlyFreeR, Stmt.Frees, Stmt.Uses, Stmt.BufOK, Stmt.OneUser]
    exact ⟨fun y h => ⟨h.1, h1 y h.2⟩, fun p y h => h.imp id (fun h => h.imp id (fun h => h.imp id (fun h => ⟨h.1, h2 p y h.2⟩))),
      fun h => ⟨h.1, h.2.1, h.2.2.1, h3 h.2.2.2⟩, fun _ h => h⟩
  case block =>
    rintro ss ⟨h1, h2, h3, h4⟩
    simp only [earlyFreeR]
    split
    · dsimp only
      refine ⟨fun y h => ?_, fun p y h => ?_, fun h => ?_, fun y h => ?_⟩
      · rw [blockMake_frees] at h
        obtain ⟨s, hs, h⟩ := h
        exact h1 y s hs h
      · rw [blockMake_uses] at h
        obtain ⟨s, hs, h⟩ := h
        exact h2 p y s hs h
      · rw [blockMake_bufOK]; exact h3 h
      · rw [blockMake_oneUser]; exact h4 y h
    · exact ⟨fun _ => id, fun _ _ => id, id, fun _ => id⟩
  case allocate =>
    rintro x k e ds s ⟨h1, h2, h3, h4⟩
    simp only [earlyFreeR]
    split
    · obtain ⟨g1, g2, g3, g4⟩ := (efMut_keeps x).1 (earlyFreeR s).1 false false
      simp only [Stmt.Frees, Stmt.Uses, Stmt.BufOK, Stmt.OneUser]
      refine ⟨fun y h => ⟨h.1, h1 y ((g1 y h.2).resolve_left h.1)⟩, fun p y h => ?_, fun h => ⟨h.1, h.2.1, g3 (h3 h.2.2)⟩,
        fun y h => ⟨h.1, g4 y (Ne.symm h.1) (h4 y h.2)⟩⟩
      exact h.imp id (fun h => h.imp id (fun h => ⟨h.1, h2 p y ((g2 p y h.2).resolve_left h.1)⟩))
    · simp only [Stmt.Frees, Stmt.Uses, Stmt.BufOK, Stmt.OneUser]
      exact ⟨fun y h => ⟨h.1, h1 y h.2⟩, fun p y h => h.imp id (fun h => h.imp id (fun h => ⟨h.1, h2 p y h.2⟩)), fun h => ⟨h.1, h.2.1, h3 h.2.2⟩,
        fun y h => ⟨h.1, h4 y h.2⟩⟩
  case const =>
    rintro x b s ⟨h1, h2, h3, h4⟩
    simp only [earlyFreeR, Stmt.Frees, Stmt.Uses, Stmt.BufOK, Stmt.OneUser]
    exact ⟨fun y h => ⟨h.1, h1 y h.2⟩, fun p y h => ⟨h.1, h2 p y h.2⟩, h3, fun y h => ⟨h.1, h4 y h.2⟩⟩
  case bnd =>
    rintro b s ⟨h1, h2, h3, h4⟩
    rw [earlyFreeR_plug]
    simp only [frees_plug, uses_plug, bufOK_plug, oneUser_plug]
    exact ⟨fun y h => ⟨h.1, h1 y h.2⟩, fun p y h => h.imp id (fun h => h.imp (fun h => ⟨h.1, h2 p y h.2⟩) (fun h => ⟨h.1, h.2.1, h2 p _ h.2.2⟩)),
      fun h => ⟨h.1, h3 h.2⟩, h4⟩
  case async =>
    rintro x t s ⟨h1, h2, h3, h4⟩ ⟨g1, g2, g3, g4⟩
    simp only [earlyFreeR, Stmt.Frees, Stmt.Uses, Stmt.BufOK, Stmt.OneUser]
    refine ⟨fun y h => ⟨h.1, h.2.imp (h1 y) (g1 y)⟩, fun p y h => ⟨h.1, h.2.imp (h2 p y) (g2 p y)⟩, fun h => ⟨h.1, h3 h.2.1, g3 h.2.2⟩,
      fun y h => ⟨?_, h4 y h.2.1, g4 y h.2.2⟩⟩
    rintro ⟨⟨p, hp⟩, ⟨q, hq⟩⟩
    exact h.1 ⟨⟨p, h2 _ y hp⟩, ⟨q, g2 _ y hq⟩⟩
  case nil => simp [earlyFreeRs]
  case cons =>
    rintro s ss ⟨h1, h2, h3, h4⟩ ⟨g1, g2, g3, g4⟩
    simp only [earlyFreeRs, List.mem_cons, Stmts.Frees, Stmts.Uses, Stmts.BufOK, Stmts.OneUser]
    refine ⟨?_, ?_, ?_, ?_⟩
    · rintro y t (rfl | ht) h
      · exact .inl (h1 y h)
      · exact .inr (g1 y t ht h)
    · rintro p y t (rfl | ht) h
      · exact .inl (h2 p y h)
      · exact .inr (g2 p y t ht h)
    · rintro h t (rfl | ht)
      · exact h3 h.1
      · exact g3 h.2 t ht
    · rintro y h t (rfl | ht)
      · exact h4 y h.1
      · exact g4 y h.2 t ht

end Slinky
