import Verif.DeshadowThm

/-!
# C40: what `deshadow` makes has no shadowed declarations; the evaluator does the same for it
-/

namespace Slinky

/-- The symbols that are declared at a place of the result. -/
structure SInv (N n : Nat) (σ : Ren) (S : Nat → Prop) : Prop where
  le : N ≤ n
  lt : ∀ y, S y → y < n
  dom : ∀ y, S y → y < N → (σ y).isSome = true

theorem SInv.set {N n n' : Nat} {σ : Ren} {S : Nat → Prop} (h : SInv N n σ S) {x x' : Nat} (hx' : x' = x ∨ N ≤ x') (h1 : x' < n')
    (h2 : n ≤ n') : SInv N n' (σ.set x x') (withSym S x') := by
  refine ⟨le_trans h.le h2, fun y hy => ?_, fun y hy hN => ?_⟩
  · rcases hy with rfl | hy
    · exact h1
    · exact lt_of_lt_of_le (h.lt y hy) h2
  · unfold Ren.set
    split
    · rfl
    · rename_i hne
      rcases hy with rfl | hy
      · omega
      · exact h.dom y hy hN

theorem SInv.decl {N n0 n : Nat} {σ : Ren} {S : Nat → Prop} (h : SInv N n0 σ S) (hn : n0 ≤ n) {x : Nat} (hx : x < N) :
    SInv N (σ.declNext n x) (σ.decl n x) (withSym S (σ.declSym n x)) ∧ ¬ S (σ.declSym n x) := by
  have hle := h.le
  unfold Ren.decl Ren.declNext Ren.declSym
  split
  · refine ⟨h.set (Or.inr (by omega)) (by omega) (by omega), fun hS => ?_⟩
    have := h.lt n hS
    omega
  · rename_i hs
    refine ⟨h.set (Or.inl rfl) (by omega) (by omega), fun hS => hs (h.dom x hS hx)⟩

theorem SInv.congr {N n : Nat} {σ : Ren} {S T : Nat → Prop} (h : SInv N n σ S) (e : ∀ y, T y → S y) : SInv N n σ T :=
  ⟨h.le, fun y hy => h.lt y (e y hy), fun y hy => h.dom y (e y hy)⟩

/-! ## Expressions -/

theorem Binds.NoShadow.syms : ∀ {bs : Binds} {S : Nat → Prop}, bs.NoShadow S → bs.syms.Nodup ∧ ∀ x ∈ bs.syms, ¬ S x
  | .nil, _, _ => by simp [Binds.syms]
  | .cons x e bs, S, h => by
    simp only [Binds.NoShadow] at h
    obtain ⟨h1, h2⟩ := Binds.NoShadow.syms h.2.2
    simp only [Binds.syms, List.nodup_cons, List.mem_cons]
    refine ⟨⟨fun hx => h2 x hx (Or.inl rfl), h1⟩, fun y hy => ?_⟩
    rcases hy with rfl | hy
    · exact h.2.1
    · exact fun hS => h2 y hy (Or.inr hS)

/-- A property of the arguments that does not depend on the omitted arguments. -/
theorem popUndef_pred {P : Expr → Prop} {Q : Exprs → Prop} (hQ : ∀ e es, Q (.cons e es) ↔ P e ∧ Q es) (hn : Q .nil) : ∀ {es : Exprs}, Q es → Q (popUndef es)
  | .nil, h => h
  | .cons e es, h => by
    rw [hQ] at h
    have := popUndef_pred hQ hn h.2
    rw [popUndef]
    split
    · split
      · rw [hQ]; exact ⟨h.1, hn⟩
      · exact hn
    · rw [hQ]; exact ⟨h.1, this⟩

theorem bufAtArgs_pred {P : Expr → Prop} {Q : Exprs → Prop} (hQ : ∀ e es, Q (.cons e es) ↔ P e ∧ Q es) (hn : Q .nil) (hu : P .undef) {z : Nat} :
    ∀ {es : Exprs} {d : Nat}, Q es → Q (bufAtArgs (fun _ => .undef) z d es)
  | .nil, _, h => h
  | .cons e es, d, h => by
    rw [hQ] at h
    rw [bufAtArgs, hQ]
    refine ⟨?_, bufAtArgs_pred hQ hn hu h.2⟩
    split
    · exact hu
    · split
      · exact hu
      · exact h.1

theorem fixBufferAt_pred {P : Expr → Prop} {Q : Exprs → Prop} (hQ : ∀ e es, Q (.cons e es) ↔ P e ∧ Q es) (hn : Q .nil) (hu : P .undef) {fn : Fn} {es : Exprs}
    (h : Q es) : Q (fixBufferAt (fun _ => 0) (fun _ _ => .undef) fn es) := by
  unfold fixBufferAt
  split
  · rw [hQ] at h ⊢
    exact ⟨h.1, popUndef_pred hQ hn (bufAtArgs_pred hQ hn hu h.2)⟩
  · exact h

theorem rebuildBin_pred {P : Expr → Prop} {op : BinOp} (hP : ∀ a b, P (.bin op a b) ↔ P a ∧ P b) {a b a' b' : Expr} (ha : P a') (hb : P b') :
    P (rebuildBin op a b a' b') := by
  unfold rebuildBin mkBin
  split
  · rename_i h; rw [hP, ← h.1, ← h.2]; exact ⟨ha, hb⟩
  · split <;> rw [hP]
    · exact ⟨hb, ha⟩
    · exact ⟨ha, hb⟩

mutual
theorem dsE_noShadow {N : Nat} : ∀ (e : Expr) {σ : Ren} {n0 n : Nat} {S : Nat → Prop}, SInv N n0 σ S → n0 ≤ n → e.DsOk N →
    (dsE σ n e).1.NoShadow S ∧ (e.WF → (dsE σ n e).1.WF)
  | .undef, _, _, _, _, _, _, _ => by simp [dsE, Expr.NoShadow, Expr.WF]
  | .var .., _, _, _, _, _, _, _ => by simp [dsE, Expr.NoShadow, Expr.WF]
  | .const _, _, _, _, _, _, _, _ => by simp [dsE, Expr.NoShadow]
  | .lets bs b, σ, n0, n, S, hi, hn, ho => by
    simp only [Expr.DsOk] at ho
    obtain ⟨h1, h2, m, h3, h4⟩ := dsB_noShadow bs hi hn ho.1
    have hb := dsE_noShadow b h3 h4 ho.2
    simp only [dsE, Expr.NoShadow, Expr.WF]
    exact ⟨⟨h1, hb.1⟩, fun hw => ⟨h1.syms.1, h2 hw.2.1, hb.2 hw.2.2⟩⟩
  | .bin op a b, σ, n0, n, S, hi, hn, ho => by
    simp only [Expr.DsOk] at ho
    have ha := dsE_noShadow a hi hn ho.1
    have hb := dsE_noShadow b hi (le_trans hn (dsE_le a σ n)) ho.2
    simp only [dsE]
    refine ⟨rebuildBin_pred (P := Expr.NoShadow S) (by simp [Expr.NoShadow]) ha.1 hb.1, fun hw => ?_⟩
    simp only [Expr.WF] at hw
    exact rebuildBin_pred (P := Expr.WF) (by simp [Expr.WF]) (ha.2 hw.1) (hb.2 hw.2)
  | .not a, σ, n0, n, S, hi, hn, ho => by
    simp only [Expr.DsOk] at ho
    simpa only [dsE, Expr.NoShadow, Expr.WF] using dsE_noShadow a hi hn ho
  | .select c t f, σ, n0, n, S, hi, hn, ho => by
    simp only [Expr.DsOk] at ho
    have h1 := le_trans hn (dsE_le c σ n)
    have hc := dsE_noShadow c hi hn ho.1
    have ht := dsE_noShadow t hi h1 ho.2.1
    have hf := dsE_noShadow f hi (le_trans h1 (dsE_le t σ _)) ho.2.2
    simp only [dsE, Expr.NoShadow, Expr.WF]
    exact ⟨⟨hc.1, ht.1, hf.1⟩, fun hw => ⟨hc.2 hw.1, ht.2 hw.2.1, hf.2 hw.2.2⟩⟩
  | .call fn as, σ, n0, n, S, hi, hn, ho => by
    simp only [Expr.DsOk] at ho
    have h := dsA_noShadow as hi hn ho.1
    simp only [dsE, Expr.NoShadow, Expr.WF]
    exact ⟨fixBufferAt_pred (P := Expr.NoShadow S) (Q := Exprs.NoShadow S) (by simp [Exprs.NoShadow]) (by simp [Exprs.NoShadow]) (by simp [Expr.NoShadow]) h.1,
      fun hw => fixBufferAt_pred (P := Expr.WF) (Q := Exprs.WF) (by simp [Exprs.WF]) (by simp [Exprs.WF]) (by simp [Expr.WF]) (h.2 hw)⟩
theorem dsA_noShadow {N : Nat} : ∀ (e : Exprs) {σ : Ren} {n0 n : Nat} {S : Nat → Prop}, SInv N n0 σ S → n0 ≤ n → e.DsOk N →
    (dsA σ n e).1.NoShadow S ∧ (e.WF → (dsA σ n e).1.WF)
  | .nil, _, _, _, _, _, _, _ => by simp [dsA, Exprs.NoShadow, Exprs.WF]
  | .cons e es, σ, n0, n, S, hi, hn, ho => by
    simp only [Exprs.DsOk] at ho
    have h1 := dsE_noShadow e hi hn ho.1
    have h2 := dsA_noShadow es hi (le_trans hn (dsE_le e σ n)) ho.2
    simp only [dsA, Exprs.NoShadow, Exprs.WF]
    exact ⟨⟨h1.1, h2.1⟩, fun hw => ⟨h1.2 hw.1, h2.2 hw.2⟩⟩
theorem dsB_noShadow {N : Nat} : ∀ (e : Binds) {σ : Ren} {n0 n : Nat} {S : Nat → Prop}, SInv N n0 σ S → n0 ≤ n → e.DsOk N →
    (dsB σ n e).1.NoShadow S ∧ (e.WF → (dsB σ n e).1.WF) ∧
      ∃ m, SInv N m (dsB σ n e).2.1 (fun y => y ∈ (dsB σ n e).1.syms ∨ S y) ∧ m ≤ (dsB σ n e).2.2
  | .nil, σ, n0, n, S, hi, hn, _ => by
    refine ⟨by simp [dsB, Binds.NoShadow], by simp [dsB, Binds.WF], n0, ?_, hn⟩
    simpa [dsB, Binds.syms] using hi
  | .cons x e bs, σ, n0, n, S, hi, hn, ho => by
    simp only [Binds.DsOk] at ho
    have h1 := le_trans hn (dsE_le e σ n)
    have he := dsE_noShadow e hi hn ho.2.2.1
    obtain ⟨g1, g2⟩ := hi.decl h1 ho.1
    obtain ⟨k1, k2, m, k3, k4⟩ := dsB_noShadow bs g1 (le_refl _) ho.2.2.2
    simp only [dsB, Binds.NoShadow, Binds.WF, Binds.syms]
    refine ⟨⟨he.1, g2, k1⟩, fun hw => ⟨he.2 hw.1, k2 hw.2⟩, m, k3.congr ?_, k4⟩
    intro y hy
    simp only [List.mem_cons] at hy
    rcases hy with (rfl | hy) | hy
    · exact Or.inr (Or.inl rfl)
    · exact Or.inl hy
    · exact Or.inr (Or.inr hy)
end

theorem dsI_noShadow {N : Nat} {i : Interval} {σ : Ren} {n0 n : Nat} {S : Nat → Prop} (hi : SInv N n0 σ S) (hn : n0 ≤ n) (ho : i.DsOk N) :
    (dsI σ n i).1.NoShadow S ∧ (i.EndsWF → (dsI σ n i).1.EndsWF) := by
  have h1 := dsE_noShadow i.min hi hn ho.1
  have h2 := dsE_noShadow i.max hi (le_trans hn (dsE_le i.min σ n)) ho.2
  unfold dsI
  split
  · exact ⟨⟨h1.1, h1.1⟩, fun hw => ⟨h1.2 hw.1, h1.2 hw.1⟩⟩
  · exact ⟨⟨h1.1, h2.1⟩, fun hw => ⟨h1.2 hw.1, h2.2 hw.2⟩⟩

theorem dropOwn_pred {P : Expr → Prop} (hu : P .undef) {z d : Nat} {i : Interval} (h1 : P i.min) (h2 : P i.max) : P (dropOwn z d i).min ∧ P (dropOwn z d i).max := by
  have h3 : P i.maxEnd := by unfold Interval.maxEnd; split <;> assumption
  have h4 : ∀ f e, P e → P (dropEnd z f d e) := by intro f e he; unfold dropEnd; split <;> assumption
  unfold dropOwn
  split
  · exact ⟨h4 _ _ h1, h4 _ _ h3⟩
  · exact ⟨h1, h2⟩

theorem dsD_noShadow {N : Nat} {d : DimE} {σ : Ren} {n0 n : Nat} {S : Nat → Prop} (hi : SInv N n0 σ S) (hn : n0 ≤ n) (ho : d.DsOk N) :
    (dsD σ n d).1.NoShadow S ∧ (d.WF → (dsD σ n d).1.WF) := by
  have h1 := le_trans hn (dsI_le σ n d.bounds)
  have k1 := dsI_noShadow hi hn ho.1
  have k2 := dsE_noShadow d.stride hi h1 ho.2.1
  have k3 := dsE_noShadow d.fold hi (le_trans h1 (dsE_le d.stride σ _)) ho.2.2
  exact ⟨⟨k1.1, k2.1, k3.1⟩, fun hw => ⟨k1.2 hw.1, k2.2 hw.2.1, k3.2 hw.2.2⟩⟩

theorem dsC_noShadow {N : Nat} {σ : Ren} {n0 : Nat} {S : Nat → Prop} (hi : SInv N n0 σ S) (z : Nat) : ∀ (is : List Interval) (d n : Nat), n0 ≤ n →
    (∀ i ∈ is, i.DsOk N) → (∀ i ∈ (dsC σ z d n is).1, i.NoShadow S) ∧ ((∀ i ∈ is, i.EndsWF) → ∀ i ∈ (dsC σ z d n is).1, i.EndsWF)
  | [], _, _, _, _ => by simp [dsC]
  | i :: is, d, n, hn, ho => by
    have h1 := dsI_noShadow hi hn (ho i (by simp))
    have h2 := dsC_noShadow hi z is (d + 1) _ (le_trans hn (dsI_le σ n i)) fun x hx => ho x (by simp [hx])
    simp only [dsC, List.forall_mem_cons]
    refine ⟨⟨dropOwn_pred (P := Expr.NoShadow S) (by simp [Expr.NoShadow]) h1.1.1 h1.1.2, h2.1⟩, fun hw => ?_⟩
    have := h1.2 hw.1
    exact ⟨dropOwn_pred (P := Expr.WF) (by simp [Expr.WF]) this.1 this.2, h2.2 hw.2⟩

theorem mapAcc_pred {α β : Type} {f : Nat → α → β × Nat} {P : α → Prop} {Q : β → Prop} {n0 : Nat} (hle : ∀ n a, n ≤ (f n a).2)
    (hQ : ∀ n a, n0 ≤ n → P a → Q (f n a).1) : ∀ (l : List α) (n : Nat), n0 ≤ n → (∀ a ∈ l, P a) → ∀ b ∈ (mapAcc f n l).1, Q b
  | [], _, _, _, b, hb => by simp [mapAcc] at hb
  | a :: as, n, hn, hP, b, hb => by
    simp only [mapAcc, List.mem_cons] at hb
    rcases hb with rfl | hb
    · exact hQ n a hn (hP a (by simp))
    · exact mapAcc_pred hle hQ as _ (le_trans hn (hle n a)) (fun x hx => hP x (by simp [hx])) b hb

theorem dsDecls_noShadow {N : Nat} : ∀ (ys : List Nat) {σ : Ren} {n0 n : Nat} {S : Nat → Prop}, SInv N n0 σ S → n0 ≤ n → (∀ y ∈ ys, y < N) →
    (∀ y ∈ (dsDecls σ n ys).1, ¬ S y) ∧ (dsDecls σ n ys).1.Nodup ∧
      ∃ m, SInv N m (dsDecls σ n ys).2.1 (fun y => y ∈ (dsDecls σ n ys).1 ∨ S y) ∧ m ≤ (dsDecls σ n ys).2.2
  | [], σ, n0, n, S, hi, hn, _ => by
    refine ⟨by simp [dsDecls], by simp [dsDecls], n0, ?_, hn⟩
    simpa [dsDecls] using hi
  | y :: ys, σ, n0, n, S, hi, hn, hy => by
    obtain ⟨g1, g2⟩ := hi.decl hn (hy y (by simp))
    obtain ⟨k1, k2, m, k3, k4⟩ := dsDecls_noShadow ys g1 (le_refl _) fun x hx => hy x (by simp [hx])
    simp only [dsDecls, List.forall_mem_cons, List.nodup_cons]
    refine ⟨⟨g2, fun x hx hS => k1 x hx (Or.inr hS)⟩, ⟨fun hx => k1 _ hx (Or.inl rfl), k2⟩, m, k3.congr ?_, k4⟩
    intro x hx
    simp only [List.mem_cons] at hx
    rcases hx with (rfl | hx) | hx
    · exact Or.inr (Or.inl rfl)
    · exact Or.inl hx
    · exact Or.inr (Or.inr hx)

/-! ## Statements -/

theorem blockMake_pred {P : Stmt → Prop} (hb : ∀ ss : Stmts, P (.block ss) ↔ ∀ s ∈ ss.toList, P s) (hu : P .undef) {ss : List Stmt} (h : ∀ s ∈ ss, P s) :
    P (blockMake ss) := by
  have h1 : ∀ s ∈ flattenBlocks ss, P s := by
    induction ss with
    | nil => simp [flattenBlocks]
    | cons t ss ih =>
      have hfl : flattenBlocks (t :: ss) = t.flat ++ flattenBlocks ss := by
        cases t <;> simp [flattenBlocks, Stmt.flat]
      intro s hs
      rw [hfl, List.mem_append] at hs
      rcases hs with hs | hs
      · have ht := h t (by simp)
        cases t with
        | block b => exact (hb b).1 ht s hs
        | _ => simp only [Stmt.flat, List.mem_singleton] at hs; rw [hs]; exact ht
      · exact ih (fun s hs => h s (by simp [hs])) s hs
  have h2 : ∀ s ∈ eraseUndefs (flattenBlocks ss), P s := fun s hs => h1 s (List.mem_of_mem_filter hs)
  unfold blockMake
  split
  · exact hu
  · rename_i s e; exact h2 s (by simp [e])
  · rw [hb, Stmts.toList_ofList]; exact h2

theorem Stmts.noShadow_iff {S : Nat → Prop} : ∀ {ss : Stmts}, ss.NoShadow S ↔ ∀ s ∈ ss.toList, s.NoShadow S
  | .nil => by simp [Stmts.NoShadow, Stmts.toList]
  | .cons s ss => by simp [Stmts.NoShadow, Stmts.toList, Stmts.noShadow_iff (ss := ss)]

theorem Stmts.wf_iff : ∀ {ss : Stmts}, ss.WF ↔ ∀ s ∈ ss.toList, s.WF
  | .nil => by simp [Stmts.WF, Stmts.toList]
  | .cons s ss => by simp [Stmts.WF, Stmts.toList, Stmts.wf_iff (ss := ss)]

mutual
theorem dsS_noShadow {N : Nat} : ∀ (s : Stmt) {σ : Ren} {n0 n : Nat} {S : Nat → Prop}, SInv N n0 σ S → n0 ≤ n → s.DsOk N →
    (dsS σ n s).1.NoShadow S ∧ (s.WF → (dsS σ n s).1.WF)
  | .undef, _, _, _, _, _, _, _ => by simp [dsS, Stmt.NoShadow, Stmt.WF]
  | .call t i o xs, σ, n0, n, S, hi, hn, ho => by
    simp only [Stmt.DsOk] at ho
    simp only [dsS, Stmt.NoShadow, Stmt.WF]
    refine ⟨mapAcc_pred (fun n e => dsE_le e σ n) (fun n e hn he => (dsE_noShadow e hi hn he).1) xs n hn ho.2.2, fun hw => ?_⟩
    exact mapAcc_pred (P := fun e => e.DsOk N ∧ e.WF) (fun n e => dsE_le e σ n) (fun n e hn he => (dsE_noShadow e hi hn he.1).2 he.2) xs n hn
      fun e he => ⟨ho.2.2 e he, hw e he⟩
  | .copy t src xs dst ys pad, σ, n0, n, S, hi, hn, ho => by
    simp only [Stmt.DsOk] at ho
    obtain ⟨h1, h2, m, h3, h4⟩ := dsDecls_noShadow ys hi hn ho.2.2.1
    simp only [dsS, Stmt.NoShadow, Stmt.WF]
    exact ⟨⟨h1, h2, mapAcc_pred (fun n e => dsE_le e _ n) (fun n e hn he => (dsE_noShadow e h3 hn he).1) xs _ h4 ho.2.2.2.2⟩, fun _ => trivial⟩
  | .lets bs body c, σ, n0, n, S, hi, hn, ho => by
    simp only [Stmt.DsOk] at ho
    obtain ⟨h1, h2, m, h3, h4⟩ := dsB_noShadow bs hi hn ho.2.1
    have hb := dsS_noShadow body h3 h4 ho.2.2
    simp only [dsS, Stmt.NoShadow, Stmt.WF]
    exact ⟨⟨h1, hb.1⟩, fun hw => ⟨h1.syms.1, h2 hw.2.1, hb.2 hw.2.2⟩⟩
  | .block .nil, _, _, _, _, _, _, ho => by simp [Stmt.DsOk] at ho
  | .block (.cons s ss), σ, n0, n, S, hi, hn, ho => by
    simp only [Stmt.DsOk] at ho
    have h1 := dsS_noShadow s hi hn ho.2.1
    have h2 := dsSs_noShadow ss hi (le_trans hn (dsS_le s σ n)) ho.2.2
    simp only [dsS]
    refine ⟨blockMake_pred (P := Stmt.NoShadow S) (fun ss => by rw [Stmt.NoShadow, Stmts.noShadow_iff]) (by simp [Stmt.NoShadow]) ?_, fun hw =>
      blockMake_pred (P := Stmt.WF) (fun ss => by rw [Stmt.WF, Stmts.wf_iff]) (by simp [Stmt.WF]) ?_⟩
    · rw [List.forall_mem_cons]; exact ⟨h1.1, Stmts.noShadow_iff.1 h2.1⟩
    · simp only [Stmt.WF, Stmts.WF] at hw
      rw [List.forall_mem_cons]; exact ⟨h1.2 hw.1, Stmts.wf_iff.1 (h2.2 hw.2)⟩
  | .loop x wk b st body, σ, n0, n, S, hi, hn, ho => by
    simp only [Stmt.DsOk] at ho
    have h1 := le_trans hn (dsI_le σ n b)
    have h2 := le_trans h1 (dsE_le st σ _)
    have h3 := le_trans h2 (dsE_le wk σ _)
    obtain ⟨g1, g2⟩ := hi.decl h3 ho.1
    have k1 := dsI_noShadow hi hn ho.2.2.1
    have k2 := dsE_noShadow st hi h1 ho.2.2.2.1
    have k3 := dsE_noShadow wk hi h2 ho.2.1
    have k4 := dsS_noShadow body g1 (le_refl _) ho.2.2.2.2
    simp only [dsS, Stmt.NoShadow, Stmt.WF]
    exact ⟨⟨g2, k3.1, k1.1, k2.1, k4.1⟩, fun hw => ⟨k3.2 hw.1, k1.2 hw.2.1, k2.2 hw.2.2.1, k4.2 hw.2.2.2⟩⟩
  | .allocate x sto e ds body, σ, n0, n, S, hi, hn, ho => by
    simp only [Stmt.DsOk] at ho
    have h1 := le_trans hn (dsE_le e σ n)
    have h2 := le_trans h1 (mapAcc_le (dsD_le σ) ds _)
    have := hi.le
    have g1 := hi.set (x := x) (x' := x) (n' := (mapAcc (dsD σ) (dsE σ n e).2 ds).2) (Or.inl rfl) (by omega) h2
    have k1 := dsE_noShadow e hi hn ho.2.1
    have k4 := dsS_noShadow body g1 (le_refl _) ho.2.2.2
    simp only [dsS, Stmt.NoShadow, Stmt.WF]
    refine ⟨⟨k1.1, mapAcc_pred (dsD_le σ) (fun n d hn hd => (dsD_noShadow hi hn hd).1) ds _ h1 ho.2.2.1, k4.1⟩, fun hw => ⟨k1.2 hw.1, ?_, k4.2 hw.2.2⟩⟩
    exact mapAcc_pred (P := fun d => d.DsOk N ∧ d.WF) (dsD_le σ) (fun n d hn hd => (dsD_noShadow hi hn hd.1).2 hd.2) ds _ h1
      fun d hd => ⟨ho.2.2.1 d hd, hw.2.1 d hd⟩
  | .makeBuffer x p e ds body, σ, n0, n, S, hi, hn, ho => by
    simp only [Stmt.DsOk] at ho
    have h0 := le_trans hn (dsE_le p σ n)
    have h1 := le_trans h0 (dsE_le e σ _)
    have h2 := le_trans h1 (mapAcc_le (dsD_le σ) ds _)
    have hle := hi.le
    have g1 := hi.set (x := x) (x' := (mapAcc (dsD σ) (dsE σ (dsE σ n p).2 e).2 ds).2) (n' := (mapAcc (dsD σ) (dsE σ (dsE σ n p).2 e).2 ds).2 + 1)
      (Or.inr (by omega)) (by omega) (by omega)
    have k0 := dsE_noShadow p hi hn ho.2.1
    have k1 := dsE_noShadow e hi h0 ho.2.2.1
    have k4 := dsS_noShadow body g1 (le_refl _) ho.2.2.2.2
    simp only [dsS, Stmt.NoShadow, Stmt.WF]
    refine ⟨⟨fun hS => ?_, k0.1, k1.1, mapAcc_pred (dsD_le σ) (fun n d hn hd => (dsD_noShadow hi hn hd).1) ds _ h1 ho.2.2.2.1, k4.1⟩,
      fun hw => ⟨k0.2 hw.1, k1.2 hw.2.1, ?_, k4.2 hw.2.2.2⟩⟩
    · have := hi.lt _ hS
      omega
    · exact mapAcc_pred (P := fun d => d.DsOk N ∧ d.WF) (dsD_le σ) (fun n d hn hd => (dsD_noShadow hi hn hd.1).2 hd.2) ds _ h1
        fun d hd => ⟨ho.2.2.2.1 d hd, hw.2.2.1 d hd⟩
  | .constantBuffer x b body, σ, n0, n, S, hi, hn, ho => by
    simp only [Stmt.DsOk] at ho
    obtain ⟨g1, g2⟩ := hi.decl hn ho.1
    have k4 := dsS_noShadow body g1 (le_refl _) ho.2
    simp only [dsS, Stmt.NoShadow, Stmt.WF]
    exact ⟨⟨g2, k4.1⟩, k4.2⟩
  | .cloneBuffer x src body, σ, n0, n, S, hi, hn, ho => by
    simp only [Stmt.DsOk] at ho
    obtain ⟨g1, g2⟩ := hi.decl hn ho.1
    have k4 := dsS_noShadow body g1 (le_refl _) ho.2.2
    simp only [dsS, Stmt.NoShadow, Stmt.WF]
    exact ⟨⟨g2, k4.1⟩, k4.2⟩
  | .cropBuffer x src bs body, σ, n0, n, S, hi, hn, ho => by
    simp only [Stmt.DsOk] at ho
    have h1 := le_trans hn (dsC_le σ (σ.sym src) bs 0 n)
    obtain ⟨g1, g2⟩ := hi.decl h1 ho.1
    have k1 := dsC_noShadow hi (σ.sym src) bs 0 n hn ho.2.2.1
    have k4 := dsS_noShadow body g1 (le_refl _) ho.2.2.2
    simp only [dsS, Stmt.NoShadow, Stmt.WF]
    exact ⟨⟨g2, k1.1, k4.1⟩, fun hw => ⟨k1.2 hw.1, k4.2 hw.2⟩⟩
  | .cropDim x src d b body, σ, n0, n, S, hi, hn, ho => by
    simp only [Stmt.DsOk] at ho
    have h1 := le_trans hn (dsI_le σ n b)
    obtain ⟨g1, g2⟩ := hi.decl h1 ho.1
    have k1 := dsI_noShadow hi hn ho.2.2.1
    have k4 := dsS_noShadow body g1 (le_refl _) ho.2.2.2
    simp only [dsS, Stmt.NoShadow, Stmt.WF]
    refine ⟨⟨g2, dropOwn_pred (P := Expr.NoShadow S) (by simp [Expr.NoShadow]) k1.1.1 k1.1.2, k4.1⟩, fun hw => ⟨?_, k4.2 hw.2⟩⟩
    have := k1.2 hw.1
    exact dropOwn_pred (P := Expr.WF) (by simp [Expr.WF]) this.1 this.2
  | .sliceBuffer x src es body, σ, n0, n, S, hi, hn, ho => by
    simp only [Stmt.DsOk] at ho
    have h1 := le_trans hn (mapAcc_le (fun n e => dsE_le e σ n) es n)
    obtain ⟨g1, g2⟩ := hi.decl h1 ho.1
    have k4 := dsS_noShadow body g1 (le_refl _) ho.2.2.2
    simp only [dsS, Stmt.NoShadow, Stmt.WF]
    refine ⟨⟨g2, mapAcc_pred (fun n e => dsE_le e σ n) (fun n e hn he => (dsE_noShadow e hi hn he).1) es n hn ho.2.2.1, k4.1⟩, fun hw => ⟨?_, k4.2 hw.2⟩⟩
    exact mapAcc_pred (P := fun e => e.DsOk N ∧ e.WF) (fun n e => dsE_le e σ n) (fun n e hn he => (dsE_noShadow e hi hn he.1).2 he.2) es n hn
      fun e he => ⟨ho.2.2.1 e he, hw.1 e he⟩
  | .sliceDim x src d e body, σ, n0, n, S, hi, hn, ho => by
    simp only [Stmt.DsOk] at ho
    have h1 := le_trans hn (dsE_le e σ n)
    obtain ⟨g1, g2⟩ := hi.decl h1 ho.1
    have k1 := dsE_noShadow e hi hn ho.2.2.1
    have k4 := dsS_noShadow body g1 (le_refl _) ho.2.2.2
    simp only [dsS, Stmt.NoShadow, Stmt.WF]
    exact ⟨⟨g2, k1.1, k4.1⟩, fun hw => ⟨k1.2 hw.1, k4.2 hw.2⟩⟩
  | .transpose x src ds body, σ, n0, n, S, hi, hn, ho => by
    simp only [Stmt.DsOk] at ho
    obtain ⟨g1, g2⟩ := hi.decl hn ho.1
    have k4 := dsS_noShadow body g1 (le_refl _) ho.2.2
    simp only [dsS, Stmt.NoShadow, Stmt.WF]
    exact ⟨⟨g2, k4.1⟩, k4.2⟩
  | .async none _ _, _, _, _, _, _, _, ho => by simp [Stmt.DsOk] at ho
  | .async (some x) task body, σ, n0, n, S, hi, hn, ho => by
    simp only [Stmt.DsOk] at ho
    obtain ⟨g1, g2⟩ := hi.decl hn ho.1
    have k3 := dsS_noShadow task g1 (le_refl _) ho.2.1
    have k4 := dsS_noShadow body g1 (dsS_le task (σ.decl n x) (σ.declNext n x)) ho.2.2
    simp only [dsS, Stmt.NoShadow, Stmt.WF]
    exact ⟨⟨g2, k3.1, k4.1⟩, fun hw => ⟨k3.2 hw.1, k4.2 hw.2⟩⟩
  | .check c, σ, n0, n, S, hi, hn, ho => by
    simp only [Stmt.DsOk] at ho
    simpa only [dsS, Stmt.NoShadow, Stmt.WF] using dsE_noShadow c hi hn ho
termination_by structural s => s
theorem dsSs_noShadow {N : Nat} : ∀ (s : Stmts) {σ : Ren} {n0 n : Nat} {S : Nat → Prop}, SInv N n0 σ S → n0 ≤ n → s.DsOk N →
    (dsSs σ n s).1.NoShadow S ∧ (s.WF → (dsSs σ n s).1.WF)
  | .nil, _, _, _, _, _, _, _ => by simp [dsSs, Stmts.NoShadow, Stmts.WF]
  | .cons s ss, σ, n0, n, S, hi, hn, ho => by
    simp only [Stmts.DsOk] at ho
    have h1 := dsS_noShadow s hi hn ho.2.1
    have h2 := dsSs_noShadow ss hi (le_trans hn (dsS_le s σ n)) ho.2.2
    simp only [dsSs, Stmts.NoShadow, Stmts.WF]
    exact ⟨⟨h1.1, h2.1⟩, fun hw => ⟨h1.2 hw.1, h2.2 hw.2⟩⟩
termination_by structural s => s
end

theorem extRen_sinv {ext : List Nat} {N : Nat} (h : ∀ x ∈ ext, x < N) : SInv N N (extRen ext) (fun x => x ∈ ext) :=
  ⟨le_refl _, fun y hy => h y hy, fun y hy _ => by simp [extRen, hy]⟩

/-- **C40.** No declaration of the statement that `deshadow` makes shadows an external symbol or another declaration, except the declarations of
`allocate`, which are not renamed. -/
theorem deshadow_noShadow {s : Stmt} {N : Nat} {ext : List Nat} (hok : s.DsOk N) (hext : ∀ x ∈ ext, x < N) : (deshadow s ext N).NoShadow (fun x => x ∈ ext) :=
  (dsS_noShadow s (extRen_sinv hext) (le_refl _) hok).1

/-- `deshadow` makes well formed statements of well formed statements. -/
theorem deshadow_wf {s : Stmt} {N : Nat} {ext : List Nat} (hok : s.DsOk N) (hext : ∀ x ∈ ext, x < N) (hw : s.WF) : (deshadow s ext N).WF :=
  (dsS_noShadow s (extRen_sinv hext) (le_refl _) hok).2 hw

/-- **C40.** The evaluator does the same for a statement and for the statement that `deshadow` makes: the same result, the same requests to the world
in the same order (up to the symbols in the events), and the buffer objects and the values of the symbols in scope after. The statement is one
that has a meaning in the environment that the state represents. -/
theorem deshadow_exec (w : World) (g : Env) {s : Stmt} {N : Nat} {ext : List Nat} (hok : s.DsOk N) (hext : ∀ x ∈ ext, x < N) (hw : s.WF) {st : St} {ρ : SEnv}
    (hR : StRel st ρ) (hρ : ∀ y, N ≤ y → ρ y = .undef) {r : Int} {l' : List Ev} (h : sem w false s ρ st.alog = some (r, l')) :
    ∃ st1 st2, exec (cfgOf w g) s st = some (r, st1) ∧ exec (cfgOf w g) (deshadow s ext N) st = some (r, st2) ∧
      st1.log.map Ev.anon = st2.log.map Ev.anon ∧ st1.objs = st2.objs ∧ ∀ x, ρ x ≠ .undef → st1.ctx x = st2.ctx x := by
  obtain ⟨st1, a1, a2, a3, a4⟩ := exec_sem w g hw hR h
  obtain ⟨st2, b1, b2, b3, b4⟩ := exec_sem w g (deshadow_wf hok hext hw) hR (deshadow_sem w ext hok hρ h)
  exact ⟨st1, st2, a1, b1, by rw [a2, b2], by rw [a3, b3], fun x hx => by rw [a4 x hx, b4 x hx]⟩

end Slinky
