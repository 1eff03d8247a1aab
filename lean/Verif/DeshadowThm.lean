import Verif.Deshadow
import Verif.RenameSem

/-!
# C40: `deshadow` keeps the meaning of a statement
-/

namespace Slinky

/-! ## New symbols -/

theorem declNext_le (σ : Ren) (n x : Nat) : n ≤ σ.declNext n x := by
  unfold Ren.declNext; split <;> omega

theorem mapAcc_le {α β : Type} {f : Nat → α → β × Nat} (hf : ∀ n a, n ≤ (f n a).2) : ∀ (l : List α) (n : Nat), n ≤ (mapAcc f n l).2
  | [], n => le_refl _
  | a :: as, n => le_trans (hf n a) (mapAcc_le hf as _)

mutual
theorem dsE_le : ∀ (e : Expr) (σ : Ren) (n : Nat), n ≤ (dsE σ n e).2
  | .undef, _, _ => by simp [dsE]
  | .var .., _, _ => by simp [dsE]
  | .const _, _, _ => by simp [dsE]
  | .lets bs b, σ, n => by simp only [dsE]; exact le_trans (dsB_le bs σ n) (dsE_le b _ _)
  | .bin _ a b, σ, n => by simp only [dsE]; exact le_trans (dsE_le a σ n) (dsE_le b _ _)
  | .not a, σ, n => by simp only [dsE]; exact dsE_le a σ n
  | .select c t f, σ, n => by simp only [dsE]; exact le_trans (dsE_le c σ n) (le_trans (dsE_le t _ _) (dsE_le f _ _))
  | .call _ as, σ, n => by simp only [dsE]; exact dsA_le as σ n
theorem dsA_le : ∀ (e : Exprs) (σ : Ren) (n : Nat), n ≤ (dsA σ n e).2
  | .nil, _, _ => by simp [dsA]
  | .cons e es, σ, n => by simp only [dsA]; exact le_trans (dsE_le e σ n) (dsA_le es _ _)
theorem dsB_le : ∀ (e : Binds) (σ : Ren) (n : Nat), n ≤ (dsB σ n e).2.2
  | .nil, _, _ => by simp [dsB]
  | .cons x e bs, σ, n => by
    simp only [dsB]
    exact le_trans (dsE_le e σ n) (le_trans (declNext_le σ _ x) (dsB_le bs _ _))
end

theorem dsI_le (σ : Ren) (n : Nat) (i : Interval) : n ≤ (dsI σ n i).2 := by
  unfold dsI
  split
  · exact dsE_le _ σ n
  · exact le_trans (dsE_le _ σ n) (dsE_le _ _ _)

theorem dsD_le (σ : Ren) (n : Nat) (d : DimE) : n ≤ (dsD σ n d).2 :=
  le_trans (dsI_le σ n _) (le_trans (dsE_le _ _ _) (dsE_le _ _ _))

theorem dsC_le (σ : Ren) (z : Nat) : ∀ (is : List Interval) (d n : Nat), n ≤ (dsC σ z d n is).2
  | [], _, _ => le_refl _
  | i :: is, d, n => le_trans (dsI_le σ n i) (dsC_le σ z is _ _)

theorem dsDecls_le : ∀ (xs : List Nat) (σ : Ren) (n : Nat), n ≤ (dsDecls σ n xs).2.2
  | [], _, _ => le_refl _
  | x :: xs, σ, n => le_trans (declNext_le σ n x) (dsDecls_le xs _ _)

mutual
theorem dsS_le : ∀ (s : Stmt) (σ : Ren) (n : Nat), n ≤ (dsS σ n s).2
  | .undef, _, _ => by simp [dsS]
  | .call .., σ, n => by simp only [dsS]; exact mapAcc_le (fun n e => dsE_le e σ n) _ _
  | .copy .., σ, n => by simp only [dsS]; exact le_trans (dsDecls_le _ σ n) (mapAcc_le (fun n e => dsE_le e _ n) _ _)
  | .lets bs body _, σ, n => by simp only [dsS]; exact le_trans (dsB_le bs σ n) (dsS_le body _ _)
  | .block .nil, _, _ => by simp [dsS]
  | .block (.cons s ss), σ, n => by simp only [dsS]; exact le_trans (dsS_le s σ n) (dsSs_le ss _ _)
  | .loop x wk b st body, σ, n => by
    simp only [dsS]
    exact le_trans (dsI_le σ n b) (le_trans (dsE_le st _ _) (le_trans (dsE_le wk _ _) (le_trans (declNext_le _ _ x) (dsS_le body _ _))))
  | .allocate x _ e ds body, σ, n => by
    simp only [dsS]
    exact le_trans (dsE_le e σ n) (le_trans (mapAcc_le (dsD_le σ) _ _) (dsS_le body _ _))
  | .makeBuffer x p e ds body, σ, n => by
    simp only [dsS]
    exact le_trans (dsE_le p σ n) (le_trans (dsE_le e _ _) (le_trans (mapAcc_le (dsD_le σ) _ _) (le_trans (Nat.le_succ _) (dsS_le body _ _))))
  | .constantBuffer x _ body, σ, n => by simp only [dsS]; exact le_trans (declNext_le _ _ x) (dsS_le body _ _)
  | .cloneBuffer x _ body, σ, n => by simp only [dsS]; exact le_trans (declNext_le _ _ x) (dsS_le body _ _)
  | .cropBuffer x _ bs body, σ, n => by simp only [dsS]; exact le_trans (dsC_le _ _ _ _ _) (le_trans (declNext_le _ _ x) (dsS_le body _ _))
  | .cropDim x _ _ b body, σ, n => by simp only [dsS]; exact le_trans (dsI_le _ _ _) (le_trans (declNext_le _ _ x) (dsS_le body _ _))
  | .sliceBuffer x _ es body, σ, n => by
    simp only [dsS]; exact le_trans (mapAcc_le (fun n e => dsE_le e σ n) _ _) (le_trans (declNext_le _ _ x) (dsS_le body _ _))
  | .sliceDim x _ _ e body, σ, n => by simp only [dsS]; exact le_trans (dsE_le _ _ _) (le_trans (declNext_le _ _ x) (dsS_le body _ _))
  | .transpose x _ _ body, σ, n => by simp only [dsS]; exact le_trans (declNext_le _ _ x) (dsS_le body _ _)
  | .async none _ _, _, _ => by simp [dsS]
  | .async (some x) task body, σ, n => by
    simp only [dsS]; exact le_trans (declNext_le _ _ x) (le_trans (dsS_le task _ _) (dsS_le body _ _))
  | .check c, σ, n => by simp only [dsS]; exact dsE_le c σ n
theorem dsSs_le : ∀ (s : Stmts) (σ : Ren) (n : Nat), n ≤ (dsSs σ n s).2
  | .nil, _, _ => by simp [dsSs]
  | .cons s ss, σ, n => by simp only [dsSs]; exact le_trans (dsS_le s σ n) (dsSs_le ss _ _)
end

/-! ## The names -/

/-- The names at a place of the statement: the symbols of the statement are less than `N`, the new symbols less than `n`. -/
structure DsInv (N n : Nat) (σ : Ren) : Prop where
  le : N ≤ n
  rng : ∀ x z, x < N → σ x = some z → (z = x ∨ N ≤ z) ∧ z < n
  inj : ∀ x y, x < N → y < N → σ.sym x = σ.sym y → x = y

/-- The scope at a place of the statement. -/
def dsScope (N n : Nat) (σ : Ren) : Scope := ⟨fun y => y < N, σ.sym, fun y => n ≤ y, fun _ => False⟩

theorem DsInv.mono {N n n' : Nat} {σ : Ren} (h : DsInv N n σ) (hn : n ≤ n') : DsInv N n' σ :=
  ⟨le_trans h.le hn, fun x z hx hz => ⟨(h.rng x z hx hz).1, lt_of_lt_of_le (h.rng x z hx hz).2 hn⟩, h.inj⟩

theorem DsInv.sym_cases {N n : Nat} {σ : Ren} (h : DsInv N n σ) {x : Nat} (hx : x < N) : (σ.sym x = x ∨ N ≤ σ.sym x) ∧ σ.sym x < n := by
  unfold Ren.sym
  cases e : σ x with
  | none => exact ⟨Or.inl rfl, lt_of_lt_of_le hx h.le⟩
  | some z => exact h.rng x z hx e

theorem sym_set (σ : Ren) (x x' : Nat) : (σ.set x x').sym = upd σ.sym x x' := by
  funext y
  unfold Ren.sym Ren.set upd
  split <;> simp

theorem DsInv.fresh {N n : Nat} {σ : Ren} (h : DsInv N n σ) {x x' : Nat} (hx : x < N) (hx' : x' = x ∨ n ≤ x') {y : Nat} (hy : y < N) (hne : y ≠ x) :
    σ.sym y ≠ x' := by
  have := h.sym_cases hy
  have := h.le
  omega

theorem DsInv.set {N n : Nat} {σ : Ren} (h : DsInv N n σ) {x x' n' : Nat} (hx : x < N) (hx' : x' = x ∨ n ≤ x') (h1 : x' < n') (h2 : n ≤ n') :
    DsInv N n' (σ.set x x') ∧ (dsScope N n σ).Decl (dsScope N n' (σ.set x x')) x x' := by
  constructor
  · refine ⟨le_trans h.le h2, fun y z hy hz => ?_, fun y z hy hz e => ?_⟩
    · unfold Ren.set at hz
      split at hz
      · rename_i hyx
        simp only [Option.some.injEq] at hz
        subst hz
        have := h.le
        omega
      · have := h.rng y z hy hz
        exact ⟨this.1, lt_of_lt_of_le this.2 h2⟩
    · rw [sym_set] at e
      unfold upd at e
      split at e
      · split at e
        · omega
        · rename_i h3 h4; exact absurd e.symm (h.fresh hx hx' hz h4)
      · split at e
        · rename_i h3 h4; exact absurd e (h.fresh hx hx' hy h3)
        · exact h.inj y z hy hz e
  · refine ⟨sym_set σ x x', fun y hy => ?_, fun y hy => ?_, fun y hy => hy.elim⟩
    · by_cases e : y = x
      · exact Or.inl e
      · exact Or.inr ⟨hy, h.fresh hx hx' hy e⟩
    · simp only [dsScope] at hy ⊢
      omega

theorem DsInv.decl {N n0 n : Nat} {σ : Ren} (h : DsInv N n0 σ) (hn : n0 ≤ n) {x : Nat} (hx : x < N) :
    DsInv N (σ.declNext n x) (σ.decl n x) ∧ (dsScope N n0 σ).Decl (dsScope N (σ.declNext n x) (σ.decl n x)) x (σ.declSym n x) := by
  unfold Ren.decl Ren.declNext Ren.declSym
  have := h.le
  split
  · exact h.set hx (Or.inr hn) (by omega) (by omega)
  · exact h.set hx (Or.inl rfl) (by omega) (by omega)

/-! ## Expressions -/

theorem dsE_var {σ : Ren} {n : Nat} {e : Expr} {z : Nat} {f : Field} {d : Int} (h : (dsE σ n e).1 = .var z f d) :
    ∃ y, e = .var y f d ∧ z = σ.sym y := by
  cases e with
  | var y g i => simp only [dsE, Expr.var.injEq] at h; obtain ⟨rfl, rfl, rfl⟩ := h; exact ⟨y, rfl, rfl⟩
  | bin op a b =>
    simp only [dsE, rebuildBin, mkBin] at h
    split at h
    · cases h
    · split at h <;> cases h
  | _ => simp [dsE] at h

theorem bufAtArgs_plain {z : Nat} : ∀ {es : Exprs} {d : Nat}, plainIndices z d es → bufAtArgs (fun _ => .undef) z d es = es
  | .nil, _, _ => rfl
  | .cons e es, d, h => by
    simp only [plainIndices] at h
    simp only [bufAtArgs, bufAtArgs_plain h.2, if_neg h.1]
    split
    · rename_i he; rw [he]
    · rfl

theorem plainIndices_ds {N n : Nat} {σ : Ren} (h : DsInv N n σ) {z : Nat} (hz : z < N) : ∀ {es : Exprs} {d m : Nat}, es.DsOk N → plainIndices z d es →
    plainIndices (σ.sym z) d (dsA σ m es).1
  | .nil, _, _, _, _ => by simp [dsA, plainIndices]
  | .cons e es, d, m, ho, hp => by
    simp only [Exprs.DsOk] at ho
    simp only [plainIndices] at hp
    simp only [dsA, plainIndices]
    refine ⟨fun he => ?_, plainIndices_ds h hz ho.2 hp.2⟩
    obtain ⟨y, rfl, hy⟩ := dsE_var he
    have : y < N := by simpa [Expr.DsOk] using ho.1
    rw [h.inj z y hz this hy] at hp
    exact hp.1 rfl

theorem rebuildBin_ren {sc : Scope} {op : BinOp} {a b a' b' : Expr} (h1 : RenE sc a a') (h2 : RenE sc b b') : RenE sc (.bin op a b) (rebuildBin op a b a' b') := by
  simp only [RenE]
  refine ⟨a', b', h1, h2, ?_⟩
  unfold rebuildBin mkBin
  split
  · rename_i h; rw [h.1, h.2]; exact Or.inl rfl
  · split
    · rename_i h; simp only [Bool.and_eq_true] at h; exact Or.inr ⟨h.1, rfl⟩
    · exact Or.inl rfl

mutual
theorem dsE_ren {N : Nat} : ∀ (e : Expr) {σ : Ren} {n0 n : Nat}, DsInv N n0 σ → n0 ≤ n → e.DsOk N → RenE (dsScope N n0 σ) e (dsE σ n e).1
  | .undef, _, _, _, _, _, _ => by simp [dsE, RenE]
  | .var x f d, σ, n0, n, _, _, ho => by simpa [dsE, RenE, dsScope, Expr.DsOk] using ho
  | .const _, _, _, _, _, _, _ => by simp [dsE, RenE]
  | .lets bs b, σ, n0, n, hi, hn, ho => by
    simp only [Expr.DsOk] at ho
    obtain ⟨m, h1, h2, h3⟩ := dsB_ren bs hi hn ho.1
    simp only [dsE, RenE]
    exact ⟨_, _, _, h3, dsE_ren b h1 h2 ho.2, rfl⟩
  | .bin op a b, σ, n0, n, hi, hn, ho => by
    simp only [Expr.DsOk] at ho
    simp only [dsE]
    exact rebuildBin_ren (dsE_ren a hi hn ho.1) (dsE_ren b hi (le_trans hn (dsE_le a _ _)) ho.2)
  | .not a, σ, n0, n, hi, hn, ho => by
    simp only [Expr.DsOk] at ho
    simp only [dsE, RenE]
    exact ⟨_, dsE_ren a hi hn ho, rfl⟩
  | .select c t f, σ, n0, n, hi, hn, ho => by
    simp only [Expr.DsOk] at ho
    simp only [dsE, RenE]
    have h1 := le_trans hn (dsE_le c σ n)
    exact ⟨_, _, _, dsE_ren c hi hn ho.1, dsE_ren t hi h1 ho.2.1, dsE_ren f hi (le_trans h1 (dsE_le t _ _)) ho.2.2, rfl⟩
  | .call fn as, σ, n0, n, hi, hn, ho => by
    simp only [Expr.DsOk] at ho
    simp only [dsE, RenE]
    refine ⟨_, dsA_ren as hi hn ho.1, ?_⟩
    unfold fixBufferAt
    split
    · rename_i z i es he
      right
      cases as with
      | nil => simp [dsA] at he
      | cons e0 es0 =>
        simp only [dsA, Exprs.cons.injEq] at he
        obtain ⟨he0, hes⟩ := he
        obtain ⟨y, rfl, rfl⟩ := dsE_var he0
        have ho1 := ho.1
        simp only [Exprs.DsOk] at ho1
        have hy : y < N := by simpa [Expr.DsOk] using ho1.1
        have := plainIndices_ds hi hy (m := (dsE σ n (.var y .none i)).2) ho1.2 (ho.2 y i es0 rfl rfl)
        rw [hes] at this
        refine ⟨rfl, σ.sym y, i, es, ?_, ?_⟩
        · simp only [dsA, he0, hes]
        · rw [padArgs, bufAtArgs_plain this]
    · exact Or.inl rfl
theorem dsA_ren {N : Nat} : ∀ (e : Exprs) {σ : Ren} {n0 n : Nat}, DsInv N n0 σ → n0 ≤ n → e.DsOk N → RenA (dsScope N n0 σ) e (dsA σ n e).1
  | .nil, _, _, _, _, _, _ => by simp [dsA, RenA]
  | .cons e es, σ, n0, n, hi, hn, ho => by
    simp only [Exprs.DsOk] at ho
    simp only [dsA, RenA]
    exact ⟨_, _, dsE_ren e hi hn ho.1, dsA_ren es hi (le_trans hn (dsE_le e _ _)) ho.2, rfl⟩
theorem dsB_ren {N : Nat} : ∀ (e : Binds) {σ : Ren} {n0 n : Nat}, DsInv N n0 σ → n0 ≤ n → e.DsOk N →
    ∃ m, DsInv N m (dsB σ n e).2.1 ∧ m ≤ (dsB σ n e).2.2 ∧ RenB (dsScope N n0 σ) e (dsB σ n e).1 (dsScope N m (dsB σ n e).2.1)
  | .nil, σ, n0, n, hi, hn, _ => ⟨n0, hi, hn, by simp [dsB, RenB]⟩
  | .cons x e bs, σ, n0, n, hi, hn, ho => by
    simp only [Binds.DsOk] at ho
    have h1 := le_trans hn (dsE_le e σ n)
    obtain ⟨h2, h3⟩ := hi.decl h1 ho.1
    obtain ⟨m, g1, g2, g3⟩ := dsB_ren bs h2 (le_refl _) ho.2.2.2
    refine ⟨m, g1, g2, ?_⟩
    simp only [dsB, RenB]
    exact ⟨_, _, _, _, dsE_ren e hi hn ho.2.2.1, fun d hd => absurd hd (ho.2.1 d), h3, g3, rfl⟩
end

theorem dsI_ren {N : Nat} {i : Interval} {σ : Ren} {n0 n : Nat} (hi : DsInv N n0 σ) (hn : n0 ≤ n) (ho : i.DsOk N) :
    RenI (dsScope N n0 σ) i (dsI σ n i).1 := by
  unfold dsI
  by_cases hp : i.isPoint = true
  · rw [if_pos hp]
    refine ⟨?_, dsE_ren _ hi hn ho.1, Or.inl hp⟩
    unfold Interval.isPoint at hp
    simp only [Bool.and_eq_true] at hp
    simp [Interval.point, hp.2]
  · rw [if_neg hp]
    exact ⟨rfl, dsE_ren _ hi hn ho.1, Or.inr (dsE_ren _ hi (le_trans hn (dsE_le _ _ _)) ho.2)⟩

theorem dsD_ren {N : Nat} {d : DimE} {σ : Ren} {n0 n : Nat} (hi : DsInv N n0 σ) (hn : n0 ≤ n) (ho : d.DsOk N) :
    RenD (dsScope N n0 σ) d (dsD σ n d).1 := by
  have h1 := le_trans hn (dsI_le σ n d.bounds)
  exact ⟨dsI_ren hi hn ho.1, dsE_ren _ hi h1 ho.2.1, dsE_ren _ hi (le_trans h1 (dsE_le _ _ _)) ho.2.2⟩

theorem mapAcc_ren {α : Type} {f : Nat → α → α × Nat} {R : α → α → Prop} {P : α → Prop} {n0 : Nat} (hle : ∀ n a, n ≤ (f n a).2)
    (hR : ∀ n a, n0 ≤ n → P a → R a (f n a).1) : ∀ (l : List α) (n : Nat), n0 ≤ n → (∀ a ∈ l, P a) → List.Forall₂ R l (mapAcc f n l).1
  | [], _, _, _ => .nil
  | a :: as, n, hn, hP => .cons (hR n a hn (hP a (by simp))) (mapAcc_ren hle hR as _ (le_trans hn (hle n a)) fun x hx => hP x (by simp [hx]))

theorem isPoint_same {i : Interval} (h : i.isPoint = true) : i.same = true := by
  unfold Interval.isPoint at h
  simp only [Bool.and_eq_true] at h
  exact h.2

/-- The bounds of a crop. -/
theorem dropOwn_ren {N : Nat} {i : Interval} {σ : Ren} {n0 n : Nat} (hi : DsInv N n0 σ) (hn : n0 ≤ n) (ho : i.DsOk N) (z d : Nat) :
    RenC (dsScope N n0 σ) (dsScope N n0 σ) z d i (dropOwn z d (dsI σ n i).1) := by
  have hr := dsI_ren hi hn ho
  have hp := hr.isPoint
  unfold dropOwn
  set i1 := (dsI σ n i).1 with hi1
  split
  · right
    -- how the ends are obtained
    have e1 : ∀ (fld : Field), fld = .min ∨ fld = .max → ∀ (e : Expr) (m : Nat), e.DsOk N → n0 ≤ m →
        RenEnd (dsScope N n0 σ) (dsScope N n0 σ) z fld d e (dropEnd z fld d (dsE σ m e).1) := by
      intro fld hf e m he hm
      unfold dropEnd
      split
      · rename_i hv
        obtain ⟨y, rfl, hz⟩ := dsE_var hv
        exact Or.inr ⟨y, fld, by simpa [dsScope, Expr.DsOk] using he, hz.symm, rfl, hf, Or.inr ⟨rfl, rfl⟩⟩
      · exact Or.inl (dsE_ren e hi hm he)
    refine ⟨by simp [Interval.isPoint], ?_, ?_⟩
    · have : i1.min = (dsE σ n i.min).1 := by rw [hi1]; unfold dsI; split <;> rfl
      simp only [this]
      exact e1 .min (Or.inl rfl) _ _ ho.1 hn
    · by_cases hpt : i.isPoint = true
      · have : i1.maxEnd = (dsE σ n i.min).1 := by
          unfold Interval.maxEnd; rw [hp, if_pos hpt, hi1]; unfold dsI; rw [if_pos hpt]; rfl
        simp only [this, if_pos hpt]
        exact e1 .max (Or.inr rfl) _ _ ho.1 hn
      · have : i1.maxEnd = (dsE σ (dsE σ n i.min).2 i.max).1 := by
          unfold Interval.maxEnd; rw [hp, if_neg hpt, hi1]; unfold dsI; rw [if_neg hpt]
        simp only [this, if_neg hpt]
        exact e1 .max (Or.inr rfl) _ _ ho.2 (le_trans hn (dsE_le _ _ _))
  · by_cases hpt : i.isPoint = true
    · exact Or.inl ⟨hpt, hp.trans hpt, Or.inl hr.2.1⟩
    · refine Or.inr ⟨by rw [hp]; simpa using hpt, Or.inl hr.2.1, ?_⟩
      rw [if_neg hpt]
      exact Or.inl (hr.2.2.resolve_left hpt)

theorem dsC_ren {N : Nat} {σ : Ren} {n0 : Nat} (hi : DsInv N n0 σ) (z : Nat) : ∀ (is : List Interval) (d n : Nat), n0 ≤ n → (∀ i ∈ is, i.DsOk N) →
    RenCs (dsScope N n0 σ) (dsScope N n0 σ) z d is (dsC σ z d n is).1
  | [], _, _, _, _ => by simp [dsC, RenCs]
  | i :: is, d, n, hn, ho => by
    simp only [dsC, RenCs]
    exact ⟨_, _, dropOwn_ren hi hn (ho i (by simp)) z d, dsC_ren hi z is _ _ (le_trans hn (dsI_le _ _ _)) fun x hx => ho x (by simp [hx]), rfl⟩

/-! ## Statements -/

mutual
/-- The statement is defined, and if it is a block, some statement of the block is. -/
def Stmt.Solid : Stmt → Prop
  | .undef => False
  | .block ss => ss.Solid
  | _ => True
/-- See `Stmt.Solid`. -/
def Stmts.Solid : Stmts → Prop
  | .nil => False
  | .cons s ss => s.Solid ∨ ss.Solid
end

theorem Stmt.Solid.ne {s : Stmt} (h : s.Solid) : s ≠ .undef := by rintro rfl; simp [Stmt.Solid] at h

theorem Stmts.solid_iff : ∀ {ss : Stmts}, ss.Solid ↔ ∃ s ∈ ss.toList, s.Solid
  | .nil => by simp [Stmts.Solid, Stmts.toList]
  | .cons s ss => by simp [Stmts.Solid, Stmts.toList, Stmts.solid_iff (ss := ss)]

theorem blockMake_solid {s : Stmt} {ss : List Stmt} (h : s.Solid) : (blockMake (s :: ss)).Solid := by
  have hfl : flattenBlocks (s :: ss) = s.flat ++ flattenBlocks ss := by
    cases s <;> simp [flattenBlocks, Stmt.flat]
  have h1 : ∃ t ∈ s.flat, t.Solid := by
    cases s with
    | block b => exact Stmts.solid_iff.1 (by simpa [Stmt.Solid] using h)
    | _ => exact ⟨_, List.mem_singleton_self _, h⟩
  obtain ⟨t, ht, hs⟩ := h1
  have hm : t ∈ eraseUndefs (flattenBlocks (s :: ss)) := by
    rw [hfl, eraseUndefs, List.mem_filter]
    exact ⟨List.mem_append_left _ ht, by have := hs.ne; cases t <;> first | rfl | exact absurd rfl this⟩
  unfold blockMake
  split
  · rename_i e; rw [e] at hm; cases hm
  · rename_i u e
    rw [e] at hm
    have : t = u := by simpa using hm
    rw [← this]; exact hs
  · simp only [Stmt.Solid, Stmts.solid_iff, Stmts.toList_ofList]
    exact ⟨t, hm, hs⟩

theorem dsS_solid : ∀ (s : Stmt) {σ : Ren} {n N : Nat}, s ≠ .undef → s.DsOk N → (dsS σ n s).1.Solid
  | .undef, _, _, _, h, _ => absurd rfl h
  | .block .nil, _, _, _, _, ho => by simp [Stmt.DsOk] at ho
  | .block (.cons s ss), σ, n, N, _, ho => by
    simp only [Stmt.DsOk] at ho
    simp only [dsS]
    exact blockMake_solid (dsS_solid s ho.1 ho.2.1)
  | .async none _ _, _, _, _, _, _ => by simp [dsS, Stmt.Solid]
  | .async (some _) _ _, _, _, _, _, _ => by simp [dsS, Stmt.Solid]
  | .call .., _, _, _, _, _ => by simp [dsS, Stmt.Solid]
  | .copy .., _, _, _, _, _ => by simp [dsS, Stmt.Solid]
  | .lets .., _, _, _, _, _ => by simp [dsS, Stmt.Solid]
  | .loop .., _, _, _, _, _ => by simp [dsS, Stmt.Solid]
  | .allocate .., _, _, _, _, _ => by simp [dsS, Stmt.Solid]
  | .makeBuffer .., _, _, _, _, _ => by simp [dsS, Stmt.Solid]
  | .constantBuffer .., _, _, _, _, _ => by simp [dsS, Stmt.Solid]
  | .cloneBuffer .., _, _, _, _, _ => by simp [dsS, Stmt.Solid]
  | .cropBuffer .., _, _, _, _, _ => by simp [dsS, Stmt.Solid]
  | .cropDim .., _, _, _, _, _ => by simp [dsS, Stmt.Solid]
  | .sliceBuffer .., _, _, _, _, _ => by simp [dsS, Stmt.Solid]
  | .sliceDim .., _, _, _, _, _ => by simp [dsS, Stmt.Solid]
  | .transpose .., _, _, _, _, _ => by simp [dsS, Stmt.Solid]
  | .check _, _, _, _, _, _ => by simp [dsS, Stmt.Solid]
termination_by structural s => s

/-- A declaration in place stays in place only if the buffer is not renamed. -/
theorem declSym_src {N n0 n : Nat} {σ : Ren} (hi : DsInv N n0 σ) (hn : n0 ≤ n) {x src : Nat} (hx : x < N) (hs : src < N)
    (h : σ.declSym n x = σ.sym src) : x = src := by
  by_contra hne
  have := hi.fresh hx (x' := σ.declSym n x) (by unfold Ren.declSym; split <;> simp [hn]) hs (fun e => hne e.symm)
  exact this h.symm

mutual
theorem dsS_ren {N : Nat} : ∀ (s : Stmt) {σ : Ren} {n0 n : Nat}, DsInv N n0 σ → n0 ≤ n → s.DsOk N → RenS (dsScope N n0 σ) s (dsS σ n s).1
  | .undef, _, _, _, _, _, _ => by simp [dsS, RenS]
  | .call t i o xs, σ, n0, n, hi, hn, ho => by
    simp only [Stmt.DsOk] at ho
    simp only [dsS, RenS]
    exact ⟨_, rfl, ho.1, ho.2.1, mapAcc_ren (fun n e => dsE_le e σ n) (fun n e hn he => dsE_ren e hi hn he) xs n hn ho.2.2⟩
  | .copy .., _, _, _, _, _, _ => by simp [dsS, RenS]
  | .lets bs body c, σ, n0, n, hi, hn, ho => by
    simp only [Stmt.DsOk] at ho
    obtain ⟨m, h1, h2, h3⟩ := dsB_ren bs hi hn ho.2.1
    simp only [dsS, RenS]
    exact ⟨ho.1, _, _, _, h3, dsS_ren body h1 h2 ho.2.2, rfl⟩
  | .block .nil, _, _, _, _, _, ho => by simp [Stmt.DsOk] at ho
  | .block (.cons s ss), σ, n0, n, hi, hn, ho => by
    simp only [Stmt.DsOk] at ho
    have h1 := dsS_ren s hi hn ho.2.1
    have h2 := dsSs_ren ss hi (le_trans hn (dsS_le s σ n)) ho.2.2
    simp only [dsS, RenS, RenSs]
    exact ⟨_, ⟨_, _, h1, h2, rfl⟩, Or.inr ⟨rfl, (blockMake_solid (dsS_solid s ho.1 ho.2.1)).ne⟩⟩
  | .loop x wk b st body, σ, n0, n, hi, hn, ho => by
    simp only [Stmt.DsOk] at ho
    have h1 := le_trans hn (dsI_le σ n b)
    have h2 := le_trans h1 (dsE_le st σ _)
    have h3 := le_trans h2 (dsE_le wk σ _)
    obtain ⟨g1, g2⟩ := hi.decl h3 ho.1
    simp only [dsS, RenS]
    exact ⟨_, _, _, _, _, _, dsE_ren wk hi h2 ho.2.1, dsI_ren hi hn ho.2.2.1, dsE_ren st hi h1 ho.2.2.2.1, g2, Or.inl (dsS_ren body g1 (le_refl _) ho.2.2.2.2), rfl⟩
  | .allocate x sto e ds body, σ, n0, n, hi, hn, ho => by
    simp only [Stmt.DsOk] at ho
    have h1 := le_trans hn (dsE_le e σ n)
    have h2 := le_trans h1 (mapAcc_le (dsD_le σ) ds _)
    have := hi.le
    obtain ⟨g1, g2⟩ := hi.set (x' := x) (n' := (mapAcc (dsD σ) (dsE σ n e).2 ds).2) ho.1 (Or.inl rfl) (by omega) h2
    simp only [dsS, RenS]
    exact ⟨_, _, _, _, _, dsE_ren e hi hn ho.2.1, mapAcc_ren (dsD_le σ) (fun n e hn he => dsD_ren hi hn he) ds _ h1 ho.2.2.1, g2,
      dsS_ren body g1 (le_refl _) ho.2.2.2, rfl⟩
  | .makeBuffer x p e ds body, σ, n0, n, hi, hn, ho => by
    simp only [Stmt.DsOk] at ho
    have h0 := le_trans hn (dsE_le p σ n)
    have h1 := le_trans h0 (dsE_le e σ _)
    have h2 := le_trans h1 (mapAcc_le (dsD_le σ) ds _)
    obtain ⟨g1, g2⟩ := hi.set (x' := (mapAcc (dsD σ) (dsE σ (dsE σ n p).2 e).2 ds).2) (n' := (mapAcc (dsD σ) (dsE σ (dsE σ n p).2 e).2 ds).2 + 1)
      ho.1 (Or.inr h2) (by omega) (by omega)
    simp only [dsS, RenS]
    exact ⟨_, _, _, _, _, _, dsE_ren p hi hn ho.2.1, dsE_ren e hi h0 ho.2.2.1, mapAcc_ren (dsD_le σ) (fun n e hn he => dsD_ren hi hn he) ds _ h1 ho.2.2.2.1, g2,
      dsS_ren body g1 (le_refl _) ho.2.2.2.2, rfl⟩
  | .constantBuffer x b body, σ, n0, n, hi, hn, ho => by
    simp only [Stmt.DsOk] at ho
    obtain ⟨g1, g2⟩ := hi.decl hn ho.1
    simp only [dsS, RenS]
    exact ⟨_, _, _, g2, dsS_ren body g1 (le_refl _) ho.2, rfl⟩
  | .cloneBuffer x src body, σ, n0, n, hi, hn, ho => by
    simp only [Stmt.DsOk] at ho
    obtain ⟨g1, g2⟩ := hi.decl hn ho.1
    simp only [dsS, RenS]
    exact ⟨_, _, _, ho.2.1, g2, dsS_ren body g1 (le_refl _) ho.2.2, rfl⟩
  | .cropBuffer x src bs body, σ, n0, n, hi, hn, ho => by
    simp only [Stmt.DsOk] at ho
    have h1 := le_trans hn (dsC_le σ (σ.sym src) bs 0 n)
    obtain ⟨g1, g2⟩ := hi.decl h1 ho.1
    simp only [dsS, RenS]
    refine ⟨_, _, _, _, ho.2.1, dsC_ren hi _ bs 0 n hn ho.2.2.1, g2, dsS_ren body g1 (le_refl _) ho.2.2.2, rfl, fun hx => Or.inl ?_⟩
    refine ⟨declSym_src hi h1 ho.1 ho.2.1 hx, fun y hy hne => ?_⟩
    exact hi.fresh ho.1 (by unfold Ren.declSym; split <;> simp [h1]) hy hne
  | .cropDim x src d b body, σ, n0, n, hi, hn, ho => by
    simp only [Stmt.DsOk] at ho
    have h1 := le_trans hn (dsI_le σ n b)
    obtain ⟨g1, g2⟩ := hi.decl h1 ho.1
    simp only [dsS, RenS]
    exact ⟨_, _, _, _, ho.2.1, dropOwn_ren hi hn ho.2.2.1 _ _, g2, dsS_ren body g1 (le_refl _) ho.2.2.2, rfl⟩
  | .sliceBuffer x src es body, σ, n0, n, hi, hn, ho => by
    simp only [Stmt.DsOk] at ho
    have h1 := le_trans hn (mapAcc_le (fun n e => dsE_le e σ n) es n)
    obtain ⟨g1, g2⟩ := hi.decl h1 ho.1
    simp only [dsS, RenS]
    exact ⟨_, _, _, _, ho.2.1, mapAcc_ren (fun n e => dsE_le e σ n) (fun n e hn he => dsE_ren e hi hn he) es n hn ho.2.2.1, g2,
      dsS_ren body g1 (le_refl _) ho.2.2.2, rfl⟩
  | .sliceDim x src d e body, σ, n0, n, hi, hn, ho => by
    simp only [Stmt.DsOk] at ho
    have h1 := le_trans hn (dsE_le e σ n)
    obtain ⟨g1, g2⟩ := hi.decl h1 ho.1
    simp only [dsS, RenS]
    exact ⟨_, _, _, _, ho.2.1, dsE_ren e hi hn ho.2.2.1, g2, dsS_ren body g1 (le_refl _) ho.2.2.2, rfl⟩
  | .transpose x src ds body, σ, n0, n, hi, hn, ho => by
    simp only [Stmt.DsOk] at ho
    obtain ⟨g1, g2⟩ := hi.decl hn ho.1
    simp only [dsS, RenS]
    exact ⟨_, _, _, ho.2.1, g2, dsS_ren body g1 (le_refl _) ho.2.2, rfl, fun hx => Or.inl (declSym_src hi hn ho.1 ho.2.1 hx)⟩
  | .async none _ _, _, _, _, _, _, ho => by simp [Stmt.DsOk] at ho
  | .async (some x) task body, σ, n0, n, hi, hn, ho => by
    simp only [Stmt.DsOk] at ho
    obtain ⟨g1, g2⟩ := hi.decl hn ho.1
    have h1 := dsS_le task (σ.decl n x) (σ.declNext n x)
    simp only [dsS, RenS]
    refine ⟨_, _, _, _, _, g2, fun y hy => hy.elim, g2, ?_, Or.inl (dsS_ren task g1 (le_refl _) ho.2.1), Or.inl (dsS_ren body g1 h1 ho.2.2), rfl⟩
    unfold Ren.declSym
    split
    · exact Or.inl hn
    · rename_i hs
      refine Or.inr ⟨ho.1, ?_⟩
      have : σ x = none := by simpa using hs
      simp [dsScope, Ren.sym, this]
  | .check c, σ, n0, n, hi, hn, ho => by
    simp only [Stmt.DsOk] at ho
    simp only [dsS, RenS]
    exact ⟨_, dsE_ren c hi hn ho, rfl⟩
termination_by structural s => s
theorem dsSs_ren {N : Nat} : ∀ (s : Stmts) {σ : Ren} {n0 n : Nat}, DsInv N n0 σ → n0 ≤ n → s.DsOk N → RenSs (dsScope N n0 σ) s (dsSs σ n s).1
  | .nil, _, _, _, _, _, _ => by simp [dsSs, RenSs]
  | .cons s ss, σ, n0, n, hi, hn, ho => by
    simp only [Stmts.DsOk] at ho
    simp only [dsSs, RenSs]
    exact ⟨_, _, dsS_ren s hi hn ho.2.1, dsSs_ren ss hi (le_trans hn (dsS_le s σ n)) ho.2.2, rfl⟩
termination_by structural s => s
end

theorem extRen_inv (ext : List Nat) (N : Nat) : DsInv N N (extRen ext) := by
  have hs : ∀ x, (extRen ext).sym x = x := by intro x; unfold extRen Ren.sym; dsimp only; split <;> rfl
  refine ⟨le_refl _, fun x z hx hz => ?_, fun x y _ _ h => by rwa [hs, hs] at h⟩
  unfold extRen at hz
  split at hz
  · simp only [Option.some.injEq] at hz; subst hz; exact ⟨Or.inl rfl, hx⟩
  · cases hz

/-- **C40.** `deshadow` keeps the meaning of a statement: in every world and every environment (without values for the symbols that are not yet
in the context), if the statement has a meaning, then the statement that `deshadow` makes has the same result and the same effects. -/
theorem deshadow_sem (w : World) {s : Stmt} {N : Nat} (ext : List Nat) (hok : s.DsOk N) {ρ : SEnv} (hρ : ∀ y, N ≤ y → ρ y = .undef) {l : List Ev}
    {p : Int × List Ev} (h : sem w false s ρ l = some p) : sem w false (deshadow s ext N) ρ l = some p := by
  refine sem_ren (dsS_ren s (extRen_inv ext N) (le_refl _) hok) ⟨fun y hy => ?_, fun y hy => hρ y hy, fun y hy => hy.elim⟩ h
  have : (extRen ext).sym y = y := by unfold extRen Ren.sym; dsimp only; split <;> rfl
  simp only [dsScope, this]

end Slinky
