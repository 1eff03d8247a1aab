import Verif.RewriteProps

/-!
# The pattern matcher finds a match exactly if there is one (C13)

`Inst c p e` says that `e` is an instance of the pattern `p`, with the wildcards and constants given by `c`, where the
operands of a commutative operator may be swapped. `matchAny` succeeds if and only if there is such a `c`.
-/

namespace Slinky

/-- The parts `(x, a, b, c)` of an expression `((x + a)/b)*c`, where the missing parts are 0, 1 and 1, and `(a' - x)/b` is
`(x + (|b| - 1 - a'))/(-b)`. -/
def stairParts (e : Expr) : Option (Expr × Expr × Int × Expr) :=
  let (d, e1) := match e with
    | .bin .mul x y => (y, x)
    | _ => (.const 1, e)
  match (match e1 with
    | .bin .div x y => (asConst y).map fun b => (b, x)
    | _ => some (1, e1)) with
  | none => none
  | some (b, e2) =>
    match e2 with
    | .bin .add x y => some (x, y, b, d)
    | .bin .sub x y => (asConst x).map fun ac => (y, .const ((b.natAbs : Int) - 1 - ac), -b, d)
    | _ => some (e2, .const 0, b, d)

/-- `e` is an instance of `p`, see above. -/
def Inst (c : MCtx) : Pat → Expr → Prop
  | .wild i, e => c.vars i = some e
  | .cst i, e => ∃ k, e = .const k ∧ c.consts i = some k
  | .lit k, e => e = .const k
  | .opt p _, e => Inst c p e
  | .bin op a b, e =>
    (∃ x y, e = .bin op x y ∧ (Inst c a x ∧ Inst c b y ∨ couldCommute op a b = true ∧ Inst c a y ∧ Inst c b x)) ∨
    ((∀ x y, e ≠ .bin op x y) ∧
      match a.dflt, b.dflt with
      | some d, _ => Inst c a (.const d) ∧ Inst c b e
      | none, some d => Inst c a e ∧ Inst c b (.const d)
      | none, none => False)
  | .not a, e => ∃ x, e = .not x ∧ Inst c a x
  | .select p q r, e => ∃ x y z, e = .select x y z ∧ Inst c p x ∧ Inst c q y ∧ Inst c r z
  | .call0 fn, e => e = .call fn .nil
  | .call1 fn a, e => ∃ x, e = .call fn (.cons x .nil) ∧ Inst c a x
  | .call2 fn a b, e => ∃ x y, e = .call fn (.cons x (.cons y .nil)) ∧ Inst c a x ∧ Inst c b y
  | .stair px pa pb pc, e => ∃ x a b d, stairParts e = some (x, a, b, d) ∧
      Inst c px x ∧ Inst c pa a ∧ Inst c pb (.const b) ∧ Inst c pc d
  | _, _ => False

theorem Inst.mono {c c' : MCtx} (h : c.Ext c') : ∀ {p e}, Inst c p e → Inst c' p e := by
  intro p
  induction p with
  | wild i => intro e he; exact h.vars _ _ he
  | cst i => rintro e ⟨k, he, hk⟩; exact ⟨k, he, h.consts _ _ hk⟩
  | lit k => intro e he; exact he
  | opt p d ih => intro e he; exact ih (e := e) he
  | bin op a b iha ihb =>
    rintro e (⟨x, y, rfl, h | h⟩ | ⟨hne, hd⟩)
    · exact .inl ⟨x, y, rfl, .inl ⟨iha h.1, ihb h.2⟩⟩
    · exact .inl ⟨x, y, rfl, .inr ⟨h.1, iha h.2.1, ihb h.2.2⟩⟩
    · refine .inr ⟨hne, ?_⟩
      split at hd
      · exact ⟨iha hd.1, ihb hd.2⟩
      · exact ⟨iha hd.1, ihb hd.2⟩
      · exact hd
  | not a ih => rintro e ⟨x, rfl, h⟩; exact ⟨x, rfl, ih h⟩
  | select p q r ihp ihq ihr => rintro e ⟨x, y, z, rfl, h1, h2, h3⟩; exact ⟨x, y, z, rfl, ihp h1, ihq h2, ihr h3⟩
  | call0 fn => intro e h; exact h
  | call1 fn a ih => rintro e ⟨x, rfl, h⟩; exact ⟨x, rfl, ih h⟩
  | call2 fn a b iha ihb => rintro e ⟨x, y, rfl, h1, h2⟩; exact ⟨x, y, rfl, iha h1, ihb h2⟩
  | stair px pa pb pc ihx iha ihb ihc =>
    rintro e ⟨x, a, b, d, hs, h1, h2, h3, h4⟩
    exact ⟨x, a, b, d, hs, ihx h1, iha h2, ihb h3, ihc h4⟩
  | _ => intro e h; exact h.elim

/-- For constants, matching a constant expression is matching the constant. -/
theorem matchP_const {p : Pat} (hp : p.isLeafConst = true) (v k c n) :
    matchP v p (.const k) c n = (matchC p k c, n) := by
  cases p <;> simp [Pat.isLeafConst] at hp
  · simp [matchP, asConst]
  · simp only [matchP, matchC, asConst, Option.some.injEq]
    split
    · next h => simp [h]
    · next h => rw [if_neg (fun h' => h h'.symm)]

theorem matchP_leaf_bits {p : Pat} (hp : p.isLeafConst = true) (v e c n) : (matchP v p e c n).2 = n := by
  cases p <;> simp [Pat.isLeafConst] at hp <;> simp only [matchP] <;> split <;> simp

/-- The match of a staircase, from its parts. -/
theorem matchP_stair {px pa pb pc : Pat} (hpa : pa.isLeafConst = true) (hpb : pb.isLeafConst = true)
    (hpc : pc.isLeafConst = true) (v e c n) :
    (∃ x a b d, stairParts e = some (x, a, b, d) ∧ matchP v (.stair px pa pb pc) e c n =
      seqM (seqM (seqM (matchP v pc d c n) fun c k => matchP v pb (.const b) c k) fun c k => matchP v px x c k)
        fun c k => matchP v pa a c k) ∨
    (stairParts e = none ∧ matchP v (.stair px pa pb pc) e c n = (none, n)) := by
  have hpcb : ∀ d, (matchP v pc d c n).2 = n := fun d => matchP_leaf_bits hpc v d c n
  have key : ∀ (r : Option MCtx × Nat) (d e1 : Expr), (r = matchP v pc d c n) →
      (∃ x a b d', (match (match e1 with
            | Expr.bin BinOp.div x y => (asConst y).map fun b => (b, x)
            | _ => some (1, e1)) with
          | none => none
          | some (b, e2) =>
            match e2 with
            | Expr.bin .add x y => some (x, y, b, d)
            | Expr.bin .sub x y => (asConst x).map fun ac => (y, .const ((b.natAbs : Int) - 1 - ac), -b, d)
            | _ => some (e2, .const 0, b, d)) = some (x, a, b, d') ∧
        (seqM r fun ctx n =>
          match (match e1 with
            | Expr.bin BinOp.div x y => (asConst y).map fun b => (b, x)
            | _ => some (1, e1)) with
          | none => (none, n)
          | some (b, e2) =>
            match e2 with
            | Expr.bin .add x y =>
              seqM (seqM (matchC pb b ctx, n) (fun c k => matchP v px x c k)) (fun c k => matchP v pa y c k)
            | Expr.bin .sub x y =>
              match asConst x with
              | some ac =>
                seqM (seqM (matchC pb (-b) ctx, n) (fun c k => matchP v px y c k))
                  (fun c k => (matchC pa ((b.natAbs : Int) - 1 - ac) c, k))
              | none => (none, n)
            | _ => seqM (seqM (matchC pb b ctx, n) (fun c k => matchP v px e2 c k)) (fun c k => (matchC pa 0 c, k))) =
        seqM (seqM (seqM (matchP v pc d' c n) fun c k => matchP v pb (.const b) c k) fun c k => matchP v px x c k)
          fun c k => matchP v pa a c k) ∨
      ((match (match e1 with
            | Expr.bin BinOp.div x y => (asConst y).map fun b => (b, x)
            | _ => some (1, e1)) with
          | none => none
          | some (b, e2) =>
            match e2 with
            | Expr.bin .add x y => some (x, y, b, d)
            | Expr.bin .sub x y => (asConst x).map fun ac => (y, .const ((b.natAbs : Int) - 1 - ac), -b, d)
            | _ => some (e2, .const 0, b, d)) = (none : Option (Expr × Expr × Int × Expr)) ∧
        (seqM r fun ctx n =>
          match (match e1 with
            | Expr.bin BinOp.div x y => (asConst y).map fun b => (b, x)
            | _ => some (1, e1)) with
          | none => (none, n)
          | some (b, e2) =>
            match e2 with
            | Expr.bin .add x y =>
              seqM (seqM (matchC pb b ctx, n) (fun c k => matchP v px x c k)) (fun c k => matchP v pa y c k)
            | Expr.bin .sub x y =>
              match asConst x with
              | some ac =>
                seqM (seqM (matchC pb (-b) ctx, n) (fun c k => matchP v px y c k))
                  (fun c k => (matchC pa ((b.natAbs : Int) - 1 - ac) c, k))
              | none => (none, n)
            | _ => seqM (seqM (matchC pb b ctx, n) (fun c k => matchP v px e2 c k)) (fun c k => (matchC pa 0 c, k))) =
        (none, n)) := by
    intro r d e1 hr
    subst hr
    have seq3 : ∀ (b : Int) (x a : Expr),
        (seqM (matchP v pc d c n) fun c k => seqM (seqM (matchC pb b c, k) fun c k => matchP v px x c k)
          fun c k => matchP v pa a c k) =
        seqM (seqM (seqM (matchP v pc d c n) fun c k => matchP v pb (.const b) c k) fun c k => matchP v px x c k)
          fun c k => matchP v pa a c k := by
      intro b x a
      rcases matchP v pc d c n with ⟨_ | c1, n1⟩ <;> simp [seqM, matchP_const hpb]
    split
    · refine .inr ⟨rfl, ?_⟩
      have := hpcb d
      rcases hpp : matchP v pc d c n with ⟨_ | c1, n1⟩ <;> simp [hpp, seqM] at this ⊢ <;> exact this
    · next b e2 hb =>
      split
      · next x y => exact .inl ⟨x, y, b, d, rfl, seq3 b x y⟩
      · next x y =>
        cases hx : asConst x with
        | none =>
          refine .inr ⟨rfl, ?_⟩
          have := hpcb d
          rcases hpp : matchP v pc d c n with ⟨_ | c1, n1⟩ <;> simp [hpp, seqM] at this ⊢ <;> exact this
        | some ac =>
          refine .inl ⟨y, .const ((b.natAbs : Int) - 1 - ac), -b, d, rfl, ?_⟩
          rw [← seq3]; simp only [matchP_const hpa]
      · refine .inl ⟨e2, .const 0, b, d, rfl, ?_⟩
        rw [← seq3]; simp only [matchP_const hpa]
  have k1 := key _ (.const 1) e (matchP_const hpc v 1 c n).symm
  cases e with
  | bin op x y =>
    cases op with
    | mul => simp only [matchP, stairParts]; exact key _ y x rfl
    | _ => simp only [matchP, stairParts]; exact k1
  | _ => simp only [matchP, stairParts]; exact k1

/-- A match is an instance. -/
theorem matchP_inst (v : Nat) : ∀ (p : Pat) t e c n c' n', p.isPat t = true →
    matchP v p e c n = (some c', n') → Inst c' p e ∧ c.Ext c' := by
  intro p
  induction p with
  | wild i =>
    intro t e c n c' n' _ h
    simp only [matchP] at h
    split at h
    · next e' he' =>
      split at h
      · next hm =>
        have := (match_iff e e').1 hm
        subst this
        simp only [Prod.mk.injEq, Option.some.injEq] at h
        obtain ⟨rfl, _⟩ := h
        exact ⟨he', .refl _⟩
      · simp at h
    · next he' =>
      simp only [Prod.mk.injEq, Option.some.injEq] at h
      obtain ⟨rfl, _⟩ := h
      refine ⟨by simp [Inst], fun j x hx => ?_, fun _ _ h => h⟩
      by_cases hj : j = i
      · rw [hj, he'] at hx; cases hx
      · simp [hj, hx]
  | cst i =>
    intro t e c n c' n' _ h
    simp only [matchP] at h
    split at h
    · next k hk =>
      rw [asConst_eq hk]
      simp only [Prod.mk.injEq] at h
      have hs := matchC_sound ⟨fun _ _ _ => 0, fun _ _ => 0, 0⟩ (fun _ => 0) (p := .cst i) rfl h.1
      have hv := hs.val c' (.refl _) (fun _ _ => false)
      obtain ⟨k', hk'⟩ := Option.isSome_iff_exists.1 (hs.csts i (by simp [Pat.csts]))
      simp only [Rel.false_iff, patVal, MCtx.κ, hk', Option.getD_some] at hv
      exact ⟨⟨k, rfl, by rw [hk', hv]⟩, hs.ext⟩
    · simp at h
  | lit k =>
    intro t e c n c' n' _ h
    simp only [matchP] at h
    split at h
    · next hk =>
      simp only [Prod.mk.injEq, Option.some.injEq] at h
      obtain ⟨rfl, _⟩ := h
      exact ⟨asConst_eq hk, .refl _⟩
    · simp at h
  | opt p d ih =>
    intro t e c n c' n' hp h
    simp only [matchP] at h
    exact ih t e c n c' n' hp h
  | bin op a b iha ihb =>
    intro t e c n c' n' hp h
    simp only [Pat.isPat, Bool.and_eq_true] at hp
    obtain ⟨⟨hpa, hpb⟩, -⟩ := hp
    have seq2 : ∀ x y k, seqM (matchP v a x c k) (fun c k => matchP v b y c k) = (some c', n') →
        (Inst c' a x ∧ Inst c' b y) ∧ c.Ext c' := by
      intro x y k h
      obtain ⟨c1, n1, h1, h2⟩ := seqM_some h
      have i1 := iha _ _ _ _ _ _ hpa h1
      have i2 := ihb _ _ _ _ _ _ hpb h2
      exact ⟨⟨i1.1.mono i2.2, i2.1⟩, i1.2.trans i2.2⟩
    simp only [matchP] at h
    split at h
    · next x y hxy =>
      have hxy' : e = .bin op x y := by
        split at hxy
        · split at hxy
          · next hop => simp only [Option.some.injEq, Prod.mk.injEq] at hxy; rw [hop, hxy.1, hxy.2]
          · simp at hxy
        · simp at hxy
      subst hxy'
      split at h
      · next hcomm =>
        split at h
        · have := seq2 _ _ _ h; exact ⟨.inl ⟨x, y, rfl, .inr ⟨hcomm, this.1⟩⟩, this.2⟩
        · have := seq2 _ _ _ h; exact ⟨.inl ⟨x, y, rfl, .inl this.1⟩, this.2⟩
      · have := seq2 _ _ _ h; exact ⟨.inl ⟨x, y, rfl, .inl this.1⟩, this.2⟩
    · next hxy =>
      have hne : ∀ x y, e ≠ .bin op x y := by
        rintro x y rfl
        simp at hxy
      split at h
      · next hda => have := seq2 _ _ _ h; exact ⟨.inr ⟨hne, by simp only [hda]; exact this.1⟩, this.2⟩
      · next hda hdb => have := seq2 _ _ _ h; exact ⟨.inr ⟨hne, by simp only [hda, hdb]; exact this.1⟩, this.2⟩
      · simp at h
  | not a ih =>
    intro t e c n c' n' hp h
    simp only [matchP] at h
    split at h
    · next x => have := ih _ _ _ _ _ _ (by simpa [Pat.isPat] using hp) h; exact ⟨⟨x, rfl, this.1⟩, this.2⟩
    · simp at h
  | select p q r ihp ihq ihr =>
    intro t e c n c' n' hp h
    simp only [Pat.isPat, Bool.and_eq_true] at hp
    simp only [matchP] at h
    split at h
    · next x y z =>
      obtain ⟨c2, n2, h2, h3⟩ := seqM_some h
      obtain ⟨c1, n1, h1, h2⟩ := seqM_some h2
      have i1 := ihp _ _ _ _ _ _ hp.1.1 h1
      have i2 := ihq _ _ _ _ _ _ hp.1.2 h2
      have i3 := ihr _ _ _ _ _ _ hp.2 h3
      exact ⟨⟨x, y, z, rfl, i1.1.mono (i2.2.trans i3.2), i2.1.mono i3.2, i3.1⟩, i1.2.trans (i2.2.trans i3.2)⟩
    · simp at h
  | call0 fn =>
    intro t e c n c' n' hp h
    simp only [matchP] at h
    split at h
    · split at h
      · next hf =>
        simp only [Prod.mk.injEq, Option.some.injEq] at h
        obtain ⟨rfl, _⟩ := h
        exact ⟨by rw [hf]; rfl, .refl _⟩
      · simp at h
    · simp at h
  | call1 fn a ih =>
    intro t e c n c' n' hp h
    simp only [Pat.isPat, Bool.and_eq_true] at hp
    simp only [matchP] at h
    split at h
    · next x =>
      split at h
      · next hf => have := ih _ _ _ _ _ _ hp.2 h; exact ⟨⟨x, by rw [hf], this.1⟩, this.2⟩
      · simp at h
    · simp at h
  | call2 fn a b iha ihb =>
    intro t e c n c' n' hp h
    simp only [Pat.isPat, Bool.and_eq_true] at hp
    simp only [matchP] at h
    split at h
    · next x y =>
      split at h
      · next hf =>
        obtain ⟨c1, n1, h1, h2⟩ := seqM_some h
        have i1 := iha _ _ _ _ _ _ hp.1.2 h1
        have i2 := ihb _ _ _ _ _ _ hp.2 h2
        exact ⟨⟨x, y, by rw [hf], i1.1.mono i2.2, i2.1⟩, i1.2.trans i2.2⟩
      · simp at h
    · simp at h
  | stair px pa pb pc ihx iha ihb ihc =>
    intro t e c n c' n' hp h
    simp only [Pat.isPat, Bool.and_eq_true] at hp
    obtain ⟨⟨⟨hpx, hpa⟩, hpb⟩, hpc⟩ := hp
    rcases matchP_stair (px := px) hpa hpb hpc v e c n with ⟨x, a, b, d, hs, hm⟩ | ⟨_, hm⟩
    · rw [hm] at h
      obtain ⟨c3, n3, h3, h4⟩ := seqM_some h
      obtain ⟨c2, n2, h2, h3⟩ := seqM_some h3
      obtain ⟨c1, n1, h1, h2⟩ := seqM_some h2
      have i1 := ihc _ _ _ _ _ _ (isPat_leaf hpc) h1
      have i2 := ihb _ _ _ _ _ _ (isPat_leaf hpb) h2
      have i3 := ihx _ _ _ _ _ _ hpx h3
      have i4 := iha _ _ _ _ _ _ (isPat_leaf hpa) h4
      exact ⟨⟨x, a, b, d, hs, i3.1.mono i4.2, i4.1, i2.1.mono (i3.2.trans i4.2),
        i1.1.mono (i2.2.trans (i3.2.trans i4.2))⟩, i1.2.trans (i2.2.trans (i3.2.trans i4.2))⟩
    · rw [hm] at h; simp at h
  | _ => intro t e c n c' n' hp; simp [Pat.isPat] at hp

/-! ### Variants -/

/-- The number of variant bits used. -/
theorem seqM_bits {r : Option MCtx × Nat} {f} {n k l : Nat} (h1 : n ≤ r.2 ∧ r.2 ≤ k)
    (h2 : ∀ c j, j ≤ (f c j).2 ∧ (f c j).2 ≤ j + l) : n ≤ (seqM r f).2 ∧ (seqM r f).2 ≤ k + l := by
  rcases r with ⟨_ | c, j⟩
  · simp only [seqM]; simp only at h1; omega
  · have := h2 c j; simp only [seqM]; simp only at h1; omega

theorem matchP_bits (v : Nat) : ∀ (p : Pat) t e c n, p.isPat t = true →
    n ≤ (matchP v p e c n).2 ∧ (matchP v p e c n).2 ≤ n + p.numComm := by
  intro p
  induction p with
  | wild i => intro t e c n _; simp only [matchP]; split <;> (try split) <;> simp [Pat.numComm]
  | cst i => intro t e c n _; simp only [matchP]; split <;> simp [Pat.numComm]
  | lit k => intro t e c n _; simp only [matchP]; split <;> simp [Pat.numComm]
  | opt p d ih => intro t e c n hp; simp only [matchP, Pat.numComm]; exact ih t e c n hp
  | bin op a b iha ihb =>
    intro t e c n hp
    simp only [Pat.isPat, Bool.and_eq_true] at hp
    obtain ⟨⟨hpa, hpb⟩, -⟩ := hp
    have seq2 : ∀ x y k, k ≤ (seqM (matchP v a x c k) (fun c k => matchP v b y c k)).2 ∧
        (seqM (matchP v a x c k) (fun c k => matchP v b y c k)).2 ≤ k + a.numComm + b.numComm :=
      fun x y k => seqM_bits (iha _ _ _ _ hpa) (fun c j => ihb _ _ _ _ hpb)
    simp only [matchP, Pat.numComm]
    split
    · next x y _ =>
      split
      · split
        · have := seq2 y x (n + 1); omega
        · have := seq2 x y (n + 1); omega
      · have := seq2 x y n; omega
    · split
      · next d _ => have := seq2 (.const d) e n; omega
      · next d _ _ => have := seq2 e (.const d) n; omega
      · simp only; omega
  | not a ih =>
    intro t e c n hp
    simp only [matchP, Pat.numComm]
    split
    · exact ih _ _ _ _ (by simpa [Pat.isPat] using hp)
    · simp
  | select p q r ihp ihq ihr =>
    intro t e c n hp
    simp only [Pat.isPat, Bool.and_eq_true] at hp
    simp only [matchP, Pat.numComm]
    split
    · next x y z =>
      have := seqM_bits (seqM_bits (ihp _ x c n hp.1.1) (fun c j => ihq _ y c j hp.1.2)) (fun c j => ihr _ z c j hp.2)
      refine ⟨this.1, this.2.trans ?_⟩
      omega
    · simp only; omega
  | call0 fn => intro t e c n _; simp only [matchP]; split <;> (try split) <;> simp [Pat.numComm]
  | call1 fn a ih =>
    intro t e c n hp
    simp only [Pat.isPat, Bool.and_eq_true] at hp
    simp only [matchP, Pat.numComm]
    split
    · split
      · exact ih _ _ _ _ hp.2
      · simp
    · simp
  | call2 fn a b iha ihb =>
    intro t e c n hp
    simp only [Pat.isPat, Bool.and_eq_true] at hp
    simp only [matchP, Pat.numComm]
    split
    · split
      · rw [← Nat.add_assoc]; exact seqM_bits (iha _ _ _ _ hp.1.2) (fun c j => ihb _ _ _ _ hp.2)
      · simp only; omega
    · simp only; omega
  | stair px pa pb pc ihx iha ihb ihc =>
    intro t e c n hp
    simp only [Pat.isPat, Bool.and_eq_true] at hp
    obtain ⟨⟨⟨hpx, hpa⟩, hpb⟩, hpc⟩ := hp
    simp only [Pat.numComm]
    rcases matchP_stair (px := px) hpa hpb hpc v e c n with ⟨x, a, b, d, _, hm⟩ | ⟨_, hm⟩
    · rw [hm]
      have := seqM_bits (seqM_bits (seqM_bits (ihc _ d c n (isPat_leaf hpc))
        (fun c j => ihb _ (.const b) c j (isPat_leaf hpb))) (fun c j => ihx _ x c j hpx))
        (fun c j => iha _ a c j (isPat_leaf hpa))
      refine ⟨this.1, this.2.trans ?_⟩
      omega
    · rw [hm]; simp only; omega
  | _ => intro t e c n hp; simp [Pat.isPat] at hp

/-- The result of a match only depends on the bits of the variant that it uses. -/
theorem seqM_congr {r r' : Option MCtx × Nat} {f f' : MCtx → Nat → Option MCtx × Nat} {v w n : Nat}
    (hn : n ≤ r.2) (hm : ∀ c j, j ≤ (f c j).2)
    (h1 : (∀ i, n ≤ i → i < r.2 → v.testBit i = w.testBit i) → r' = r)
    (h2 : ∀ c j, (∀ i, j ≤ i → i < (f c j).2 → v.testBit i = w.testBit i) → f' c j = f c j)
    (h : ∀ i, n ≤ i → i < (seqM r f).2 → v.testBit i = w.testBit i) : seqM r' f' = seqM r f := by
  rcases r with ⟨_ | c, j⟩
  · have := h1 (fun i h1 h2 => h i h1 (by simpa [seqM] using h2))
    rw [this]; rfl
  · have hj := hm c j
    simp only [seqM] at h
    simp only at hn
    have := h1 (fun i h1 h2 => h i h1 (by simp only at h2; omega))
    rw [this]
    simp only [seqM]
    exact h2 c j (fun i h1 h2 => h i (by omega) h2)

theorem matchP_congr (v w : Nat) : ∀ (p : Pat) t e c n, p.isPat t = true →
    (∀ i, n ≤ i → i < (matchP v p e c n).2 → v.testBit i = w.testBit i) → matchP w p e c n = matchP v p e c n := by
  intro p
  induction p with
  | wild i => intro t e c n _ _; simp only [matchP]
  | cst i => intro t e c n _ _; simp only [matchP]
  | lit k => intro t e c n _ _; simp only [matchP]
  | opt p d ih => intro t e c n hp h; simp only [matchP] at h ⊢; exact ih t e c n hp h
  | bin op a b iha ihb =>
    intro t e c n hp h
    simp only [Pat.isPat, Bool.and_eq_true] at hp
    obtain ⟨⟨hpa, hpb⟩, -⟩ := hp
    have seq2 : ∀ x y k, (∀ i, k ≤ i → i < (seqM (matchP v a x c k) (fun c k => matchP v b y c k)).2 →
        v.testBit i = w.testBit i) → seqM (matchP w a x c k) (fun c k => matchP w b y c k) =
          seqM (matchP v a x c k) (fun c k => matchP v b y c k) :=
      fun x y k => seqM_congr (matchP_bits v a _ x c k hpa).1 (fun c j => (matchP_bits v b _ y c j hpb).1)
        (iha _ x c k hpa) (fun c j => ihb _ y c j hpb)
    have seq2b : ∀ x y k, k ≤ (seqM (matchP v a x c k) (fun c k => matchP v b y c k)).2 :=
      fun x y k => (seqM_bits (matchP_bits v a _ x c k hpa) (fun c j => matchP_bits v b _ y c j hpb)).1
    simp only [matchP] at h ⊢
    split
    · next x y hxy =>
      rw [hxy] at h
      simp only at h
      split
      · next hcm =>
        rw [if_pos hcm] at h
        have hn : v.testBit n = w.testBit n := by
          refine h n (le_refl n) ?_
          split
          · exact seq2b y x (n + 1)
          · exact seq2b x y (n + 1)
        rw [← hn]
        split
        · next hv =>
          rw [if_pos hv] at h
          exact seq2 _ _ _ (fun i h1 h2 => h i (by omega) h2)
        · next hv =>
          rw [if_neg hv] at h
          exact seq2 _ _ _ (fun i h1 h2 => h i (by omega) h2)
      · next hcm =>
        rw [if_neg hcm] at h
        exact seq2 _ _ _ h
    · next hxy =>
      rw [hxy] at h
      simp only at h
      split
      · next hd => rw [hd] at h; exact seq2 _ _ _ h
      · next hd hd' => rw [hd, hd'] at h; exact seq2 _ _ _ h
      · rfl
  | not a ih =>
    intro t e c n hp h
    cases e with
    | not x =>
      simp only [matchP] at h ⊢
      exact ih _ _ _ _ (by simpa [Pat.isPat] using hp) h
    | _ => simp only [matchP]
  | select p q r ihp ihq ihr =>
    intro t e c n hp h
    simp only [Pat.isPat, Bool.and_eq_true] at hp
    cases e with
    | select x y z =>
      simp only [matchP] at h ⊢
      refine seqM_congr ?_ (fun c j => (matchP_bits v r _ z c j hp.2).1) (fun h => ?_) (fun c j => ihr _ z c j hp.2) h
      · exact (seqM_bits (matchP_bits v p _ x c n hp.1.1) (fun c j => matchP_bits v q _ y c j hp.1.2)).1
      · exact seqM_congr (matchP_bits v p _ x c n hp.1.1).1 (fun c j => (matchP_bits v q _ y c j hp.1.2).1)
          (ihp _ x c n hp.1.1) (fun c j => ihq _ y c j hp.1.2) h
    | _ => simp only [matchP]
  | call0 fn => intro t e c n _ _; simp only [matchP]
  | call1 fn a ih =>
    intro t e c n hp h
    simp only [Pat.isPat, Bool.and_eq_true] at hp
    simp only [matchP] at h ⊢
    split
    · next x =>
      simp only at h
      split
      · next hf => rw [if_pos hf] at h; exact ih _ _ _ _ hp.2 h
      · rfl
    · rfl
  | call2 fn a b iha ihb =>
    intro t e c n hp h
    simp only [Pat.isPat, Bool.and_eq_true] at hp
    simp only [matchP] at h ⊢
    split
    · next x y =>
      simp only at h
      split
      · next hf =>
        rw [if_pos hf] at h
        exact seqM_congr (matchP_bits v a _ x c n hp.1.2).1 (fun c j => (matchP_bits v b _ y c j hp.2).1)
          (iha _ x c n hp.1.2) (fun c j => ihb _ y c j hp.2) h
      · rfl
    · rfl
  | stair px pa pb pc ihx iha ihb ihc =>
    intro t e c n hp h
    simp only [Pat.isPat, Bool.and_eq_true] at hp
    obtain ⟨⟨⟨hpx, hpa⟩, hpb⟩, hpc⟩ := hp
    rcases matchP_stair (px := px) hpa hpb hpc v e c n with ⟨x, a, b, d, hs, hm⟩ | ⟨hs, hm⟩ <;>
      rcases matchP_stair (px := px) hpa hpb hpc w e c n with ⟨x', a', b', d', hs', hm'⟩ | ⟨hs', hm'⟩ <;>
      rw [hs] at hs'
    · simp only [Option.some.injEq, Prod.mk.injEq] at hs'
      obtain ⟨rfl, rfl, rfl, rfl⟩ := hs'
      rw [hm] at h
      rw [hm, hm']
      have b1 := fun c j => matchP_bits v pc _ d c j (isPat_leaf hpc)
      have b2 := fun c j => matchP_bits v pb _ (.const b) c j (isPat_leaf hpb)
      have b3 := fun c j => matchP_bits v px _ x c j hpx
      have b4 := fun c j => matchP_bits v pa _ a c j (isPat_leaf hpa)
      refine seqM_congr ?_ (fun c j => (b4 c j).1) (fun h => ?_) (fun c j => iha _ a c j (isPat_leaf hpa)) h
      · exact (seqM_bits (seqM_bits (b1 c n) b2) b3).1
      refine seqM_congr ?_ (fun c j => (b3 c j).1) (fun h => ?_) (fun c j => ihx _ x c j hpx) h
      · exact (seqM_bits (b1 c n) b2).1
      exact seqM_congr (b1 c n).1 (fun c j => (b2 c j).1) (ihc _ d c n (isPat_leaf hpc))
        (fun c j => ihb _ (.const b) c j (isPat_leaf hpb)) h
    · simp at hs'
    · simp at hs'
    · rw [hm, hm']
  | _ => intro t e c n hp; simp [Pat.isPat] at hp

/-- A variant with a given bit. -/
theorem exists_testBit (v n : Nat) (b : Bool) : ∃ w : Nat, (∀ i < n, w.testBit i = v.testBit i) ∧ w.testBit n = b := by
  by_cases h : v.testBit n = b
  · exact ⟨v, fun _ _ => rfl, h⟩
  · refine ⟨v ^^^ 2 ^ n, fun i hi => ?_, ?_⟩
    · rw [Nat.testBit_xor, Nat.testBit_two_pow_of_ne (by omega)]; simp
    · rw [Nat.testBit_xor, Nat.testBit_two_pow_self]; cases b <;> simp_all

/-- Two matches in a row succeed for some variant, if each of them does. -/
theorem seqM_complete {cf c : MCtx} {p q : Pat} {e e' : Expr} {n : Nat} {tq}
    (hq : q.isPat tq = true) {F : Nat → MCtx → Nat → Option MCtx × Nat}
    (hF : ∀ v w c n, (∀ i, n ≤ i → i < (F v c n).2 → v.testBit i = w.testBit i) → F w c n = F v c n)
    (hFb : ∀ v c n, n ≤ (F v c n).2)
    (h1 : ∀ v : Nat, ∃ v' : Nat, (∀ i < n, v'.testBit i = v.testBit i) ∧ ∃ c' n', F v' c n = (some c', n') ∧ c'.Ext cf)
    (h2 : ∀ (c : MCtx) (n v : Nat), c.Ext cf → ∃ v' : Nat, (∀ i < n, v'.testBit i = v.testBit i) ∧
      ∃ c' n', matchP v' q e' c n = (some c', n') ∧ c'.Ext cf) (v : Nat) :
    ∃ v', (∀ i < n, v'.testBit i = v.testBit i) ∧
      ∃ c' n', seqM (F v' c n) (fun c k => matchP v' q e' c k) = (some c', n') ∧ c'.Ext cf := by
  obtain ⟨v1, hv1, c1, n1, hm1, hx1⟩ := h1 v
  obtain ⟨v2, hv2, c2, n2, hm2, hx2⟩ := h2 c1 n1 v1 hx1
  have hb := hFb v1 c n
  rw [hm1] at hb
  simp only at hb
  have : F v2 c n = F v1 c n := hF v1 v2 c n (fun i _ hi => by rw [hm1] at hi; exact (hv2 i hi).symm)
  refine ⟨v2, fun i hi => by rw [hv2 i (by omega), hv1 i hi], c2, n2, ?_, hx2⟩
  rw [this, hm1]
  exact hm2

/-- If `e` is an instance of `p`, some variant matches. -/
theorem matchP_complete (cf : MCtx) : ∀ (p : Pat) t e c (n v : Nat), p.isPat t = true → Inst cf p e → c.Ext cf →
    ∃ v' : Nat, (∀ i < n, v'.testBit i = v.testBit i) ∧ ∃ c' n', matchP v' p e c n = (some c', n') ∧ c'.Ext cf := by
  intro p
  induction p with
  | wild i =>
    intro t e c n v _ hi hx
    refine ⟨v, fun _ _ => rfl, ?_⟩
    simp only [matchP]
    split
    · next e' he' =>
      have : some e' = some e := by rw [← hx.vars _ _ he']; exact hi
      obtain rfl := Option.some.inj this
      rw [if_pos ((match_iff e' e').2 rfl)]
      exact ⟨c, n, rfl, hx⟩
    · refine ⟨_, _, rfl, fun j x hj => ?_, hx.consts⟩
      by_cases hji : j = i
      · simp [hji] at hj; rw [hji, ← hj]; exact hi
      · simp [hji] at hj; exact hx.vars _ _ hj
  | cst i =>
    rintro t e c n v _ ⟨k, rfl, hk⟩ hx
    refine ⟨v, fun _ _ => rfl, ?_⟩
    simp only [matchP, asConst, matchC]
    split
    · next k' hk' =>
      have : some k' = some k := by rw [← hx.consts _ _ hk']; exact hk
      obtain rfl := Option.some.inj this
      rw [if_pos rfl]
      exact ⟨c, n, rfl, hx⟩
    · refine ⟨_, _, rfl, hx.vars, fun j x hj => ?_⟩
      by_cases hji : j = i
      · simp [hji] at hj; rw [hji, ← hj]; exact hk
      · simp [hji] at hj; exact hx.consts _ _ hj
  | lit k =>
    rintro t e c n v _ rfl hx
    exact ⟨v, fun _ _ => rfl, c, n, by simp [matchP, asConst], hx⟩
  | opt p d ih =>
    intro t e c n v hp hi hx
    simp only [matchP]
    exact ih t e c n v hp hi hx
  | bin op a b iha ihb =>
    intro t e c n v hp hi hx
    simp only [Pat.isPat, Bool.and_eq_true] at hp
    obtain ⟨⟨hpa, hpb⟩, -⟩ := hp
    have seq2 : ∀ (x y : Expr) (k v : Nat), Inst cf a x → Inst cf b y → ∃ v' : Nat, (∀ i < k, v'.testBit i = v.testBit i) ∧
        ∃ c' n', seqM (matchP v' a x c k) (fun c k => matchP v' b y c k) = (some c', n') ∧ c'.Ext cf := by
      intro x y k v hix hiy
      exact seqM_complete (p := a) (e := x) hpb (F := fun v c n => matchP v a x c n)
        (fun v w c n h => matchP_congr v w a _ x c n hpa h) (fun v c n => (matchP_bits v a _ x c n hpa).1)
        (fun v => iha _ x c k v hpa hix hx) (fun c n v hx => ihb _ y c n v hpb hiy hx) v
    rcases hi with ⟨x, y, rfl, hi | ⟨hcm, hi⟩⟩ | ⟨hne, hd⟩
    · simp only [matchP, if_true]
      by_cases hcm : couldCommute op a b = true
      · simp only [hcm, if_true]
        obtain ⟨v0, h0, hb0⟩ := exists_testBit v n false
        obtain ⟨v', h', c', n', hm, hx'⟩ := seq2 x y (n + 1) v0 hi.1 hi.2
        refine ⟨v', fun i hi => by rw [h' i (by omega), h0 i hi], c', n', ?_, hx'⟩
        rw [h' n (by omega), hb0]
        simpa using hm
      · simp only [hcm]
        exact seq2 x y n v hi.1 hi.2
    · simp only [matchP, hcm, if_true]
      obtain ⟨v0, h0, hb0⟩ := exists_testBit v n true
      obtain ⟨v', h', c', n', hm, hx'⟩ := seq2 y x (n + 1) v0 hi.1 hi.2
      refine ⟨v', fun i hi => by rw [h' i (by omega), h0 i hi], c', n', ?_, hx'⟩
      rw [h' n (by omega), hb0]
      simpa using hm
    · have hn : ∀ v', matchP v' (.bin op a b) e c n =
          match a.dflt, b.dflt with
          | some d, _ => seqM (matchP v' a (.const d) c n) (fun c k => matchP v' b e c k)
          | none, some d => seqM (matchP v' a e c n) (fun c k => matchP v' b (.const d) c k)
          | none, none => (none, n) := by
        intro v'
        simp only [matchP]
        split
        · next x y hxy =>
          exfalso
          split at hxy
          · next op' x' y' =>
            split at hxy
            · next hop => exact hne x' y' (by rw [hop])
            · simp at hxy
          · simp at hxy
        · rfl
      simp only [hn]
      split at hd
      · next hda => exact seq2 _ _ n v hd.1 hd.2
      · next hda hdb => exact seq2 _ _ n v hd.1 hd.2
      · exact hd.elim
  | not a ih =>
    rintro t e c n v hp ⟨x, rfl, hi⟩ hx
    simp only [matchP]
    exact ih _ x c n v (by simpa [Pat.isPat] using hp) hi hx
  | select p q r ihp ihq ihr =>
    rintro t e c n v hp ⟨x, y, z, rfl, h1, h2, h3⟩ hx
    simp only [Pat.isPat, Bool.and_eq_true] at hp
    simp only [matchP]
    refine seqM_complete (p := p) (e := x) hp.2
      (F := fun v c n => seqM (matchP v p x c n) (fun c k => matchP v q y c k))
      (fun v w c n h => seqM_congr (matchP_bits v p _ x c n hp.1.1).1 (fun c j => (matchP_bits v q _ y c j hp.1.2).1)
          (matchP_congr v w p _ x c n hp.1.1) (fun c j => matchP_congr v w q _ y c j hp.1.2) h)
      (fun v c n => (seqM_bits (matchP_bits v p _ x c n hp.1.1) (fun c j => matchP_bits v q _ y c j hp.1.2)).1)
      ?_ (fun c n v hx => ihr _ z c n v hp.2 h3 hx) v
    intro v
    exact seqM_complete (p := p) (e := x) hp.1.2 (F := fun v c n => matchP v p x c n)
      (fun v w c n h => matchP_congr v w p _ x c n hp.1.1 h) (fun v c n => (matchP_bits v p _ x c n hp.1.1).1)
      (fun v => ihp _ x c n v hp.1.1 h1 hx) (fun c n v hx => ihq _ y c n v hp.1.2 h2 hx) v
  | call0 fn =>
    rintro t e c n v hp rfl hx
    exact ⟨v, fun _ _ => rfl, c, n, by simp [matchP], hx⟩
  | call1 fn a ih =>
    rintro t e c n v hp ⟨x, rfl, hi⟩ hx
    simp only [Pat.isPat, Bool.and_eq_true] at hp
    simp only [matchP, if_true]
    exact ih _ x c n v hp.2 hi hx
  | call2 fn a b iha ihb =>
    rintro t e c n v hp ⟨x, y, rfl, h1, h2⟩ hx
    simp only [Pat.isPat, Bool.and_eq_true] at hp
    simp only [matchP, if_true]
    exact seqM_complete (p := a) (e := x) hp.2 (F := fun v c n => matchP v a x c n)
      (fun v w c n h => matchP_congr v w a _ x c n hp.1.2 h) (fun v c n => (matchP_bits v a _ x c n hp.1.2).1)
      (fun v => iha _ x c n v hp.1.2 h1 hx) (fun c n v hx => ihb _ y c n v hp.2 h2 hx) v
  | stair px pa pb pc ihx iha ihb ihc =>
    rintro t e c n v hp ⟨x, a, b, d, hs, h1, h2, h3, h4⟩ hx
    simp only [Pat.isPat, Bool.and_eq_true] at hp
    obtain ⟨⟨⟨hpx, hpa⟩, hpb⟩, hpc⟩ := hp
    have lpa := isPat_leaf hpa
    have lpb := isPat_leaf hpb
    have lpc := isPat_leaf hpc
    have hm : ∀ v, matchP v (.stair px pa pb pc) e c n =
        seqM (seqM (seqM (matchP v pc d c n) fun c k => matchP v pb (.const b) c k) fun c k => matchP v px x c k)
        fun c k => matchP v pa a c k := by
      intro v
      rcases matchP_stair (px := px) hpa hpb hpc v e c n with ⟨x', a', b', d', hs', hm'⟩ | ⟨hs', hm'⟩
      · rw [hs] at hs'
        simp only [Option.some.injEq, Prod.mk.injEq] at hs'
        obtain ⟨rfl, rfl, rfl, rfl⟩ := hs'
        exact hm'
      · rw [hs] at hs'; simp at hs'
    simp only [hm]
    have b1 := fun v c n => matchP_bits v pc _ d c n lpc
    have b2 := fun v c n => matchP_bits v pb _ (.const b) c n lpb
    have b3 := fun v c n => matchP_bits v px _ x c n hpx
    refine seqM_complete (p := pa) (e := a) lpa
      (F := fun v c n => seqM (seqM (matchP v pc d c n) fun c k => matchP v pb (.const b) c k) fun c k => matchP v px x c k)
      (fun v w c n h => seqM_congr (seqM_bits (b1 v c n) (b2 v)).1 (fun c j => (b3 v c j).1)
        (fun h => seqM_congr (b1 v c n).1 (fun c j => (b2 v c j).1) (matchP_congr v w pc _ d c n lpc)
          (fun c j => matchP_congr v w pb _ (.const b) c j lpb) h) (fun c j => matchP_congr v w px _ x c j hpx) h)
      (fun v c n => (seqM_bits (seqM_bits (b1 v c n) (b2 v)) (b3 v)).1)
      ?_ (fun c n v hx => iha _ a c n v lpa h2 hx) v
    intro v
    refine seqM_complete (p := px) (e := x) hpx
      (F := fun v c n => seqM (matchP v pc d c n) fun c k => matchP v pb (.const b) c k)
      (fun v w c n h => seqM_congr (b1 v c n).1 (fun c j => (b2 v c j).1) (matchP_congr v w pc _ d c n lpc)
          (fun c j => matchP_congr v w pb _ (.const b) c j lpb) h)
      (fun v c n => (seqM_bits (b1 v c n) (b2 v)).1)
      ?_ (fun c n v hx => ihx _ x c n v hpx h1 hx) v
    intro v
    exact seqM_complete (p := pc) (e := d) lpb (F := fun v c n => matchP v pc d c n)
      (fun v w c n h => matchP_congr v w pc _ d c n lpc h) (fun v c n => (b1 v c n).1)
      (fun v => ihc _ d c n v lpc h4 hx) (fun c n v hx => ihb _ (.const b) c n v lpb h3 hx) v
  | _ => intro t e c n v hp; simp [Pat.isPat] at hp

/-- If the loop over the variants does not find a match, no variant matches: the variants that are not tried only differ from
the ones that are in bits that are not used, and the fuel of `matchLoop` is never exhausted. -/
theorem matchLoop_none {p : Pat} {t} (hp : p.isPat t = true) {e : Expr} : ∀ {fuel variant count k},
    count = 2 ^ k → k ≤ p.numComm → 2 ^ p.numComm ≤ fuel + variant → variant ≤ count →
    (∀ u < variant, ∃ b ≤ k, matchP u p e MCtx.empty 0 = (none, b)) → matchLoop p e fuel variant count = none →
    ∀ w, (matchP w p e MCtx.empty 0).1 = none := by
  intro fuel
  induction fuel with
  | zero =>
    intro variant count k hc hk hf hv hall _ w
    have hle : 2 ^ k ≤ 2 ^ p.numComm := Nat.pow_le_pow_right (by decide) hk
    obtain ⟨b, hb, hm⟩ := hall (w % 2 ^ k) (lt_of_lt_of_le (Nat.mod_lt _ (Nat.two_pow_pos k)) (by omega))
    rw [matchP_congr (w % 2 ^ k) w p t e MCtx.empty 0 hp (fun i _ hi => by
      rw [hm] at hi; simp only at hi; rw [Nat.testBit_mod_two_pow]; simp; omega), hm]
  | succ fuel ih =>
    intro variant count k hc hk hf hv hall h w
    simp only [matchLoop] at h
    split at h
    · next hlt =>
      split at h
      · simp at h
      · next bits hm =>
        have hb : bits ≤ p.numComm := by
          have := (matchP_bits variant p t e MCtx.empty 0 hp).2
          rw [hm] at this; simpa using this
        refine ih (k := Max.max k bits) ?_ (by omega) (by omega) (by omega) ?_ h w
        · rw [hc]
          rcases le_total k bits with hkb | hkb
          · rw [max_eq_right hkb, max_eq_right (Nat.pow_le_pow_right (by decide) hkb)]
          · rw [max_eq_left hkb, max_eq_left (Nat.pow_le_pow_right (by decide) hkb)]
        · intro u hu
          rcases Nat.lt_succ_iff_lt_or_eq.1 hu with hu | rfl
          · obtain ⟨b, hb, hm⟩ := hall u hu; exact ⟨b, by omega, hm⟩
          · exact ⟨bits, by omega, hm⟩
    · next hge =>
      obtain ⟨b, hb, hm⟩ := hall (w % 2 ^ k) (lt_of_lt_of_le (Nat.mod_lt _ (Nat.two_pow_pos k)) (by omega))
      rw [matchP_congr (w % 2 ^ k) w p t e MCtx.empty 0 hp (fun i _ hi => by
        rw [hm] at hi; simp only at hi; rw [Nat.testBit_mod_two_pow]; simp; omega), hm]

/-- C13: the matcher finds a match if and only if the expression is an instance of the pattern (up to swapping the operands
of commutative operators), and what it finds is such an instance. -/
theorem matchAny_iff {p : Pat} {t} (hp : p.isPat t = true) (e : Expr) :
    ((matchAny p e).isSome = true ↔ ∃ c, Inst c p e) ∧ ∀ c, matchAny p e = some c → Inst c p e := by
  have h2 : ∀ c, matchAny p e = some c → Inst c p e := by
    intro c hc
    obtain ⟨w, n, hm⟩ := matchLoop_some hc
    exact (matchP_inst w p t e _ _ _ _ hp hm).1
  refine ⟨⟨fun h => ?_, ?_⟩, h2⟩
  · obtain ⟨c, hc⟩ := Option.isSome_iff_exists.1 h
    exact ⟨c, h2 c hc⟩
  · rintro ⟨cf, hi⟩
    by_contra hnone
    have hnone : matchAny p e = none := by
      cases h : matchAny p e with
      | none => rfl
      | some c => rw [h] at hnone; simp at hnone
    obtain ⟨v, _, c', n', hm, _⟩ := matchP_complete cf p t e MCtx.empty 0 0 hp hi
      ⟨fun _ _ h => by simp [MCtx.empty] at h, fun _ _ h => by simp [MCtx.empty] at h⟩
    have := matchLoop_none hp (k := 0) rfl (by omega) (by simp) (by omega) (fun u hu => by omega) hnone v
    rw [hm] at this
    simp at this

/-- A non-trivial instance: `(y + x) - y` is an instance of `(x + y) - x` in the other order of the addition. -/
example : (matchAny (.bin .sub (.bin .add (.wild 0) (.wild 1)) (.wild 1)) (.bin .sub (.bin .add (.v 1) (.v 0)) (.v 1))).isSome
    = true := by
  decide +kernel

end Slinky
