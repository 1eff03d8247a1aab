import Verif.CropBounds
import Verif.BufferProps
import Verif.FuseSiblings

/-!
# C53: simplifying the bounds of a crop does not change what is cropped
-/

namespace Slinky

namespace CB

/-! ### Specification -/

/-- The min of a dimension with min `lo` after a crop (buffer.h:395-417; evaluate.cc: an undefined bound is the bound of the buffer). -/
def cropLo (m : Mem) (ρ : Env) (lo : Int) (c : Interval) : Int := if c.min.defined then max lo (eval m ρ c.min) else lo
/-- The max of a dimension with max `hi` after a crop. -/
def cropHi (m : Mem) (ρ : Env) (hi : Int) (c : Interval) : Int := if c.max.defined then min hi (eval m ρ c.max) else hi

/-- Two crops of a dimension with bounds `lo`, `hi` have the same bounds, or are both empty. -/
def SameCrop (m : Mem) (ρ : Env) (lo hi : Int) (c c' : Interval) : Prop :=
  (cropLo m ρ lo c' = cropLo m ρ lo c ∧ cropHi m ρ hi c' = cropHi m ρ hi c) ∨
  (cropHi m ρ hi c < cropLo m ρ lo c ∧ cropHi m ρ hi c' < cropLo m ρ lo c')

/-- An expression is undefined, or it is fine and has the value `v`. -/
def Tells (m : Mem) (ρ : Env) (e : Expr) (v : Int) : Prop := e.defined = true → e.ok = true ∧ eval m ρ e = v

/-- The bounds are undefined or fine. -/
def IvOK (c : Interval) : Prop := (c.min.defined = true → c.min.ok = true) ∧ (c.max.defined = true → c.max.ok = true)

/-- No bound is multiplied or divided by a negative constant, where `remove_redundant_bounds` looks. -/
def spineOK (op : BinOp) : Expr → Bool
  | .bin o a b =>
    if o = op then spineOK op a && spineOK op b
    else match asConst b with
      | none => true
      | some c => if o = .add then spineOK op a else if o = .div ∨ o = .mul then decide (0 ≤ c) && spineOK op a else true
  | .select _ t f => spineOK op t && spineOK op f
  | _ => true

theorem SameCrop.refl {m : Mem} {ρ : Env} {lo hi : Int} (c : Interval) : SameCrop m ρ lo hi c c := .inl ⟨rfl, rfl⟩

theorem SameCrop.trans {m : Mem} {ρ : Env} {lo hi : Int} {a b c : Interval} (h1 : SameCrop m ρ lo hi a b) (h2 : SameCrop m ρ lo hi b c) :
    SameCrop m ρ lo hi a c := by
  rcases h1 with ⟨h1, h1'⟩ | ⟨h1, h1'⟩ <;> rcases h2 with ⟨h2, h2'⟩ | ⟨h2, h2'⟩
  · exact .inl ⟨h2.trans h1, h2'.trans h1'⟩
  · exact .inr ⟨by omega, h2'⟩
  · exact .inr ⟨h1, by omega⟩
  · exact .inr ⟨h1, h2'⟩

/-! ### The parts -/

section
variable {cfg : SimpCfg} {rec : Rec} {s : SState} {m : Mem} {ρ : Env}

theorem mutE_undef : mutE rec s .undef = .undef := rfl

theorem mutE_ok (h : Sound m rec) {e : Expr} (ho : e.ok = true) : (mutE rec s e).ok = true := by
  rw [mutE, if_pos (ok_defined ho)]; exact (h s e ho).1

theorem mutE_eval (h : Sound m rec) (hs : StateOK m ρ s) {e : Expr} (ho : e.ok = true) : eval m ρ (mutE rec s e) = eval m ρ e := by
  rw [mutE, if_pos (ok_defined ho)]; exact ((h s e ho).2 ρ hs).value

theorem mutE_defined (h : Sound m rec) {e : Expr} (hi : e.defined = true → e.ok = true) : (mutE rec s e).defined = e.defined := by
  cases hd : e.defined with
  | false => cases e <;> simp_all [Expr.defined, mutE]
  | true => exact ok_defined (mutE_ok h (hi hd))

theorem eval_mkBin (m : Mem) (ρ : Env) (op : BinOp) (a b : Expr) : eval m ρ (mkBin op a b) = op.denote (eval m ρ a) (eval m ρ b) := by
  unfold mkBin
  split
  · next h =>
    simp only [Bool.and_eq_true] at h
    cases op <;> simp [BinOp.comm] at h <;> simp [eval, BinOp.denote, Int.add_comm, Int.mul_comm, min_comm, max_comm, eq_comm, and_comm, or_comm, ne_comm]
  · simp [eval]

theorem proved_le (hc : ∀ ρ, SimpCfgOK cfg m ρ) (h : Sound m rec) (hs : StateOK m ρ s) {a b : Expr} (ha : a.ok = true) (hb : b.ok = true)
    (hp : proveTrueS cfg rec s (mkBin .le a b) = true) : eval m ρ a ≤ eval m ρ b := by
  have := proveTrueS_sound hc h (e := mkBin .le a b) (by simp [ha, hb]) hs hp
  rw [eval_mkBin] at this
  simpa [BinOp.denote, b2i] using this

theorem addOffset_sound (hc : SimpCfgOK cfg m ρ) {off : Int} {x : Expr} (hx : x.ok = true) :
    (addOffset cfg off x).ok = true ∧ eval m ρ (addOffset cfg off x) = eval m ρ x + off := by
  unfold addOffset
  split
  · have := simplifyBin_sound_partial m ρ hc.g .add hx (Expr.ok_const off)
    exact ⟨this.2, by simpa [BinOp.denote, eval] using this.1⟩
  · next h => simp only [ne_eq, not_not] at h; simp [hx, h]

/-- `a` is a bound for `D` in the direction of `op`. -/
def Le (op : BinOp) (a D : Int) : Prop := if op = .min then D ≤ a else a ≤ D

theorem asConst_some {b : Expr} {c : Int} (h : asConst b = some c) : b = .const c := by
  cases b <;> simp [asConst] at h; rw [h]

theorem enumL_leaf (hc : SimpCfgOK cfg m ρ) {op : BinOp} {D off : Int} {x e : Expr} (hx : x.ok = true) (h : Le op (eval m ρ x + off) D)
    (he : e = addOffset cfg off x) : e.ok = true ∧ Le op (eval m ρ e) D := by
  subst he
  have := addOffset_sound hc (off := off) hx
  exact ⟨this.1, by rw [this.2]; exact h⟩

theorem enumL_sound (hc : SimpCfgOK cfg m ρ) {op : BinOp} (hop : op = .min ∨ op = .max) (D : Int) : ∀ (x : Expr) (st : Bool) (off : Int),
    (x.defined = true → x.ok = true ∧ Le op (eval m ρ x + off) D) → ∀ e ∈ enumL cfg op x st off, e.ok = true ∧ Le op (eval m ρ e) D
  | .undef, st, off, _, e, he => by simp [enumL] at he
  | .bin o a b, st, off, h, e, he => by
    obtain ⟨h1, h2⟩ := h rfl
    simp only [Expr.ok_bin, Bool.and_eq_true] at h1
    have leaf : e = addOffset cfg off (.bin o a b) → e.ok = true ∧ Le op (eval m ρ e) D := by
      rintro rfl
      have := addOffset_sound hc (off := off) (x := .bin o a b) (by simp [h1])
      exact ⟨this.1, by rw [this.2]; exact h2⟩
    unfold enumL at he
    split at he
    · next ho =>
      subst ho
      rw [List.mem_append] at he
      rcases he with he | he
      · refine enumL_sound hc hop D a false off (fun _ => ⟨h1.1, ?_⟩) e he
        rcases hop with rfl | rfl <;> simp [Le, eval, BinOp.denote] at h2 ⊢ <;> omega
      · refine enumL_sound hc hop D b false off (fun _ => ⟨h1.2, ?_⟩) e he
        rcases hop with rfl | rfl <;> simp [Le, eval, BinOp.denote] at h2 ⊢ <;> omega
    · split at he
      · next c hb =>
        split at he
        · next h3 =>
          obtain ⟨rfl, _⟩ := h3
          rw [asConst_some hb] at h2
          refine enumL_sound hc hop D a true (off + c) (fun _ => ⟨h1.1, ?_⟩) e he
          rcases hop with rfl | rfl <;> simp [Le, eval, BinOp.denote] at h2 ⊢ <;> omega
        · exact leaf (by simpa using he)
      · exact leaf (by simpa using he)
  | .select c t f, st, off, h, e, he => by
    obtain ⟨h1, h2⟩ := h rfl
    unfold enumL at he
    split at he
    · simp only [List.mem_singleton] at he
      subst he
      simp only [Expr.ok, Bool.and_eq_true] at h1
      have ht := addOffset_sound hc (off := off) h1.1.2
      have hf := addOffset_sound hc (off := off) h1.2
      refine ⟨by simp [Expr.ok, h1.1.1, ht.1, hf.1], ?_⟩
      simp only [eval] at h2 ⊢
      split <;> rename_i hcond
      · rw [if_pos hcond] at h2; rw [ht.2]; exact h2
      · rw [if_neg hcond] at h2; rw [hf.2]; exact h2
    · next h0 =>
      simp only [ne_eq, not_not] at h0
      simp only [List.mem_singleton] at he
      subst he
      exact ⟨h1, by simpa [h0] using h2⟩
  | .var x f d, st, off, h, e, he => enumL_leaf hc (h rfl).1 (h rfl).2 (by simpa [enumL] using he)
  | .const c, st, off, h, e, he => enumL_leaf hc (h rfl).1 (h rfl).2 (by simpa [enumL] using he)
  | .lets bs b, st, off, h, e, he => enumL_leaf hc (h rfl).1 (h rfl).2 (by simpa [enumL] using he)
  | .not a, st, off, h, e, he => enumL_leaf hc (h rfl).1 (h rfl).2 (by simpa [enumL] using he)
  | .call fn as, st, off, h, e, he => enumL_leaf hc (h rfl).1 (h rfl).2 (by simpa [enumL] using he)

theorem insSet_mem {x e : Expr} : ∀ {l : List Expr}, e ∈ insSet x l → e = x ∨ e ∈ l
  | [], h => by simp [insSet] at h; exact .inl h
  | y :: ys, h => by
    unfold insSet at h
    split at h
    · simpa using h
    · exact .inr h
    · rcases List.mem_cons.1 h with h | h
      · exact .inr (by simp [h])
      · rcases insSet_mem h with h | h
        · exact .inl h
        · exact .inr (by simp [h])

theorem foldl_insSet_mem {e : Expr} : ∀ {xs l : List Expr}, e ∈ xs.foldl (fun l e => insSet e l) l → e ∈ xs ∨ e ∈ l
  | [], l, h => .inr h
  | x :: xs, l, h => by
    rcases foldl_insSet_mem (xs := xs) h with h | h
    · exact .inl (by simp [h])
    · rcases insSet_mem h with h | h
      · exact .inl (by simp [h])
      · exact .inr h

/-- The bounds that are found in the bound of a buffer are bounds of the buffer. -/
theorem enumB_sound (hc : SimpCfgOK cfg m ρ) {op : BinOp} (hop : op = .min ∨ op = .max) {D : Int} {x : Expr} (hx : Tells m ρ x D) :
    ∀ e ∈ enumB cfg op x, e.ok = true ∧ Le op (eval m ρ e) D := by
  intro e he
  rcases foldl_insSet_mem he with he | he
  · refine enumL_sound hc hop D x false 0 (fun hd => ⟨(hx hd).1, ?_⟩) e he
    rw [(hx hd).2]
    unfold Le; split <;> omega
  · simp at he

/-! ### Redundant bounds -/

/-- `op` of the default `D` does not distinguish `x` and `y`. -/
def Eqv (op : BinOp) (D x y : Int) : Prop := op.denote D x = op.denote D y

theorem redundant_sound (hc : ∀ ρ, SimpCfgOK cfg m ρ) (h : Sound m rec) (hs : StateOK m ρ s) {op : BinOp} {bs : List Expr} {x : Expr} {D : Int}
    (hb : ∀ e ∈ bs, e.ok = true ∧ Le op (eval m ρ e) D) (hx : x.ok = true) (hr : redundant cfg rec s op bs x = true) : Le op (eval m ρ x) D := by
  simp only [redundant, List.any_eq_true] at hr
  obtain ⟨i, hi, hp⟩ := hr
  obtain ⟨h1, h2⟩ := hb i hi
  unfold Le at h2 ⊢
  split at hp
  · next ho =>
    rw [if_pos ho] at h2 ⊢
    have := proved_le hc h hs h1 hx hp
    omega
  · next ho =>
    rw [if_neg ho] at h2 ⊢
    have := proved_le hc h hs hx h1 hp
    omega

theorem Eqv.of_le {op : BinOp} (hop : op = .min ∨ op = .max) {D x : Int} (h : Le op x D) : Eqv op D D x := by
  rcases hop with rfl | rfl <;> simp [Le, Eqv, BinOp.denote] at h ⊢ <;> omega

theorem Eqv.add {op : BinOp} (hop : op = .min ∨ op = .max) {D x y c : Int} (h : Eqv op (D - c) x y) : Eqv op D (x + c) (y + c) := by
  rcases hop with rfl | rfl <;> simp [Eqv, BinOp.denote] at h ⊢ <;> omega

theorem Eqv.cases {op : BinOp} (hop : op = .min ∨ op = .max) {D x y : Int} (h : Eqv op D x y) : x = y ∨ (Le op x D ∧ Le op y D) := by
  rcases hop with rfl | rfl <;> simp [Eqv, Le, BinOp.denote] at h ⊢ <;> omega

theorem Eqv.of_both {op : BinOp} (hop : op = .min ∨ op = .max) {D x y : Int} (h : x = y ∨ (Le op x D ∧ Le op y D)) : Eqv op D x y := by
  rcases hop with rfl | rfl <;> simp [Eqv, Le, BinOp.denote] at h ⊢ <;> omega

theorem Eqv.div {op : BinOp} (hop : op = .min ∨ op = .max) {D x y c : Int} (hc : 0 ≤ c) (h : Eqv op (D * c) x y) :
    Eqv op D (ediv x c) (ediv y c) := by
  refine Eqv.of_both hop ?_
  rcases h.cases hop with h | ⟨h1, h2⟩
  · exact .inl (by rw [h])
  · rcases hc.lt_or_eq with hc | rfl
    · right
      have e : ∀ a, ediv a c = a / c := fun a => rfl
      rcases hop with rfl | rfl <;> simp [Le, e] at h1 h2 ⊢
      · exact ⟨(Int.le_ediv_iff_mul_le hc).2 h1, (Int.le_ediv_iff_mul_le hc).2 h2⟩
      · exact ⟨Int.ediv_le_of_le_mul hc h1, Int.ediv_le_of_le_mul hc h2⟩
    · left; simp [ediv]

/-- The value of `scaleDown`. -/
def scaleV (op : BinOp) (D c : Int) : Int := if op = .min then ediv (D + c - 1) c else ediv D c

theorem scaleDown_eval (op : BinOp) (a : Expr) (c : Int) : eval m ρ (scaleDown op a (.const c)) = scaleV op (eval m ρ a) c := by
  unfold scaleDown scaleV
  split <;> simp [eval_mkBin, BinOp.denote, eval]

theorem Eqv.mul {op : BinOp} (hop : op = .min ∨ op = .max) {D x y c : Int} (hc : 0 ≤ c) (h : Eqv op (scaleV op D c) x y) :
    Eqv op D (x * c) (y * c) := by
  refine Eqv.of_both hop ?_
  rcases h.cases hop with h | ⟨h1, h2⟩
  · exact .inl (by rw [h])
  · rcases hc.lt_or_eq with hc | rfl
    · right
      have e : ∀ a, ediv a c = a / c := fun a => rfl
      have f : ∀ a : Int, (D + c - 1) / c ≤ a → D ≤ a * c := fun a ha => by
        have := (Int.ediv_lt_iff_lt_mul hc).1 (show (D + c - 1) / c < a + 1 by omega)
        rw [Int.add_mul, Int.one_mul] at this
        omega
      rcases hop with rfl | rfl <;> simp [Le, e, scaleV] at h1 h2 ⊢
      · exact ⟨f _ h1, f _ h2⟩
      · exact ⟨(Int.le_ediv_iff_mul_le hc).1 h1, (Int.le_ediv_iff_mul_le hc).1 h2⟩
    · left; simp

theorem Le.mono_scale {op : BinOp} (hop : op = .min ∨ op = .max) {a D c : Int} (hc : 0 ≤ c) (h : Le op a D) : Le op (scaleV op a c) (scaleV op D c) := by
  rcases hc.lt_or_eq with hc | rfl
  · have e : ∀ a, ediv a c = a / c := fun a => rfl
    rcases hop with rfl | rfl <;> simp [Le, e, scaleV] at h ⊢
    · exact Int.ediv_le_ediv hc (by omega)
    · exact Int.ediv_le_ediv hc h
  · rcases hop with rfl | rfl <;> simp [Le, scaleV, ediv]

theorem Le.mono_mul {op : BinOp} {a D c : Int} (hc : 0 ≤ c) (h : Le op a D) : Le op (a * c) (D * c) := by
  unfold Le at h ⊢
  split at h <;> rename_i ho
  · rw [if_pos ho]; exact Int.mul_le_mul_of_nonneg_right h hc
  · rw [if_neg ho]; exact Int.mul_le_mul_of_nonneg_right h hc

theorem Le.sub {op : BinOp} {a D c : Int} (h : Le op a D) : Le op (a - c) (D - c) := by
  unfold Le at h ⊢; split at h <;> rename_i ho
  · rw [if_pos ho]; omega
  · rw [if_neg ho]; omega

theorem scaleDown_ok {op : BinOp} {a b : Expr} (ha : a.ok = true) (hb : b.ok = true) : (scaleDown op a b).ok = true := by
  unfold scaleDown; split <;> simp [ha, hb]

theorem rrb_leaf (hc : ∀ ρ, SimpCfgOK cfg m ρ) (h : Sound m rec) (hs : StateOK m ρ s) {op : BinOp} (hop : op = .min ∨ op = .max)
    {x : Expr} {bs : List Expr} {d r : Expr} (hx : x.ok = true) (hd : d.ok = true) (hb : ∀ e ∈ bs, e.ok = true)
    (hr : (if redundant cfg rec s op bs x then some d else none) = some r) :
    r.ok = true ∧ ((∀ e ∈ bs, Le op (eval m ρ e) (eval m ρ d)) → Eqv op (eval m ρ d) (eval m ρ r) (eval m ρ x)) := by
  split at hr
  · next h2 =>
    obtain rfl := Option.some.inj hr
    exact ⟨hd, fun hbs => Eqv.of_le hop (redundant_sound hc h hs (fun e he => ⟨hb e he, hbs e he⟩) hx h2)⟩
  · simp at hr

/-- Removing redundant bounds does not change the bound, if it is combined with the bound of the buffer. -/
theorem rrb_sound (hc : ∀ ρ, SimpCfgOK cfg m ρ) (h : Sound m rec) (hs : StateOK m ρ s) {op : BinOp} (hop : op = .min ∨ op = .max) :
    ∀ (x : Expr) (bs : List Expr) (d r : Expr), x.ok = true → spineOK op x = true → d.ok = true →
      (∀ e ∈ bs, e.ok = true) → rrb cfg rec s op x bs d = some r →
      r.ok = true ∧ ((∀ e ∈ bs, Le op (eval m ρ e) (eval m ρ d)) → Eqv op (eval m ρ d) (eval m ρ r) (eval m ρ x))
  | .bin o a b, bs, d, r, hx, hsp, hd, hb, hr => by
    simp only [Expr.ok_bin, Bool.and_eq_true] at hx
    have red : ∀ e : Expr, e.ok = true → redundant cfg rec s op bs e = true → (∀ e ∈ bs, Le op (eval m ρ e) (eval m ρ d)) →
        Le op (eval m ρ e) (eval m ρ d) := fun e he hre hbs =>
      redundant_sound hc h hs (fun e he => ⟨hb e he, hbs e he⟩) he hre
    have sub : ∀ e : Expr, e.ok = true → spineOK op e = true → (∀ r, rrb cfg rec s op e bs d = some r → r.ok = true ∧
        ((∀ e ∈ bs, Le op (eval m ρ e) (eval m ρ d)) → Eqv op (eval m ρ d) (eval m ρ r) (eval m ρ e))) →
        ((rrb cfg rec s op e bs d).getD e).ok = true ∧ ((∀ e ∈ bs, Le op (eval m ρ e) (eval m ρ d)) →
          Eqv op (eval m ρ d) (eval m ρ ((rrb cfg rec s op e bs d).getD e)) (eval m ρ e)) := by
      intro e he _ hh
      cases hq : rrb cfg rec s op e bs d with
      | none => exact ⟨he, fun _ => rfl⟩
      | some q => exact hh q hq
    unfold rrb at hr
    split at hr
    · next ho =>
      subst ho
      simp only [spineOK, if_true, Bool.and_eq_true] at hsp
      split at hr
      · next h2 =>
        simp only [Bool.and_eq_true] at h2
        obtain rfl := Option.some.inj hr
        refine ⟨hd, fun hbs => Eqv.of_le hop ?_⟩
        have l1 := red a hx.1 h2.1 hbs
        have l2 := red b hx.2 h2.2 hbs
        rcases hop with rfl | rfl <;> simp [Le, eval, BinOp.denote] at l1 l2 ⊢ <;> omega
      · split at hr
        · next h2 =>
          obtain rfl := Option.some.inj hr
          obtain ⟨g1, g2⟩ := sub b hx.2 hsp.2 (fun r hr => rrb_sound hc h hs hop b bs d r hx.2 hsp.2 hd hb hr)
          refine ⟨g1, fun hbs => ?_⟩
          have l1 := red a hx.1 h2 hbs
          have l2 := g2 hbs
          rcases hop with rfl | rfl <;> simp [Le, Eqv, eval, BinOp.denote] at l1 l2 ⊢ <;> omega
        · split at hr
          · next h2 =>
            obtain rfl := Option.some.inj hr
            obtain ⟨g1, g2⟩ := sub a hx.1 hsp.1 (fun r hr => rrb_sound hc h hs hop a bs d r hx.1 hsp.1 hd hb hr)
            refine ⟨g1, fun hbs => ?_⟩
            have l1 := red b hx.2 h2 hbs
            have l2 := g2 hbs
            rcases hop with rfl | rfl <;> simp [Le, Eqv, eval, BinOp.denote] at l1 l2 ⊢ <;> omega
          · exact absurd hr (by simp)
    · next ho =>
      split at hr
      · next h2 =>
        obtain rfl := Option.some.inj hr
        exact ⟨hd, fun hbs => Eqv.of_le hop (red _ (by simp [hx]) h2 hbs)⟩
      · split at hr
        · simp at hr
        · next c hcb =>
          obtain rfl := asConst_some hcb
          simp only [spineOK, if_neg ho, asConst] at hsp
          have ev : ∀ (f : Expr → Expr), ∀ i ∈ bs, (∀ e : Expr, e.ok = true → (f e).ok = true) → ∀ e ∈ [mutE rec s (f i)], e.ok = true := by
            intro f i hi hf e he
            rw [List.mem_singleton] at he
            subst he
            exact mutE_ok h (hf i (hb i hi))
          split at hr
          · next h3 =>
            subst h3
            rw [if_pos rfl] at hsp
            obtain ⟨i, hi, hr⟩ := List.exists_of_findSome?_eq_some hr
            rw [Option.map_eq_some_iff] at hr
            obtain ⟨q, hq, rfl⟩ := hr
            obtain ⟨g1, g2⟩ := rrb_sound hc h hs hop a _ _ q hx.1 hsp (by simp [hd]) (ev (mkBin .sub · (.const c)) i hi (fun e he => by simp [he])) hq
            refine ⟨by simp [g1], fun hbs => ?_⟩
            have g3 := g2 (fun e he => by
              rw [List.mem_singleton] at he; subst he
              rw [mutE_eval h hs (by simp [hb i hi]), eval_mkBin, eval_mkBin]
              exact (hbs i hi).sub)
            rw [eval_mkBin] at g3 ⊢
            exact Eqv.add hop g3
          · split at hr
            · next h3 =>
              subst h3
              simp only [reduceCtorEq, if_false, true_or, if_true, Bool.and_eq_true, decide_eq_true_eq] at hsp
              obtain ⟨i, hi, hr⟩ := List.exists_of_findSome?_eq_some hr
              rw [Option.map_eq_some_iff] at hr
              obtain ⟨q, hq, rfl⟩ := hr
              obtain ⟨g1, g2⟩ := rrb_sound hc h hs hop a _ _ q hx.1 hsp.2 (by simp [hd]) (ev (mkBin .mul · (.const c)) i hi (fun e he => by simp [he])) hq
              refine ⟨by simp [g1], fun hbs => ?_⟩
              have g3 := g2 (fun e he => by
                rw [List.mem_singleton] at he; subst he
                rw [mutE_eval h hs (by simp [hb i hi]), eval_mkBin, eval_mkBin]
                exact (hbs i hi).mono_mul hsp.1)
              rw [eval_mkBin] at g3 ⊢
              exact Eqv.div hop hsp.1 g3
            · split at hr
              · next h3 =>
                subst h3
                simp only [reduceCtorEq, if_false, or_true, if_true, Bool.and_eq_true, decide_eq_true_eq] at hsp
                obtain ⟨i, hi, hr⟩ := List.exists_of_findSome?_eq_some hr
                rw [Option.map_eq_some_iff] at hr
                obtain ⟨q, hq, rfl⟩ := hr
                obtain ⟨g1, g2⟩ := rrb_sound hc h hs hop a _ _ q hx.1 hsp.2 (scaleDown_ok hd (by simp))
                  (ev (scaleDown op · (.const c)) i hi (fun e he => scaleDown_ok he (by simp))) hq
                refine ⟨by simp [g1], fun hbs => ?_⟩
                have g3 := g2 (fun e he => by
                  rw [List.mem_singleton] at he; subst he
                  rw [mutE_eval h hs (scaleDown_ok (hb i hi) (by simp)), scaleDown_eval, scaleDown_eval]
                  exact (hbs i hi).mono_scale hop hsp.1)
                rw [scaleDown_eval] at g3
                rw [eval_mkBin]
                exact Eqv.mul hop hsp.1 g3
              · simp at hr
  | .select c t f, bs, d, r, hx, hsp, hd, hb, hr => by
    have hx' := hx
    simp only [Expr.ok, Bool.and_eq_true] at hx
    simp only [spineOK, Bool.and_eq_true] at hsp
    have sel : ∀ bt bf r : _, (∀ e ∈ bt, e.ok = true) → (∀ e ∈ bf, e.ok = true) →
        selRes c t f (rrb cfg rec s op t bt d) (rrb cfg rec s op f bf d) = some r →
        r.ok = true ∧ ((eval m ρ c ≠ 0 → ∀ e ∈ bt, Le op (eval m ρ e) (eval m ρ d)) → (eval m ρ c = 0 → ∀ e ∈ bf, Le op (eval m ρ e) (eval m ρ d)) →
          Eqv op (eval m ρ d) (eval m ρ r) (eval m ρ (.select c t f))) := by
      intro bt bf r ht hf hr
      unfold selRes at hr
      split at hr
      · simp at hr
      · obtain rfl := Option.some.inj hr
        have st : ((rrb cfg rec s op t bt d).getD t).ok = true ∧ ((∀ e ∈ bt, Le op (eval m ρ e) (eval m ρ d)) →
            Eqv op (eval m ρ d) (eval m ρ ((rrb cfg rec s op t bt d).getD t)) (eval m ρ t)) := by
          cases hq : rrb cfg rec s op t bt d with
          | none => exact ⟨hx.1.2, fun _ => rfl⟩
          | some q => exact rrb_sound hc h hs hop t bt d q hx.1.2 hsp.1 hd ht hq
        have sf : ((rrb cfg rec s op f bf d).getD f).ok = true ∧ ((∀ e ∈ bf, Le op (eval m ρ e) (eval m ρ d)) →
            Eqv op (eval m ρ d) (eval m ρ ((rrb cfg rec s op f bf d).getD f)) (eval m ρ f)) := by
          cases hq : rrb cfg rec s op f bf d with
          | none => exact ⟨hx.2, fun _ => rfl⟩
          | some q => exact rrb_sound hc h hs hop f bf d q hx.2 hsp.2 hd hf hq
        refine ⟨by simp [Expr.ok, hx.1.1, st.1, sf.1], fun h1 h2 => ?_⟩
        by_cases hcv : eval m ρ c = 0
        · simpa [eval, hcv] using sf.2 (h2 hcv)
        · simpa [eval, hcv] using st.2 (h1 hcv)
    unfold rrb at hr
    split at hr
    · next h2 =>
      obtain rfl := Option.some.inj hr
      exact ⟨hd, fun hbs => Eqv.of_le hop (redundant_sound hc h hs (fun e he => ⟨hb e he, hbs e he⟩) hx' h2)⟩
    · split at hr
      · next q hq =>
        obtain rfl := Option.some.inj hr
        obtain ⟨i, hi, hr⟩ := List.exists_of_findSome?_eq_some hq
        split at hr
        · next c' t' f' =>
          split at hr
          · next hm =>
            obtain rfl := (match_iff _ _).1 hm
            have hib := hb _ hi
            simp only [Expr.ok, Bool.and_eq_true] at hib
            obtain ⟨g1, g2⟩ := sel [t'] [f'] _ (by simpa using hib.1.2) (by simpa using hib.2) hr
            refine ⟨g1, fun hbs => g2 (fun hcv => ?_) (fun hcv => ?_)⟩
            · have := hbs _ hi
              simpa [eval, hcv] using this
            · have := hbs _ hi
              simpa [eval, hcv] using this
          · simp at hr
        · simp at hr
      · obtain ⟨g1, g2⟩ := sel bs bs r hb hb hr
        exact ⟨g1, fun hbs => g2 (fun _ => hbs) (fun _ => hbs)⟩
  | .undef, bs, d, r, hx, hsp, hd, hb, hr => by simp [Expr.ok] at hx
  | .var x f k, bs, d, r, hx, hsp, hd, hb, hr => rrb_leaf hc h hs hop hx hd hb (by simpa only [rrb] using hr)
  | .const k, bs, d, r, hx, hsp, hd, hb, hr => rrb_leaf hc h hs hop hx hd hb (by simpa only [rrb] using hr)
  | .lets l b, bs, d, r, hx, hsp, hd, hb, hr => rrb_leaf hc h hs hop hx hd hb (by simpa only [rrb] using hr)
  | .not a, bs, d, r, hx, hsp, hd, hb, hr => rrb_leaf hc h hs hop hx hd hb (by simpa only [rrb] using hr)
  | .call fn as, bs, d, r, hx, hsp, hd, hb, hr => rrb_leaf hc h hs hop hx hd hb (by simpa only [rrb] using hr)

/-! ### Tests for empty crops -/

theorem matchAny_undef {p : Pat} (h : p = emptyPat ∨ p = selPat ∨ p = addMinPat) : matchAny p .undef = none := by
  rcases h with rfl | rfl | rfl <;> rfl

/-- What a match of a pattern with wildcards only gives. -/
theorem matched {p : Pat} {e : Expr} {c : MCtx} (hp : p.isPat false = true) (he : e.ok = true) (h : matchAny p e = some c) :
    c.OK ∧ eval m ρ e = patVal (c.σ m ρ) c.κ c.π p := by
  have := matchAny_sound m ρ hp he h
  refine ⟨this.ok (fun i e h => by simp [MCtx.empty] at h), ?_⟩
  exact (Rel.false_iff.1 (this.val c (.refl c) c.π)).symm

theorem σ_some {c : MCtx} {i : Nat} {e : Expr} (h : c.vars i = some e) : c.σ m ρ i = eval m ρ e := by simp [MCtx.σ, h]

theorem SameCrop.congr_left {lo hi : Int} {a a' b : Interval} (h1 : a.min = a'.min) (h2 : a.max = a'.max) (h : SameCrop m ρ lo hi a b) :
    SameCrop m ρ lo hi a' b := by
  unfold SameCrop cropLo cropHi at h ⊢
  rwa [h1, h2] at h

theorem SameCrop.congr_right {lo hi : Int} {a b b' : Interval} (h1 : b.min = b'.min) (h2 : b.max = b'.max) (h : SameCrop m ρ lo hi a b) :
    SameCrop m ρ lo hi a b' := by
  unfold SameCrop cropLo cropHi at h ⊢
  rwa [h1, h2] at h

theorem dropEmptySelect_sound {lo hi : Int} {a b : Expr} (ha : a.defined = true → a.ok = true) (hb : b.defined = true → b.ok = true) :
    IvOK (dropEmptySelect a b) ∧ SameCrop m ρ lo hi (mkIv a b) (dropEmptySelect a b) := by
  unfold dropEmptySelect
  split
  · next c hc =>
    have ho : a.ok = true := by
      refine ha ?_
      cases a with
      | undef => rw [matchAny_undef (.inl rfl)] at hc; simp at hc
      | _ => rfl
    obtain ⟨h1, h2⟩ := matched (m := m) (ρ := ρ) (by rfl) ho hc
    split
    · next x y hx hy =>
      split
      · next hm =>
        obtain rfl := (match_iff _ _).1 hm
        have ox := h1 _ _ hx
        have oy := h1 _ _ hy
        refine ⟨⟨fun _ => ox, fun _ => oy⟩, ?_⟩
        simp only [emptyPat, patVal, σ_some hx, σ_some hy, BinOp.denote, b2i] at h2
        unfold SameCrop cropLo cropHi mkIv
        simp only [ok_defined ho, ok_defined ox, ok_defined oy, if_true, h2]
        split_ifs at h2 <;> split_ifs <;> simp_all <;> omega
      · exact ⟨⟨ha, hb⟩, .refl _⟩
    · exact ⟨⟨ha, hb⟩, .refl _⟩
  · exact ⟨⟨ha, hb⟩, .refl _⟩

theorem mutIv_sound (h : Sound m rec) (hs : StateOK m ρ s) {lo hi : Int} {c : Interval} (hc : IvOK c) (hw : c.WF) :
    IvOK (mutIv rec s c) ∧ SameCrop m ρ lo hi c (mutIv rec s c) := by
  have key : ∀ e : Expr, (e.defined = true → e.ok = true) → ((mutE rec s e).defined = true → (mutE rec s e).ok = true) := by
    intro e he hd
    rw [mutE_defined h he] at hd
    exact mutE_ok h (he hd)
  have val : ∀ a b : Expr, (a.defined = true → a.ok = true) → (b.defined = true → b.ok = true) →
      SameCrop m ρ lo hi (mkIv a b) (mkIv (mutE rec s a) (mutE rec s b)) := by
    intro a b ha hb
    left
    unfold cropLo cropHi mkIv
    simp only [mutE_defined h ha, mutE_defined h hb]
    constructor
    · split
      · next hd => rw [mutE_eval h hs (ha hd)]
      · rfl
    · split
      · next hd => rw [mutE_eval h hs (hb hd)]
      · rfl
  unfold mutIv
  split
  · next hp =>
    have e : c.max = c.min := by
      simp only [Bool.or_eq_true, Interval.isPoint, Bool.and_eq_true] at hp
      rcases hp with hp | hp
      · exact (hw hp.2).symm
      · exact ((match_iff _ _).1 hp).symm
    refine ⟨⟨key _ hc.1, key _ hc.1⟩, ?_⟩
    refine SameCrop.congr_right (b := mkIv (mutE rec s c.min) (mutE rec s c.max)) rfl ?_ ((val c.min c.max hc.1 hc.2).congr_left (a' := c) rfl rfl)
    simp [mkIv, Interval.point, e]
  · obtain ⟨g1, g2⟩ := dropEmptySelect_sound (m := m) (ρ := ρ) (lo := lo) (hi := hi) (key _ hc.1) (key _ hc.2)
    exact ⟨g1, ((val c.min c.max hc.1 hc.2).congr_left rfl rfl).trans g2⟩

theorem mkIv_WF (a b : Expr) : (mkIv a b).WF := fun h => (match_iff _ _).1 h

theorem mutIv_WF (c : Interval) : (mutIv rec s c).WF := by
  unfold mutIv dropEmptySelect
  split
  · intro _; rfl
  · split
    · split
      · split <;> exact mkIv_WF _ _
      · exact mkIv_WF _ _
    · exact mkIv_WF _ _

/-! ### The whole -/

theorem cropMid_sound (hc : ∀ ρ, SimpCfgOK cfg m ρ) (h : Sound m rec) (hs : StateOK m ρ s) {crop : Interval} {buf : Nat} {dim : Int} {bmin bmax : Expr}
    (ho : IvOK crop) (hw : crop.WF) (h1 : Tells m ρ bmin (m.field (ρ buf) .min dim)) (h2 : Tells m ρ bmax (m.field (ρ buf) .max dim))
    (s1 : spineOK .max (mutIv rec s crop).min = true) (s2 : spineOK .min (mutIv rec s crop).max = true) :
    IvOK (cropMid cfg rec s crop buf dim bmin bmax) ∧
      SameCrop m ρ (m.field (ρ buf) .min dim) (m.field (ρ buf) .max dim) crop (cropMid cfg rec s crop buf dim bmin bmax) := by
  obtain ⟨g1, g2⟩ := mutIv_sound (m := m) (ρ := ρ) h hs (lo := m.field (ρ buf) .min dim) (hi := m.field (ρ buf) .max dim) ho hw
  unfold cropMid
  generalize mutIv rec s crop = r at *
  simp only
  have ev : ∀ f : Field, f ≠ .none → eval m ρ (.var buf f dim) = m.field (ρ buf) f dim := fun f hf => by cases f <;> simp [eval] at hf ⊢
  have lo : ∀ q, (if r.min.defined then rrb cfg rec s .max r.min (enumB cfg .max bmin) (.var buf .min dim) else none) = q →
      ((q.getD r.min).defined = r.min.defined ∧ (r.min.defined = true → (q.getD r.min).ok = true ∧
        max (m.field (ρ buf) .min dim) (eval m ρ (q.getD r.min)) = max (m.field (ρ buf) .min dim) (eval m ρ r.min))) := by
    intro q hq
    cases q with
    | none => exact ⟨rfl, fun hd => ⟨g1.1 hd, rfl⟩⟩
    | some q =>
      split at hq
      · next hd =>
        have hb := enumB_sound (cfg := cfg) (hc ρ) (op := .max) (.inr rfl) h1
        obtain ⟨k1, k2⟩ := rrb_sound hc h hs (.inr rfl) r.min _ _ q (g1.1 hd) s1 rfl (fun e he => (hb e he).1) hq
        rw [ev _ (by simp)] at k2
        exact ⟨by simp [ok_defined k1, hd], fun _ => ⟨k1, k2 (fun e he => (hb e he).2)⟩⟩
      · simp at hq
  have hi : ∀ q, (if r.max.defined then rrb cfg rec s .min r.max (enumB cfg .min bmax) (.var buf .max dim) else none) = q →
      ((q.getD r.max).defined = r.max.defined ∧ (r.max.defined = true → (q.getD r.max).ok = true ∧
        min (m.field (ρ buf) .max dim) (eval m ρ (q.getD r.max)) = min (m.field (ρ buf) .max dim) (eval m ρ r.max))) := by
    intro q hq
    cases q with
    | none => exact ⟨rfl, fun hd => ⟨g1.2 hd, rfl⟩⟩
    | some q =>
      split at hq
      · next hd =>
        have hb := enumB_sound (cfg := cfg) (hc ρ) (op := .min) (.inl rfl) h2
        obtain ⟨k1, k2⟩ := rrb_sound hc h hs (.inl rfl) r.max _ _ q (g1.2 hd) s2 rfl (fun e he => (hb e he).1) hq
        rw [ev _ (by simp)] at k2
        exact ⟨by simp [ok_defined k1, hd], fun _ => ⟨k1, k2 (fun e he => (hb e he).2)⟩⟩
      · simp at hq
  revert lo hi
  generalize (if r.min.defined then rrb cfg rec s .max r.min (enumB cfg .max bmin) (.var buf .min dim) else none) = q1
  generalize (if r.max.defined then rrb cfg rec s .min r.max (enumB cfg .min bmax) (.var buf .max dim) else none) = q2
  intro lo hi
  obtain ⟨l1, l2⟩ := lo _ rfl
  obtain ⟨u1, u2⟩ := hi _ rfl
  split
  · exact ⟨g1, g2⟩
  · clear lo hi
    revert l1 l2 u1 u2
    generalize Option.getD _ r.min = a
    generalize Option.getD _ r.max = b
    intro l1 l2 u1 u2
    have o2 : IvOK (mkIv a b) := ⟨fun hd => (l2 (l1 ▸ hd)).1, fun hd => (u2 (u1 ▸ hd)).1⟩
    obtain ⟨k1, k2⟩ := mutIv_sound (m := m) (ρ := ρ) h hs (lo := m.field (ρ buf) .min dim) (hi := m.field (ρ buf) .max dim) o2 (mkIv_WF a b)
    refine ⟨k1, g2.trans (SameCrop.trans (.inl ⟨?_, ?_⟩) k2)⟩
    · unfold cropLo mkIv
      simp only [l1]
      split
      · next hd => exact (l2 hd).2
      · rfl
    · unfold cropHi mkIv
      simp only [u1]
      split
      · next hd => exact (u2 hd).2
      · rfl

/-- Where the min of the crop is `x + min(u, z)`, with the max `u`, and becomes `x + z`: it is more than `u` if this makes a difference. -/
def AddMinOK (m : Mem) (ρ : Env) (r : Interval) (buf : Nat) (dim : Int) : Prop :=
  ∀ x u z, addMinParts r buf dim = some (x, u, z) → 1 ≤ eval m ρ x ∨ eval m ρ z ≤ eval m ρ u

theorem isVar_eq {e : Expr} {buf : Nat} {f : Field} {dim : Int} (h : isVar e buf f dim = true) : e = .var buf f dim := by
  simpa [isVar] using h

theorem cropMin_sound (h : Sound m rec) (hs : StateOK m ρ s) {r : Interval} {buf : Nat} {dim : Int} (ho : IvOK r) (ha : AddMinOK m ρ r buf dim) :
    ((cropMin rec s r buf dim).defined = true → (cropMin rec s r buf dim).ok = true) ∧
      SameCrop m ρ (m.field (ρ buf) .min dim) (m.field (ρ buf) .max dim) r (mkIv (cropMin rec s r buf dim) r.max) := by
  have same : SameCrop m ρ (m.field (ρ buf) .min dim) (m.field (ρ buf) .max dim) r (mkIv r.min r.max) := .inl ⟨rfl, rfl⟩
  have ev : ∀ f : Field, f ≠ .none → eval m ρ (.var buf f dim) = m.field (ρ buf) f dim := fun f hf => by cases f <;> simp [eval] at hf ⊢
  have def_of : ∀ p c, (p = emptyPat ∨ p = selPat ∨ p = addMinPat) → matchAny p r.min = some c → r.min.ok = true := by
    intro p c hp hm
    refine ho.1 ?_
    cases hr : r.min with
    | undef => rw [hr, matchAny_undef hp] at hm; simp at hm
    | _ => rfl
  unfold cropMin
  split
  · next e he =>
    unfold selParts at he
    split at he
    · next c hm =>
      have ok := def_of _ _ (.inr (.inl rfl)) hm
      obtain ⟨h1, h2⟩ := matched (m := m) (ρ := ρ) (by rfl) ok hm
      split at he
      · next x y w hx hy hw =>
        obtain rfl := Option.some.inj he
        split
        · next hv =>
          simp only [Bool.and_eq_true] at hv
          have ex := isVar_eq hv.1
          have ey := isVar_eq hv.2
          have ow := h1 _ _ hw
          refine ⟨fun _ => ow, ?_⟩
          simp only [selPat, patVal, σ_some hx, σ_some hy, σ_some hw, BinOp.denote, b2i, ex, ey, ev _ (show Field.max ≠ .none by simp),
            ev _ (show Field.min ≠ .none by simp)] at h2
          unfold SameCrop cropLo cropHi mkIv
          simp only [ok_defined ok, ok_defined ow, if_true, h2]
          split_ifs at h2 <;> split_ifs <;> simp_all <;> omega
        · exact ⟨ho.1, same⟩
      · simp at he
    · simp at he
  · split
    · next x u z hp =>
      have hx := ha x u z hp
      have hq : x.ok = true ∧ z.ok = true ∧ r.min.ok = true ∧ eval m ρ r.min = eval m ρ x + min (eval m ρ u) (eval m ρ z) ∧
          (eval m ρ u = m.field (ρ buf) .max dim ∨ (r.max.defined = true ∧ eval m ρ u = eval m ρ r.max)) := by
        unfold addMinParts at hp
        split at hp
        · next c hm =>
          have ok := def_of _ _ (.inr (.inr rfl)) hm
          obtain ⟨h1, h2⟩ := matched (m := m) (ρ := ρ) (by rfl) ok hm
          have top : ∀ y : Expr, y.ok = true → (isVar y buf .max dim || matchE y r.max) = true →
              (eval m ρ y = m.field (ρ buf) .max dim ∨ (r.max.defined = true ∧ eval m ρ y = eval m ρ r.max)) := by
            intro y hy hv
            simp only [Bool.or_eq_true] at hv
            rcases hv with hv | hv
            · left; rw [isVar_eq hv, ev _ (by simp)]
            · right; rw [← (match_iff _ _).1 hv]; exact ⟨ok_defined hy, rfl⟩
          split at hp
          · next x' y' z' vx vy vz =>
            simp only [addMinPat, patVal, σ_some vx, σ_some vy, σ_some vz, BinOp.denote] at h2
            split at hp
            · next hv =>
              simp only [Option.some.injEq, Prod.mk.injEq] at hp
              obtain ⟨rfl, rfl, rfl⟩ := hp
              exact ⟨h1 _ _ vx, h1 _ _ vz, ok, h2, top _ (h1 _ _ vy) hv⟩
            · split at hp
              · next hv =>
                simp only [Option.some.injEq, Prod.mk.injEq] at hp
                obtain ⟨rfl, rfl, rfl⟩ := hp
                exact ⟨h1 _ _ vx, h1 _ _ vy, ok, by rw [h2, min_comm], top _ (h1 _ _ vz) hv⟩
              · simp at hp
          · simp at hp
        · simp at hp
      obtain ⟨q1, q2, q3, q4, q5⟩ := hq
      have om : (mkBin .add x z).ok = true := by simp [q1, q2]
      refine ⟨fun _ => mutE_ok h om, ?_⟩
      unfold SameCrop cropLo cropHi mkIv
      simp only [ok_defined q3, ok_defined (mutE_ok (s := s) h om), if_true, q4, mutE_eval h hs om, eval_mkBin, BinOp.denote]
      rcases q5 with q5 | ⟨q6, q5⟩
      · rw [← q5]
        split_ifs <;> rcases hx with hx | hx <;> simp <;> omega
      · rw [if_pos q6, ← q5]
        rcases hx with hx | hx <;> simp <;> omega
    · exact ⟨ho.1, same⟩

theorem dropBound_undef {e c : Expr} : dropBound cfg rec s e c = .undef ∧ e.defined = true ∧ proveTrueS cfg rec s c = true ∨ dropBound cfg rec s e c = e := by
  unfold dropBound
  split
  · next h => simp only [Bool.and_eq_true] at h; exact .inl ⟨rfl, h⟩
  · exact .inr rfl

/-- C53: the simplified bounds of a crop describe the same crop (or an empty crop, if the crop was empty), and what the simplifier then knows about
the bounds of the cropped dimension is true. -/
theorem crop_bounds_partial (hc : ∀ ρ, SimpCfgOK cfg m ρ) (h : Sound m rec) (hs : StateOK m ρ s) {crop : Interval} {buf : Nat} {dim : Int} {bmin bmax : Expr}
    (ho : IvOK crop) (hw : crop.WF) (h1 : Tells m ρ bmin (m.field (ρ buf) .min dim)) (h2 : Tells m ρ bmax (m.field (ρ buf) .max dim))
    (s1 : spineOK .max (mutIv rec s crop).min = true) (s2 : spineOK .min (mutIv rec s crop).max = true)
    (ha : AddMinOK m ρ (cropMid cfg rec s crop buf dim bmin bmax) buf dim) :
    SameCrop m ρ (m.field (ρ buf) .min dim) (m.field (ρ buf) .max dim) crop (mutateCrop cfg rec s crop buf dim bmin bmax).1 ∧
    Tells m ρ (mutateCrop cfg rec s crop buf dim bmin bmax).2.1 (cropLo m ρ (m.field (ρ buf) .min dim) (mutateCrop cfg rec s crop buf dim bmin bmax).1) ∧
    Tells m ρ (mutateCrop cfg rec s crop buf dim bmin bmax).2.2 (cropHi m ρ (m.field (ρ buf) .max dim) (mutateCrop cfg rec s crop buf dim bmin bmax).1) ∧
    IvOK (mutateCrop cfg rec s crop buf dim bmin bmax).1 ∧ (mutateCrop cfg rec s crop buf dim bmin bmax).1.WF := by
  have ev : ∀ f : Field, f ≠ .none → eval m ρ (.var buf f dim) = m.field (ρ buf) f dim := fun f hf => by cases f <;> simp [eval] at hf ⊢
  unfold mutateCrop
  split
  · next hd =>
    simp only [Bool.and_eq_true, Bool.not_eq_true'] at hd
    refine ⟨.refl _, ?_, ?_, ho, hw⟩
    · simpa [cropLo, hd.1] using h1
    · simpa [cropHi, hd.2] using h2
  · obtain ⟨g1, g2⟩ := cropMid_sound hc h hs ho hw h1 h2 s1 s2
    obtain ⟨k1, k2⟩ := cropMin_sound h hs g1 ha
    simp only
    generalize cropMin rec s (cropMid cfg rec s crop buf dim bmin bmax) buf dim = lo at *
    generalize cropMid cfg rec s crop buf dim bmin bmax = r at *
    have tm : ∀ (b : Expr) (f : Field), f ≠ .none → Tells m ρ b (m.field (ρ buf) f dim) →
        (if b.defined then b else .var buf f dim).ok = true ∧ eval m ρ (if b.defined then b else .var buf f dim) = m.field (ρ buf) f dim := by
      intro b f hf hb
      split
      · next hd => exact hb hd
      · exact ⟨rfl, ev f hf⟩
    obtain ⟨a1, a2⟩ := tm bmin .min (by simp) h1
    obtain ⟨b1, b2⟩ := tm bmax .max (by simp) h2
    generalize (if bmin.defined then bmin else .var buf .min dim) = bm at *
    generalize (if bmax.defined then bmax else .var buf .max dim) = bM at *
    have L : ∀ lo', dropBound cfg rec s lo (mkBin .le lo bm) = lo' → (lo'.defined = true → lo'.ok = true) ∧
        (if lo'.defined then max (m.field (ρ buf) .min dim) (eval m ρ lo') else m.field (ρ buf) .min dim) =
        (if lo.defined then max (m.field (ρ buf) .min dim) (eval m ρ lo) else m.field (ρ buf) .min dim) := by
      rintro lo' rfl
      rcases dropBound_undef (cfg := cfg) (rec := rec) (s := s) (e := lo) (c := mkBin .le lo bm) with ⟨e, hd, hp⟩ | e
      · rw [e]
        refine ⟨fun h => by simp [Expr.defined] at h, ?_⟩
        have := proved_le hc h hs (k1 hd) a1 hp
        rw [if_pos hd]
        simp [Expr.defined]; omega
      · rw [e]; exact ⟨k1, rfl⟩
    have U : ∀ hi', dropBound cfg rec s r.max (mkBin .le bM r.max) = hi' → (hi'.defined = true → hi'.ok = true) ∧
        (if hi'.defined then min (m.field (ρ buf) .max dim) (eval m ρ hi') else m.field (ρ buf) .max dim) =
        (if r.max.defined then min (m.field (ρ buf) .max dim) (eval m ρ r.max) else m.field (ρ buf) .max dim) := by
      rintro hi' rfl
      rcases dropBound_undef (cfg := cfg) (rec := rec) (s := s) (e := r.max) (c := mkBin .le bM r.max) with ⟨e, hd, hp⟩ | e
      · rw [e]
        refine ⟨fun h => by simp [Expr.defined] at h, ?_⟩
        have := proved_le hc h hs b1 (g1.2 hd) hp
        rw [if_pos hd]
        simp [Expr.defined]; omega
      · rw [e]; exact ⟨g1.2, rfl⟩
    obtain ⟨L1, L2⟩ := L _ rfl
    obtain ⟨U1, U2⟩ := U _ rfl
    clear L U
    generalize dropBound cfg rec s lo (mkBin .le lo bm) = lo' at *
    generalize dropBound cfg rec s r.max (mkBin .le bM r.max) = hi' at *
    refine ⟨(g2.trans k2).trans (.inl ⟨L2, U2⟩), ?_, ?_, ⟨L1, U1⟩, mkIv_WF _ _⟩
    · unfold Tells cropLo mkIv
      simp only
      split
      · next hd =>
        have om : (mkBin .max bm lo').ok = true := by simp [a1, L1 hd]
        exact fun _ => ⟨mutE_ok h om, by rw [mutE_eval h hs om, eval_mkBin, a2]; rfl⟩
      · exact h1
    · unfold Tells cropHi mkIv
      simp only
      split
      · next hd =>
        have om : (mkBin .min bM hi').ok = true := by simp [b1, U1 hd]
        exact fun _ => ⟨mutE_ok h om, by rw [mutE_eval h hs om, eval_mkBin, b2]; rfl⟩
      · exact h2

/-- The bounds with which the evaluator crops (evaluate.cc: an undefined bound is the bound of the dimension). -/
def cropArgs (m : Mem) (ρ : Env) (c : Interval) (d : Dim) : Int × Int :=
  (if c.min.defined then eval m ρ c.min else d.min, if c.max.defined then eval m ρ c.max else d.max)

/-- The same crops of a buffer are the same buffer, or are both buffers without elements. -/
theorem same_crop_buffer {b : Buf} {k : Nat} {c c' : Interval} (hk : k < b.rank) (h : SameCrop m ρ (b.dim k).min (b.dim k).max c c') :
    b.crop k (cropArgs m ρ c' (b.dim k)).1 (cropArgs m ρ c' (b.dim k)).2 = b.crop k (cropArgs m ρ c (b.dim k)).1 (cropArgs m ρ c (b.dim k)).2 ∨
    ((b.crop k (cropArgs m ρ c' (b.dim k)).1 (cropArgs m ρ c' (b.dim k)).2).base = none ∧
      (b.crop k (cropArgs m ρ c (b.dim k)).1 (cropArgs m ρ c (b.dim k)).2).base = none) := by
  have lo : ∀ c : Interval, max (cropArgs m ρ c (b.dim k)).1 (b.dim k).min = cropLo m ρ (b.dim k).min c := by
    intro c; unfold cropArgs cropLo; simp only; split
    · rw [max_comm]
    · simp
  have hi : ∀ c : Interval, min (cropArgs m ρ c (b.dim k)).2 (b.dim k).max = cropHi m ρ (b.dim k).max c := by
    intro c; unfold cropArgs cropHi; simp only; split
    · rw [min_comm]
    · simp
  rcases h with ⟨h1, h2⟩ | ⟨h1, h2⟩
  · left
    unfold Buf.crop
    simp only [lo, hi, h1, h2]
  · right
    exact ⟨(crop_empty b k _ _ hk (by rw [lo, hi]; exact h2)).1, (crop_empty b k _ _ hk (by rw [lo, hi]; exact h1)).1⟩

end

end CB

end Slinky
