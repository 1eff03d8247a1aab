import Verif.ViewsThm

/-!
# C59: views of views. Substitution of metadata, and declarations
-/

namespace Slinky.VW

open Slinky

variable {w : World} {l : List Ev} {ρ : SEnv}

theorem evalS_rebuild (op : BinOp) {a b a' b' : Expr} (ha : evalS w l ρ a' = evalS w l ρ a) (hb : evalS w l ρ b' = evalS w l ρ b) :
    evalS w l ρ (rebuildBin op a b a' b') = evalS w l ρ (.bin op a b) := by
  unfold rebuildBin
  split
  · rfl
  · rw [evalS_mkBin]; simp only [evalS, ha, hb]

theorem fix_other (rank : Nat → Nat) (rep : Nat → Nat → Expr) {fn : Fn} (h : fn ≠ .bufferAt) (as : Exprs) : fixBufferAt rank rep fn as = as := by
  cases fn <;> first | exact absurd rfl h | rfl

mutual
/-- Replacing the fields of a buffer by expressions that have their values. -/
theorem substBuf_evalS {t n : Nat} {R : Field → Int → Expr} {P : Field → Int → Prop}
    (hR : ∀ f d, f ≠ .none → P f d → evalS w l ρ (R f d) = evalS w l ρ (.var t f d) ∧ (R f d).defined = true) :
    ∀ (e : Expr), e.Plain [] → FieldsOK t P e → evalS w l ρ (substBufE t R n e) = evalS w l ρ e ∧ (substBufE t R n e).defined = e.defined
  | .undef, _, _ => ⟨rfl, rfl⟩
  | .var y f d, _, h => by
    simp only [substBufE]
    split
    · rename_i hc
      obtain ⟨rfl, hf⟩ := hc
      exact ⟨(hR f d hf (h rfl hf)).1, (hR f d hf (h rfl hf)).2⟩
    · exact ⟨rfl, rfl⟩
  | .const _, _, _ => ⟨rfl, rfl⟩
  | .lets _ _, h, _ => h.elim
  | .bin op a b, h, hf => by
    obtain ⟨a1, a2⟩ := substBuf_evalS (n := n) hR a h.1 hf.1
    obtain ⟨b1, b2⟩ := substBuf_evalS (n := n) hR b h.2 hf.2
    simp only [substBufE]
    refine ⟨evalS_rebuild op a1 b1, ?_⟩
    unfold rebuildBin
    split
    · rfl
    · rw [defined_mkBin]; rfl
  | .not a, h, hf => by
    obtain ⟨a1, _⟩ := substBuf_evalS (n := n) hR a h hf
    exact ⟨by simp only [substBufE, evalS, a1], rfl⟩
  | .select c u v, h, hf => by
    obtain ⟨a1, _⟩ := substBuf_evalS (n := n) hR c h.1 hf.1
    obtain ⟨b1, _⟩ := substBuf_evalS (n := n) hR u h.2.1 hf.2.1
    obtain ⟨c1, _⟩ := substBuf_evalS (n := n) hR v h.2.2 hf.2.2
    exact ⟨by simp only [substBufE, evalS, a1, b1, c1], rfl⟩
  | .call fn as, h, hf => by
    have hA := substBuf_args (n := n) hR as h.2 hf
    have hS := substBuf_short (n := n) hR as h.2 hf
    refine ⟨?_, rfl⟩
    simp only [substBufE]
    rw [fix_other _ _ h.1]
    cases fn with
    | andThen => simp only [evalS, hS]
    | orElse => simp only [evalS, hS]
    | abs =>
      cases as with
      | nil => rfl
      | cons e es =>
        obtain ⟨a1, _⟩ := substBuf_evalS (n := n) hR e h.2.1 hf.1
        cases es with
        | nil => simp only [substBufArgs, evalS, a1]
        | cons e' es' => rfl
    | _ => simp only [evalS, hA]
/-- See `substBuf_evalS`. -/
theorem substBuf_args {t n : Nat} {R : Field → Int → Expr} {P : Field → Int → Prop}
    (hR : ∀ f d, f ≠ .none → P f d → evalS w l ρ (R f d) = evalS w l ρ (.var t f d) ∧ (R f d).defined = true) :
    ∀ (es : Exprs), es.Plain [] → FieldsOKArgs t P es → evalArgsS w l ρ (substBufArgs t R n es) = evalArgsS w l ρ es
  | .nil, _, _ => rfl
  | .cons e es, h, hf => by
    obtain ⟨a1, a2⟩ := substBuf_evalS (n := n) hR e h.1 hf.1
    simp only [substBufArgs, evalArgsS, a1, a2, substBuf_args hR es h.2 hf.2]
/-- See `substBuf_evalS`. -/
theorem substBuf_short {t n : Nat} {R : Field → Int → Expr} {P : Field → Int → Prop}
    (hR : ∀ f d, f ≠ .none → P f d → evalS w l ρ (R f d) = evalS w l ρ (.var t f d) ∧ (R f d).defined = true) :
    ∀ (es : Exprs), es.Plain [] → FieldsOKArgs t P es → ∀ isAnd, evalShortS w l isAnd ρ (substBufArgs t R n es) = evalShortS w l isAnd ρ es
  | .nil, _, _, _ => rfl
  | .cons e es, h, hf, isAnd => by
    obtain ⟨a1, _⟩ := substBuf_evalS (n := n) hR e h.1 hf.1
    simp only [substBufArgs, evalShortS, a1, substBuf_short hR es h.2 hf.2]
end

/-! ## Declarations as boxes -/

theorem crop_self {b : Buf} (h : Solid b) {d : Nat} : b.crop d (b.dim d).min (b.dim d).max = b := by
  by_cases hd : d < b.rank
  · rw [crop_eq _ _ _ _ (by omega)]
    simp only [max_self, min_self]
    have e : b.dims.set d (b.dim d) = b.dims := by
      have := dim_eq b d hd
      have h' : d < b.dims.length := hd
      rw [List.getElem?_eq_getElem h'] at this
      rw [← Option.some.inj this]
      exact List.set_getElem_self h'
    have e2 : (⟨(b.dim d).min, (b.dim d).max, (b.dim d).stride, (b.dim d).fold⟩ : Dim) = b.dim d := rfl
    rw [e2, e]
    have e3 : cropBase b.base (b.dim d) (b.dim d).min (b.dim d).max = b.base := by
      cases hb : b.base with
      | none => rfl
      | some p =>
        have := h (by simp [hb]) d hd
        simp only [cropBase, max_self, min_self, ge_iff_le, this, if_true]
        split
        · rename_i hf; simp [Dim.flatOffset, hf]
        · rfl
    rw [e3]
  · exact crop_broadcast b d _ _ (by omega)

theorem crop_solid {b : Buf} (h : Solid b) (d : Nat) (x y : Int) : Solid (b.crop d x y) := by
  by_cases hd : d < b.rank
  · intro hb k hk
    rw [(crop_other b d x y).2.1] at hk
    have hb' : b.base ≠ none := by
      rw [crop_eq _ _ _ _ (by omega)] at hb
      simp only at hb
      intro hn; rw [hn] at hb; exact hb rfl
    by_cases hkd : k = d
    · subst hkd
      rw [crop_dim b k x y hd]
      simp only
      rw [crop_eq _ _ _ _ (by omega)] at hb
      simp only at hb
      cases hp : b.base with
      | none => exact absurd hp hb'
      | some p =>
        rw [hp] at hb
        by_contra hc
        apply hb
        have : ¬ (min y (b.dim k).max ≥ max x (b.dim k).min) := by omega
        simp only [cropBase, this, if_false]
    · rw [(crop_other b d x y).1 k hkd]
      exact h hb' k hk
  · rw [crop_broadcast b d _ _ (by omega)]; exact h

theorem cropL_solid : ∀ (vs : List (Int × Int)) (d : Nat) {b : Buf}, Solid b → Solid (cropL d vs b)
  | [], _, _, h => h
  | v :: vs, d, _, h => cropL_solid vs (d + 1) (crop_solid h d _ _)

theorem unbounded_eval (a b : Int) : evalIvDefS w l ρ .unbounded a b = some (a, b) := by
  simp [evalIvDefS, Interval.unbounded, Interval.isPoint, evalDefS, Expr.defined]

theorem cropS_pad {b : Buf} (h : Solid b) (c : Interval) : ∀ (n d : Nat) {bx : Buf},
    ((evalIvDefS w l ρ c (b.dim (d + n)).min (b.dim (d + n)).max).map fun v => b.crop (d + n) v.1 v.2) = some bx →
    cropS w l ρ d (List.replicate n .unbounded ++ [c]) b = some bx
  | 0, d, bx, hv => by
    simp only [List.replicate_zero, List.nil_append, cropS, Nat.add_zero] at hv ⊢
    obtain ⟨v, h1, rfl⟩ := Option.map_eq_some_iff.1 hv
    split
    · rw [h1]; simp
    · rename_i hd; rw [crop_broadcast b d _ _ (by omega)]
  | n + 1, d, bx, hv => by
    simp only [List.replicate_succ, List.cons_append, cropS]
    split
    · rw [unbounded_eval]
      simp only [Option.bind_eq_bind, Option.bind_some]
      rw [crop_self h]
      exact cropS_pad h c n (d + 1) (by rw [show d + 1 + n = d + (n + 1) by omega]; exact hv)
    · obtain ⟨v, h1, rfl⟩ := Option.map_eq_some_iff.1 hv
      rename_i hd; rw [crop_broadcast b _ _ _ (by omega)]

/-- The buffer of a declaration is the crop to its box. -/
theorem value_box {b bx : Buf} (h : Solid b) {c : CropDecl} (hv : c.value w l ρ b = some bx) : cropS w l ρ 0 c.box b = some bx := by
  cases c with
  | buffer s cb => exact hv
  | dim s d i => exact cropS_pad h i d 0 (by simpa [CropDecl.value] using hv)

theorem value_solid {b bx : Buf} (h : Solid b) {c : CropDecl} (hv : c.value w l ρ b = some bx) : Solid bx := by
  have := value_box h hv
  rw [cropS_eq] at this
  obtain ⟨vs, _, rfl⟩ := Option.map_eq_some_iff.1 this
  exact cropL_solid vs 0 h

/-! ## The bounds of both crops -/

theorem EqI.refl {i : Interval} (h : i.WF) : EqI i i := ⟨rfl, rfl, h⟩

theorem undef_of {e : Expr} (h : e.defined = false) : e = .undef := by cases e <;> simp at h ⊢

theorem eqI_left {i : Interval} (h : i.WF) : EqI (i.inter .unbounded) i := by
  refine ⟨?_, ?_, inter_wf h fun _ => rfl⟩
  · by_cases hd : i.min.defined = true
    · simp [Interval.inter, Interval.unbounded, hd]
    · have hd' : i.min.defined = false := by simpa using hd
      simp [Interval.inter, Interval.unbounded, undef_of hd']
  · by_cases hd : i.max.defined = true
    · simp [Interval.inter, Interval.unbounded, hd]
    · have hd' : i.max.defined = false := by simpa using hd
      simp [Interval.inter, Interval.unbounded, undef_of hd']

theorem eqI_right {i : Interval} (h : i.WF) : EqI (Interval.unbounded.inter i) i :=
  ⟨by simp [Interval.inter, Interval.unbounded], by simp [Interval.inter, Interval.unbounded], inter_wf (fun _ => rfl) h⟩

theorem boxInter_isInter : ∀ (as bs : List Interval) (n : Nat), (∀ a ∈ as, a.WF) → (∀ b ∈ bs, b.WF) → n = max bs.length as.length →
    ∃ ms, boxInter as (padTo n bs) = some ms ∧ IsInter as bs ms
  | [], [], n, _, _, hn => by subst hn; exact ⟨[], rfl, trivial⟩
  | [], b :: bs, n, ha, hb, hn => by
    obtain ⟨ms, h1, h2⟩ := boxInter_isInter [] bs bs.length (by simp) (fun x hx => hb x (by simp [hx])) (by simp)
    refine ⟨Interval.unbounded.inter b :: ms, ?_, eqI_right (hb b (by simp)), h2⟩
    simp only [padTo, Nat.sub_self, List.replicate_zero, List.append_nil] at h1
    subst hn
    simp [padTo, boxInter, h1]
  | a :: as, [], n, ha, hb, hn => by
    obtain ⟨ms, h1, h2⟩ := boxInter_isInter as [] as.length (fun x hx => ha x (by simp [hx])) (by simp) (by simp)
    refine ⟨a.inter .unbounded :: ms, ?_, eqI_left (ha a (by simp)), h2⟩
    subst hn
    simp only [padTo, List.nil_append, List.length_nil, Nat.sub_zero] at h1
    simp [padTo, boxInter, h1, List.replicate_succ]
  | a :: as, b :: bs, n, ha, hb, hn => by
    obtain ⟨ms, h1, h2⟩ := boxInter_isInter as bs _ (fun x hx => ha x (by simp [hx])) (fun x hx => hb x (by simp [hx])) rfl
    refine ⟨a.inter b :: ms, ?_, EqI.refl (inter_wf (ha a (by simp)) (hb b (by simp))), h2⟩
    subst hn
    simp only [padTo] at h1 ⊢
    rw [List.length_cons, List.length_cons, Nat.add_max_add_right, Nat.add_sub_add_right, List.cons_append]
    simp only [boxInter, h1, Option.map_some]

theorem pad_isInter : ∀ (bs : List Interval), (∀ b ∈ bs, b.WF) → IsInter [] bs bs
  | [], _ => trivial
  | b :: bs, h => ⟨EqI.refl (h b (by simp)), pad_isInter bs fun x hx => h x (by simp [hx])⟩

theorem modify_isInter (c : Interval) (hc : c.WF) : ∀ (d : Nat) (bs : List Interval), (∀ b ∈ bs, b.WF) →
    IsInter (List.replicate d .unbounded ++ [c]) bs ((padTo (max bs.length (d + 1)) bs).modify d fun j => c.inter j)
  | 0, [], _ => by
    refine ⟨eqI_left hc, trivial⟩
  | 0, b :: bs, h => by
    have e : max (b :: bs).length (0 + 1) = (b :: bs).length := by simp
    rw [e]
    simp only [padTo, Nat.sub_self, List.replicate_zero, List.append_nil, List.nil_append]
    exact ⟨EqI.refl (inter_wf hc (h b (by simp))), pad_isInter bs fun x hx => h x (by simp [hx])⟩
  | d + 1, [], h => by
    have ih := modify_isInter c hc d [] h
    have e : ∀ n, padTo (max ([] : List Interval).length (n + 1)) [] = List.replicate (n + 1) .unbounded := fun n => by simp [padTo]
    rw [e] at ih ⊢
    rw [List.replicate_succ, List.cons_append, List.replicate_succ, List.modify_succ_cons]
    exact ⟨EqI.refl fun _ => rfl, ih⟩
  | d + 1, b :: bs, h => by
    have ih := modify_isInter c hc d bs fun x hx => h x (by simp [hx])
    have e : padTo (max (b :: bs).length (d + 1 + 1)) (b :: bs) = b :: padTo (max bs.length (d + 1)) bs := by
      simp only [padTo, List.length_cons, Nat.add_max_add_right, Nat.add_sub_add_right, List.cons_append]
    rw [e, List.replicate_succ, List.cons_append, List.modify_succ_cons]
    refine ⟨?_, ih⟩
    exact ⟨(eqI_right (h b (by simp))).1.symm, (eqI_right (h b (by simp))).2.1.symm, h b (by simp)⟩

end Slinky.VW
