import Verif.ViewsSub
import Verif.SemStmt
import Mathlib.Data.List.TakeWhile

/-!
# C59: crops of crops
-/

namespace Slinky.VW

open Slinky

variable {w : World} {l : List Ev} {ρ : SEnv} {decl : Nat → Option CropDecl}

theorem mkBin_ok {op : BinOp} {a b : Expr} (ha : ExprOK w l ρ decl a) (hb : ExprOK w l ρ decl b) : ExprOK w l ρ decl (mkBin op a b) := by
  unfold mkBin
  split
  · exact ⟨⟨hb.1, ha.1⟩, fun x => ⟨hb.2 x, ha.2 x⟩⟩
  · exact ⟨⟨ha.1, hb.1⟩, fun x => ⟨ha.2 x, hb.2 x⟩⟩

theorem undef_ok : ExprOK w l ρ decl .undef := ⟨trivial, fun _ => trivial⟩

theorem plain_var (x : Nat) (f : Field) (d : Int) : (Expr.var x f d).Plain [] := Or.inr (by simp)

mutual
/-- Substitution of expressions without forbidden fields. -/
theorem subst_ok {t n : Nat} {R : Field → Int → Expr} :
    ∀ (e : Expr), e.Plain [] → (∀ x, FieldsOK x (FieldOK w l ρ decl x) e) → (∀ f d, f ≠ .none → FieldOK w l ρ decl t f d → ExprOK w l ρ decl (R f d)) →
      ExprOK w l ρ decl (substBufE t R n e)
  | .undef, _, _, _ => undef_ok
  | .var y f d, hp, hf, hR => by
    simp only [substBufE]
    split
    · rename_i hc
      obtain ⟨rfl, h0⟩ := hc
      exact hR f d h0 (hf y rfl h0)
    · exact ⟨hp, hf⟩
  | .const _, _, _, _ => ⟨trivial, fun _ => trivial⟩
  | .lets _ _, h, _, _ => h.elim
  | .bin op a b, h, hf, hR => by
    have h1 := subst_ok (n := n) a h.1 (fun x => (hf x).1) hR
    have h2 := subst_ok (n := n) b h.2 (fun x => (hf x).2) hR
    simp only [substBufE, rebuildBin]
    split
    · exact ⟨h, hf⟩
    · exact mkBin_ok h1 h2
  | .not a, h, hf, hR => by
    have h1 := subst_ok (n := n) a h (fun x => hf x) hR
    exact ⟨h1.1, h1.2⟩
  | .select c u v, h, hf, hR => by
    have h1 := subst_ok (n := n) c h.1 (fun x => (hf x).1) hR
    have h2 := subst_ok (n := n) u h.2.1 (fun x => (hf x).2.1) hR
    have h3 := subst_ok (n := n) v h.2.2 (fun x => (hf x).2.2) hR
    exact ⟨⟨h1.1, h2.1, h3.1⟩, fun x => ⟨h1.2 x, h2.2 x, h3.2 x⟩⟩
  | .call fn as, h, hf, hR => by
    have h1 := subst_ok_args (n := n) as h.2 (fun x => hf x) hR
    simp only [substBufE]
    rw [fix_other _ _ h.1]
    exact ⟨⟨h.1, h1.1⟩, h1.2⟩
/-- See `subst_ok`. -/
theorem subst_ok_args {t n : Nat} {R : Field → Int → Expr} :
    ∀ (es : Exprs), es.Plain [] → (∀ x, FieldsOKArgs x (FieldOK w l ρ decl x) es) →
      (∀ f d, f ≠ .none → FieldOK w l ρ decl t f d → ExprOK w l ρ decl (R f d)) →
      (substBufArgs t R n es).Plain [] ∧ ∀ x, FieldsOKArgs x (FieldOK w l ρ decl x) (substBufArgs t R n es)
  | .nil, _, _, _ => ⟨trivial, fun _ => trivial⟩
  | .cons e es, h, hf, hR => by
    have h1 := subst_ok (n := n) e h.1 (fun x => (hf x).1) hR
    have h2 := subst_ok_args (n := n) es h.2 (fun x => (hf x).2) hR
    exact ⟨⟨h1.1, h2.1⟩, fun x => ⟨h1.2 x, h2.2 x⟩⟩
end

theorem evalS_of_evalI {e : Expr} {v : Int} (h : evalI w l ρ e = some v) : evalS w l ρ e = some (.int v) := by
  unfold evalI at h
  cases h1 : evalS w l ρ e with
  | none => rw [h1] at h; simp at h
  | some u =>
    rw [h1] at h
    cases u <;> simp [Val.int?] at h
    subst h; rfl

theorem buf_of {x : Nat} {b : Buf} (h : ρ.buf? x = some b) : ρ x = .buf b := by
  unfold SEnv.buf? at h
  cases hx : ρ x <;> rw [hx] at h <;> simp [Val.buf?] at h
  subst h; rfl

theorem dimsOf_get (bs : List Interval) (d : Nat) : (dimsOf bs)[d]? = (bs[d]?).map fun i => ⟨i.min, i.max, .undef, .undef⟩ := by simp [dimsOf]

/-- The replacement of a field of `x` has its value. -/
theorem repl_val {x : Nat} {c : CropDecl} {bx : Buf} (hd : decl x = some c) (hx : ρ.buf? x = some bx) (f : Field) (d : Int) (hf : f ≠ .none)
    (h : FieldOK w l ρ decl x f d) : evalS w l ρ (bufRepl .undef (dimsOf c.box) (some x) f d) = evalS w l ρ (.var x f d) ∧
      (bufRepl .undef (dimsOf c.box) (some x) f d).defined = true := by
  have hb := buf_of hx
  rcases h c hd with rfl | rfl | ⟨h0, h⟩
  · exact ⟨by simp [bufRepl, evalS, hb, Obj.field], rfl⟩
  · exact ⟨by simp [bufRepl], rfl⟩
  · rcases h with rfl | rfl | ⟨h, hE⟩
    · have : bufRepl .undef (dimsOf c.box) (some x) .stride d = .var x .stride d := by
        simp only [bufRepl, dimsOf_get]
        split
        · cases c.box[d.toNat]? <;> simp [DimExpr.getField]
        · simp
      rw [this]; exact ⟨rfl, rfl⟩
    · have : bufRepl .undef (dimsOf c.box) (some x) .foldFactor d = .var x .foldFactor d := by
        simp only [bufRepl, dimsOf_get]
        split
        · cases c.box[d.toNat]? <;> simp [DimExpr.getField]
        · simp
      rw [this]; exact ⟨rfl, rfl⟩
    · rcases h with rfl | rfl
      · simp only [bufRepl, dimsOf_get]
        split
        · cases hi : c.box[d.toNat]? with
          | none => simp
          | some i =>
            by_cases hm : i.min.defined = true
            · have := evalS_of_evalI ((hE bx i hx hi).1 hm)
              simp [DimExpr.getField, hm, this, evalS, hb, Obj.field, (ofBuf_ok bx).1]
            · simp [DimExpr.getField, hm]
        · simp
      · simp only [bufRepl, dimsOf_get]
        split
        · cases hi : c.box[d.toNat]? with
          | none => simp
          | some i =>
            by_cases hm : i.max.defined = true
            · have := evalS_of_evalI ((hE bx i hx hi).2 hm)
              simp [DimExpr.getField, hm, this, evalS, hb, Obj.field, (ofBuf_ok bx).1]
            · simp [DimExpr.getField, hm]
        · simp

theorem repl_ok {x : Nat} {c : CropDecl} (hG : ∀ i ∈ c.box, IvOK w l ρ decl i) (f : Field) (d : Int) (h : FieldOK w l ρ decl x f d) (h0 : f ≠ .none) (hd : decl x = some c) :
    ExprOK w l ρ decl (bufRepl .undef (dimsOf c.box) (some x) f d) := by
  have hv : ExprOK w l ρ decl (.var x f d) := ⟨plain_var _ _ _, fun y hy _ => hy ▸ h⟩
  rcases h c hd with rfl | rfl | ⟨_, hh⟩
  · exact ⟨plain_var _ _ _, fun y hy _ c' hc' => Or.inl rfl⟩
  · simpa [bufRepl] using hv
  · have key : ∀ g : Field, (g = .min ∨ g = .max ∨ g = .stride ∨ g = .foldFactor) → ExprOK w l ρ decl (.var x g d) →
        ExprOK w l ρ decl (bufRepl .undef (dimsOf c.box) (some x) g d) := by
      intro g hg' hg
      have e : ∀ D : List DimExpr, bufRepl .undef D (some x) g d = if d < D.length then (match D[d.toNat]? with
          | some dim => if (dim.getField g).defined = true then dim.getField g else .var x g d
          | none => .var x g d) else .var x g d := by
        intro D
        rcases hg' with rfl | rfl | rfl | rfl <;> simp only [bufRepl, Option.isNone_some, Bool.or_false, Option.isSome_some, if_true] <;>
          (split <;> first | (cases D[d.toNat]? <;> rfl) | rfl)
      rw [e, dimsOf_get]
      split
      · cases hi : c.box[d.toNat]? with
        | none => exact hg
        | some i =>
          have hI := hG i (List.mem_of_getElem? hi)
          have : ExprOK w l ρ decl (DimExpr.getField ⟨i.min, i.max, .undef, .undef⟩ g) := by
            rcases hg' with rfl | rfl | rfl | rfl
            · exact hI.2.1
            · exact hI.2.2
            · exact undef_ok
            · exact undef_ok
          simp only [Option.map_some]
          split
          · exact this
          · exact hg
      · exact hg
    rcases hh with rfl | rfl | ⟨rfl | rfl, _⟩
    · exact key _ (by simp) hv
    · exact key _ (by simp) hv
    · exact key _ (by simp) hv
    · exact key _ (by simp) hv

theorem cropS_congr {bs cs : List Interval} : List.Forall₂ (fun i j => ∀ a b, evalIvDefS w l ρ i a b = evalIvDefS w l ρ j a b) bs cs →
    ∀ (d : Nat) (b : Buf), cropS w l ρ d bs b = cropS w l ρ d cs b := by
  intro h
  induction h with
  | nil => intro d b; rfl
  | cons h _ ih =>
    intro d b
    simp only [cropS, h, ih]

theorem isInter_all {P : Expr → Prop} (hm : ∀ op a b, P a → P b → P (mkBin op a b)) : ∀ (as bs ms : List Interval), IsInter as bs ms →
    (∀ i ∈ as, P i.min ∧ P i.max) → (∀ i ∈ bs, P i.min ∧ P i.max) → ∀ m ∈ ms, m.WF ∧ P m.min ∧ P m.max
  | [], [], [], _, _, _ => by simp
  | [], b :: bs, m :: ms, h, ha, hb => by
    intro i hi
    rcases List.mem_cons.1 hi with rfl | hi
    · rw [h.1.1, h.1.2.1]; exact ⟨h.1.2.2, hb b (by simp)⟩
    · exact isInter_all hm [] bs ms h.2 ha (fun j hj => hb j (by simp [hj])) i hi
  | a :: as, [], m :: ms, h, ha, hb => by
    intro i hi
    rcases List.mem_cons.1 hi with rfl | hi
    · rw [h.1.1, h.1.2.1]; exact ⟨h.1.2.2, ha a (by simp)⟩
    · exact isInter_all hm as [] ms h.2 (fun j hj => ha j (by simp [hj])) hb i hi
  | a :: as, b :: bs, m :: ms, h, ha, hb => by
    intro i hi
    rcases List.mem_cons.1 hi with rfl | hi
    · rw [h.1.1, h.1.2.1]
      refine ⟨h.1.2.2, ?_, ?_⟩
      · simp only [Interval.inter]
        split
        · exact hm _ _ _ (ha a (by simp)).1 (hb b (by simp)).1
        · split
          · exact (hb b (by simp)).1
          · exact (ha a (by simp)).1
      · simp only [Interval.inter]
        split
        · exact hm _ _ _ (ha a (by simp)).2 (hb b (by simp)).2
        · split
          · exact (hb b (by simp)).2
          · exact (ha a (by simp)).2
    · exact isInter_all hm as bs ms h.2 (fun j hj => ha j (by simp [hj])) (fun j hj => hb j (by simp [hj])) i hi
  | [], [], _ :: _, h, _, _ => h.elim
  | [], _ :: _, [], h, _, _ => h.elim
  | _ :: _, [], [], h, _, _ => h.elim
  | _ :: _, _ :: _, [], h, _, _ => h.elim

theorem isInter_length : ∀ (as bs ms : List Interval), IsInter as bs ms → ms.length = max as.length bs.length
  | [], [], [], _ => rfl
  | [], b :: bs, m :: ms, h => by have := isInter_length [] bs ms h.2; simp at this ⊢; omega
  | a :: as, [], m :: ms, h => by have := isInter_length as [] ms h.2; simp at this ⊢; omega
  | a :: as, b :: bs, m :: ms, h => by have := isInter_length as bs ms h.2; simp only [List.length_cons]; omega
  | [], [], _ :: _, h => h.elim
  | [], _ :: _, [], h => h.elim
  | _ :: _, [], [], h => h.elim
  | _ :: _, _ :: _, [], h => h.elim

theorem merge_isInter {x : Nat} {bs : List Interval} {c : CropDecl} (hb : ∀ b ∈ bs, b.WF) (hx : ∀ i ∈ bs, (substBufI x (dimsOf c.box) i).WF) (hc : ∀ i ∈ c.box, i.WF) :
    ∃ ms, c.merge x bs = some ms ∧ IsInter c.box (bs.map (substBufI x (dimsOf c.box))) ms := by
  cases c with
  | buffer s cb =>
    exact boxInter_isInter cb (bs.map (substBufI x (dimsOf cb))) _ hc (by simpa [CropDecl.box] using hx) (by simp)
  | dim s d i =>
    have := modify_isInter i (hc i (by simp [CropDecl.box])) d (bs.map (substBufI x (dimsOf (List.replicate d .unbounded ++ [i])))) (by simpa [CropDecl.box] using hx)
    rw [List.length_map] at this
    exact ⟨_, rfl, this⟩

theorem substBufI_wf {x : Nat} {dims : List DimExpr} {i : Interval} (h : i.WF) : (substBufI x dims i).WF := by
  intro hs
  simp only [substBufI] at hs ⊢
  rw [h hs]

/-- The step of the loop. -/
theorem merge_step {x : Nat} {c : CropDecl} {bs : List Interval} {bx b0 b2 : Buf} (hd : decl x = some c) (hx : ρ.buf? x = some bx)
    (hG : ∀ i ∈ c.box, IvOK w l ρ decl i) (hb : ∀ i ∈ bs, IvOK w l ρ decl i) (hs : Solid b0) (hv : c.value w l ρ b0 = some bx)
    (h : cropS w l ρ 0 bs bx = some b2) :
    ∃ ms, c.merge x bs = some ms ∧ cropS w l ρ 0 ms b0 = some b2 ∧ (∀ i ∈ ms, IvOK w l ρ decl i) ∧ ms.length = max c.box.length bs.length := by
  obtain ⟨ms, h1, h2⟩ := merge_isInter (x := x) (fun b hb' => (hb b hb').1) (fun i hi => substBufI_wf (hb i hi).1) fun i hi => (hG i hi).1
  have hE : ∀ e, ExprOK w l ρ decl e → evalS w l ρ (substituteBuffer e x .undef (dimsOf c.box) (some x)) = evalS w l ρ e ∧
      (substituteBuffer e x .undef (dimsOf c.box) (some x)).defined = e.defined :=
    fun e he => substBuf_evalS (fun f d hf hP => repl_val hd hx f d hf hP) e he.1 (he.2 x)
  have hO : ∀ e, ExprOK w l ρ decl e → ExprOK w l ρ decl (substituteBuffer e x .undef (dimsOf c.box) (some x)) :=
    fun e he => subst_ok e he.1 he.2 fun f d h0 hP => repl_ok hG f d hP h0 hd
  refine ⟨ms, h1, ?_, ?_, ?_⟩
  · refine cropS_inter h2 (fun i hi => (hG i hi).1) (fun i hi => ?_) (value_box hs hv) ?_
    · obtain ⟨j, hj, rfl⟩ := List.mem_map.1 hi
      exact substBufI_wf (hb j hj).1
    · rw [← h]
      refine cropS_congr ?_ 0 bx
      rw [List.forall₂_map_left_iff]
      refine List.forall₂_same.2 fun i hi a b => ?_
      rw [evalIvDefS_eq (substBufI_wf (hb i hi).1), evalIvDefS_eq (hb i hi).1]
      simp only [substBufI, evalDefS, evalI, hE _ (hb i hi).2.1, hE _ (hb i hi).2.2]
  · intro i hi
    exact isInter_all (fun op a b ha hb => mkBin_ok ha hb) _ _ _ h2 (fun i hi => (hG i hi).2) (fun i hi => by
      obtain ⟨j, hj, rfl⟩ := List.mem_map.1 hi
      exact ⟨hO _ (hb j hj).2.1, hO _ (hb j hj).2.2⟩) i hi
  · rw [isInter_length _ _ _ h2, List.length_map]

/-! ## The declaration -/

theorem cropS_rank {bs : List Interval} {d : Nat} {b b2 : Buf} (h : cropS w l ρ d bs b = some b2) : b2.rank = b.rank := by
  rw [cropS_eq] at h
  obtain ⟨vs, _, rfl⟩ := Option.map_eq_some_iff.1 h
  exact cropL_rank vs d b

theorem cropS_solid {bs : List Interval} {d : Nat} {b b2 : Buf} (hs : Solid b) (h : cropS w l ρ d bs b = some b2) : Solid b2 := by
  rw [cropS_eq] at h
  obtain ⟨vs, _, rfl⟩ := Option.map_eq_some_iff.1 h
  exact cropL_solid vs d hs

theorem cropS_beyond {d : Nat} {b : Buf} (h : b.rank ≤ d) (bs : List Interval) : cropS w l ρ d bs b = some b := by
  cases bs with
  | nil => rfl
  | cons i is => simp only [cropS, if_neg (Nat.not_lt.2 h)]

theorem cropS_append : ∀ (as bs : List Interval) (d : Nat) (b : Buf),
    cropS w l ρ d (as ++ bs) b = (cropS w l ρ d as b).bind fun b' => cropS w l ρ (d + as.length) bs b'
  | [], bs, d, b => rfl
  | a :: as, bs, d, b => by
    simp only [List.cons_append, cropS, List.length_cons]
    split
    · simp only [Option.bind_eq_bind, Option.bind_assoc]
      congr 1; funext v
      rw [cropS_append, show d + 1 + as.length = d + (as.length + 1) by omega]
    · rw [Option.bind_some, cropS_beyond (by omega)]

theorem undef_eval {i : Interval} (h : i.WF) (h1 : i.min.defined = false) (h2 : i.max.defined = false) (a b : Int) :
    evalIvDefS w l ρ i a b = some (a, b) := by
  rw [evalIvDefS_eq h]
  simp [evalDefS, h1, h2]

theorem cropS_undef {b : Buf} (hs : Solid b) : ∀ (us : List Interval) (d : Nat), (∀ i ∈ us, i.WF ∧ i.min.defined = false ∧ i.max.defined = false) →
    cropS w l ρ d us b = some b
  | [], _, _ => rfl
  | i :: us, d, h => by
    obtain ⟨h0, h1, h2⟩ := h i (by simp)
    simp only [cropS]
    split
    · rw [undef_eval h0 h1 h2]
      simp only [Option.bind_eq_bind, Option.bind_some]
      rw [crop_self hs]
      exact cropS_undef hs us (d + 1) fun j hj => h j (by simp [hj])
    · rfl

theorem popUndefI_split (bs : List Interval) : ∃ us, bs = popUndefI bs ++ us ∧ ∀ i ∈ us, i.min.defined = false ∧ i.max.defined = false := by
  refine ⟨(bs.reverse.takeWhile fun i => !i.min.defined && !i.max.defined).reverse, ?_, fun i hi => ?_⟩
  · rw [popUndefI, ← List.reverse_append, List.takeWhile_append_dropWhile, List.reverse_reverse]
  · have := List.mem_takeWhile_imp (List.mem_reverse.1 hi)
    simpa using this

theorem popUndefI_last {bs : List Interval} {i : Interval} (h : (popUndefI bs).getLast? = some i) : i.min.defined = true ∨ i.max.defined = true := by
  rw [popUndefI, List.getLast?_reverse] at h
  have := List.head?_dropWhile_not (fun i : Interval => !i.min.defined && !i.max.defined) bs.reverse
  rw [h] at this
  simpa [or_iff_not_imp_left] using this

/-- The new declaration declares the crop to the bounds. -/
theorem makeCrop_val {src y : Nat} {ms : List Interval} {b b2 : Buf} (hy : y ≠ src) (hb : ρ.buf? src = some b) (hs : Solid b) (hw : ∀ i ∈ ms, i.WF)
    (hl : ms.length ≤ b.rank) (h : cropS w l ρ 0 ms b = some b2) :
    match makeCrop src ms with
    | none => b2 = b
    | some hd => hd.val w l ρ y = some (some b2) := by
  obtain ⟨us, e, hu⟩ := popUndefI_split ms
  have hp : cropS w l ρ 0 (popUndefI ms) b = some b2 := by
    rw [e, cropS_append] at h
    obtain ⟨b1, h1, h2⟩ := Option.bind_eq_some_iff.1 h
    rw [cropS_undef (cropS_solid hs h1) us _ fun i hi => ⟨hw i (e ▸ by simp [hi]), hu i hi⟩] at h2
    rw [h1, h2]
  have hw' : ∀ i ∈ popUndefI ms, i.WF := fun i hi => hw i (e ▸ by simp [hi])
  have hl' : (popUndefI ms).length ≤ b.rank := by
    have := congrArg List.length e
    rw [List.length_append] at this
    omega
  cases hg : (popUndefI ms).getLast? with
  | none =>
    simp only [makeCrop, hg]
    rw [List.getLast?_eq_none_iff.1 hg] at hp
    exact (Option.some.inj hp).symm
  | some i =>
    simp only [makeCrop, hg]
    have hi := popUndefI_last hg
    obtain ⟨is, e2⟩ : ∃ is, popUndefI ms = is ++ [i] := by
      obtain ⟨hne, hl⟩ := List.getLast?_eq_some_iff.1 hg
      exact ⟨_, hl⟩
    generalize popUndefI ms = ps at *
    subst e2
    by_cases hc : countDef (is ++ [i]) = 1
    · simp only [hc, if_true]
      have h0 : ∀ j ∈ is, j.min.defined = false ∧ j.max.defined = false := by
        intro j hj
        simp only [countDef, List.countP_append, List.countP_cons, List.countP_nil] at hc
        have : (i.min.defined || i.max.defined) = true := by simpa using hi
        rw [if_pos this] at hc
        have hz : List.countP (fun i : Interval => i.min.defined || i.max.defined) is = 0 := by omega
        simpa using List.countP_eq_zero.1 hz j hj
      rw [cropS_append, cropS_undef hs is 0 fun j hj => ⟨hw' j (by simp [hj]), h0 j hj⟩] at hp
      simp only [Option.bind_some, Nat.zero_add, cropS, Option.bind_eq_bind] at hp
      rw [if_pos (by simp at hl'; omega)] at hp
      obtain ⟨v, h1, h2⟩ := Option.bind_eq_some_iff.1 hp
      simp only [Head.val, hb, Option.bind_some, List.length_append, List.length_singleton, Nat.add_sub_cancel, h1, Option.map_some]
      exact congrArg (fun z => some (some z)) (Option.some.inj h2)
    · simp only [hc, if_false]
      simp only [Head.val, hb, Option.bind_some, hp]
      rw [if_pos fun e => absurd e hy]

/-! ## The loop -/

/-- C59: the crop of `x` to `bs` is the crop of the buffer that `x` is a crop of (and so on) to the bounds that the simplifier computes. -/
theorem mergeCrops_val (hD : Declared w l ρ decl) (hG : ∀ x c, decl x = some c → ∀ i ∈ c.box, IvOK w l ρ decl i) : ∀ (n x : Nat) (bs : List Interval) (b b2 : Buf),
    ρ.buf? x = some b → Solid b → (∀ i ∈ bs, IvOK w l ρ decl i) → bs.length ≤ b.rank → cropS w l ρ 0 bs b = some b2 →
    ∃ src ms b0, mergeCrops decl n x bs = some (src, ms) ∧ ρ.buf? src = some b0 ∧ Solid b0 ∧ cropS w l ρ 0 ms b0 = some b2 ∧
      (∀ i ∈ ms, IvOK w l ρ decl i) ∧ ms.length ≤ b0.rank
  | 0, x, bs, b, b2, hx, hs, hb, hl, h => ⟨x, bs, b, rfl, hx, hs, h, hb, hl⟩
  | n + 1, x, bs, b, b2, hx, hs, hb, hl, h => by
    simp only [mergeCrops]
    cases hd : decl x with
    | none => exact ⟨x, bs, b, rfl, hx, hs, h, hb, hl⟩
    | some c =>
      obtain ⟨b0, bx, h1, h2, h3, h4, h5⟩ := hD x c hd
      rw [hx] at h2
      obtain rfl := Option.some.inj h2
      obtain ⟨ms, k1, k2, k3, k4⟩ := merge_step hd hx (hG x c hd) hb h3 h4 h
      have hr : b.rank = b0.rank := cropS_rank (value_box h3 h4)
      simp only [k1, Option.bind_some]
      exact mergeCrops_val hD hG n c.src ms b0 b2 h1 h3 k3 (by rw [k4]; omega) k2

/-- C59: a crop, of a crop or not, declares the same buffer as what the simplifier makes of it.

Assumed: the declarations `decl` are true; a buffer with memory has no empty dimension (`Solid`); only dimensions that the buffers have are cropped; the
bounds have no `let` or `buffer_at`, do not use the size of a cropped buffer, and use the bounds of a cropped buffer only where the crop is inside of the
buffer (`IvOK`); no symbol is declared by a crop of itself. -/
theorem crop_of_crop_partial (hD : Declared w l ρ decl) (hG : ∀ x c, decl x = some c → ∀ i ∈ c.box, IvOK w l ρ decl i) (n y : Nat) (c : CropDecl) (b b2 : Buf)
    (hx : ρ.buf? c.src = some b) (hs : Solid b) (hc : ∀ i ∈ c.box, IvOK w l ρ decl i) (hl : c.box.length ≤ b.rank)
    (h : c.head.val w l ρ y = some (some b2)) :
    ∃ src ms, mergeCrops decl n c.src c.box = some (src, ms) ∧ (y ≠ src → match makeCrop src ms with
      | none => ρ.buf? src = some b2
      | some hd => hd.val w l ρ y = some (some b2)) := by
  have hv : c.value w l ρ b = some b2 := by
    cases c with
    | buffer s bs =>
      simp only [CropDecl.head, Head.val, CropDecl.src] at h hx
      simp only [hx, Option.bind_some] at h
      obtain ⟨b', h1, h2⟩ := Option.bind_eq_some_iff.1 h
      split at h2
      · simp only [Option.some.injEq] at h2
        subst h2; exact h1
      · cases h2
    | dim s d i =>
      simp only [CropDecl.head, Head.val, CropDecl.src] at h hx
      simp only [hx, Option.bind_some] at h
      obtain ⟨v, h1, h2⟩ := Option.map_eq_some_iff.1 h
      simp only [Option.some.injEq] at h2
      simp only [CropDecl.value, h1, Option.map_some, h2]
  obtain ⟨src, ms, b0, k1, k2, k3, k4, k5, k6⟩ := mergeCrops_val hD hG n c.src c.box b b2 hx hs hc hl (value_box hs hv)
  refine ⟨src, ms, k1, fun hy => ?_⟩
  have := makeCrop_val hy k2 k3 (fun i hi => (k5 i hi).1) k6 k4
  cases hm : makeCrop src ms with
  | none => rw [hm] at this; simp only at this ⊢; rw [k2, this]
  | some hd => rw [hm] at this; exact this

/-- C59: the statement does the same. If the crop does nothing, its symbol is another name of the buffer. -/
theorem crop_of_crop_sem_partial (hD : Declared w l ρ decl) (hG : ∀ x c, decl x = some c → ∀ i ∈ c.box, IvOK w l ρ decl i) (n y : Nat) (c : CropDecl) (b b2 : Buf)
    (hx : ρ.buf? c.src = some b) (hs : Solid b) (hc : ∀ i ∈ c.box, IvOK w l ρ decl i) (hl : c.box.length ≤ b.rank)
    (h : c.head.val w l ρ y = some (some b2)) (body : Stmt) (sk : Bool) :
    ∃ src ms, mergeCrops decl n c.src c.box = some (src, ms) ∧ (y ≠ src →
      sem w sk (((makeCrop src ms).getD (.cloneBuffer src)).stmt y body) ρ l = sem w sk (c.head.stmt y body) ρ l) := by
  obtain ⟨src, ms, h1, h2⟩ := crop_of_crop_partial hD hG n y c b b2 hx hs hc hl h
  refine ⟨src, ms, h1, fun hy => ?_⟩
  have h3 := h2 hy
  rw [sem_head, sem_head, h]
  cases hm : makeCrop src ms with
  | none => rw [hm] at h3; simp only [Option.getD_none, Head.val] at h3 ⊢; rw [h3]; rfl
  | some hd => rw [hm] at h3; simp only [Option.getD_some] at h3 ⊢; rw [h3]

end Slinky.VW
