import Verif.ViewsCrop

/-!
# C59: slices of crops
-/

namespace Slinky.VW

open Slinky

variable {w : World} {l : List Ev} {ρ : SEnv} {decl : Nat → Option CropDecl}

/-- The slice, given the indices. -/
def sliceV : List (Option Int) → List Dim → Option Int → Option Int × List Dim
  | _, [], p => (p, [])
  | [], d :: ds, p => (p, d :: ds)
  | some x :: xs, d :: ds, p => sliceV xs ds (sliceBase p d x)
  | none :: xs, d :: ds, p => ((sliceV xs ds p).1, d :: (sliceV xs ds p).2)

/-- The index of an expression. -/
def IsIndex (w : World) (l : List Ev) (ρ : SEnv) (e : Expr) (x : Option Int) : Prop :=
  if e.defined = true then evalI w l ρ e = x ∧ x ≠ none else x = none

theorem sliceS_nil (p : Option Int) : ∀ ds : List Dim, sliceS w l ρ [] ds p = some (p, ds)
  | [] => rfl
  | d :: ds => by simp only [sliceS, sliceS_nil p ds, Option.map_some]

theorem sliceS_eq {es : List Expr} {xs : List (Option Int)} (h : List.Forall₂ (IsIndex w l ρ) es xs) : ∀ (ds : List Dim) (p : Option Int),
    sliceS w l ρ es ds p = some (sliceV xs ds p) := by
  induction h with
  | nil => intro ds p; rw [sliceS_nil]; cases ds <;> rfl
  | @cons e x es xs h _ ih =>
    intro ds p
    cases ds with
    | nil => rfl
    | cons d ds =>
      unfold IsIndex at h
      split at h
      · rename_i he
        obtain ⟨h1, h2⟩ := h
        cases x with
        | none => exact absurd rfl h2
        | some x =>
          cases p with
          | none => simp only [sliceS, he, if_true, sliceV, sliceBase, ih]
          | some q =>
            simp only [sliceS, he, if_true, sliceV, sliceBase, h1, Option.bind_eq_bind, Option.bind_some]
            rw [ih]
      · rename_i he
        subst h
        simp only [sliceS, he, if_false, sliceV, ih, Option.map_some]
        rfl

/-- The dimension after a crop. -/
def clipD (D : Dim) (v : Int × Int) : Dim := ⟨max v.1 D.min, min v.2 D.max, D.stride, D.fold⟩

/-- The crop does not change what is at index `i`. -/
def KeepsAt (D : Dim) (v : Int × Int) (i : Int) : Prop :=
  (v.1 ≤ i ∨ v.1 ≤ D.min) ∧ (i ≤ v.2 ∨ D.max ≤ v.2) ∧ (D.stride ≠ 0 ∨ (D.min ≤ i ∧ i ≤ D.max))

theorem contains_iff (D : Dim) (i : Int) : D.contains i = true ↔ D.stride = 0 ∨ (D.min ≤ i ∧ i ≤ D.max) := by
  simp [Dim.contains, Dim.containsI]

theorem slice_crop_base {D : Dim} {v : Int × Int} {i : Int} (h : KeepsAt D v i) (p : Option Int) :
    sliceBase (cropBase p D v.1 v.2) (clipD D v) i = sliceBase p D i := by
  obtain ⟨h1, h2, h3⟩ := h
  cases p with
  | none => rfl
  | some p =>
    by_cases hin : D.min ≤ i ∧ i ≤ D.max
    · have hc : D.contains i = true := (contains_iff D i).2 (Or.inr hin)
      have hc' : (clipD D v).contains i = true := (contains_iff _ i).2 (Or.inr (by simp only [clipD]; omega))
      have hne : min v.2 D.max ≥ max v.1 D.min := by omega
      simp only [cropBase, hne, if_true]
      by_cases hf : D.fold = Dim.unfolded
      · simp only [hf, if_true, sliceBase, hc, hc']
        simp only [Dim.flatOffset, clipD, hf, or_true, if_true, Option.some.injEq]
        ring
      · simp only [hf, if_false, sliceBase, hc, hc', if_true]
        simp only [Dim.flatOffset, clipD, hf, or_false]
        split
        · rename_i hs; simp [hs]
        · rfl
    · have hs : D.stride ≠ 0 := h3.resolve_right hin
      have hc : D.contains i = false := by
        rw [Bool.eq_false_iff]; intro hc
        rcases (contains_iff D i).1 hc with h | h
        · exact hs h
        · exact hin h
      have hc' : (clipD D v).contains i = false := by
        rw [Bool.eq_false_iff]; intro hc
        rcases (contains_iff _ i).1 hc with h | h
        · exact hs h
        · simp only [clipD] at h; exact hin (by omega)
      cases hb : cropBase (some p) D v.1 v.2 with
      | none => simp [sliceBase, hc]
      | some q => simp [sliceBase, hc, hc']

theorem crop_slice_comm (p : Option Int) (D E : Dim) (v : Int × Int) (x : Int) :
    sliceBase (cropBase p D v.1 v.2) E x = cropBase (sliceBase p E x) D v.1 v.2 := by
  cases p with
  | none => rfl
  | some p =>
    by_cases h1 : min v.2 D.max ≥ max v.1 D.min <;> by_cases h2 : E.contains x = true <;> by_cases h3 : D.fold = Dim.unfolded <;>
      simp [cropBase, sliceBase, h1, h2, h3]
    ring

theorem sliceV_crop {D : Dim} {v : Int × Int} {i : Int} (hk : KeepsAt D v i) : ∀ (d : Nat) (xs : List (Option Int)) (ds : List Dim) (p : Option Int),
    xs[d]? = some (some i) → ds[d]? = some D → sliceV xs (ds.set d (clipD D v)) (cropBase p D v.1 v.2) = sliceV xs ds p
  | 0, x :: xs, E :: ds, p, hx, hd => by
    simp only [List.getElem?_cons_zero, Option.some.injEq] at hx hd
    subst hx; subst hd
    simp only [List.set_cons_zero, sliceV, slice_crop_base hk]
  | d + 1, x :: xs, E :: ds, p, hx, hd => by
    simp only [List.getElem?_cons_succ] at hx hd
    cases x with
    | none => simp only [List.set_cons_succ, sliceV, sliceV_crop hk d xs ds p hx hd]
    | some x => simp only [List.set_cons_succ, sliceV, crop_slice_comm, sliceV_crop hk d xs ds _ hx hd]
  | _, [], _, _, hx, _ => by simp at hx
  | _, _ :: _, [], _, _, hd => by simp at hd

theorem sliceV_cropL {xs : List (Option Int)} : ∀ (vs : List (Int × Int)) (d : Nat) (b : Buf), Solid b →
    (∀ (k : Nat) (v : Int × Int), vs[k]? = some v → d + k < b.rank → (∃ i, xs[d + k]? = some (some i) ∧ KeepsAt (b.dim (d + k)) v i) ∨
      v = ((b.dim (d + k)).min, (b.dim (d + k)).max)) →
    sliceV xs (cropL d vs b).dims (cropL d vs b).base = sliceV xs b.dims b.base
  | [], _, _, _, _ => rfl
  | v :: vs, d, b, hs, h => by
    simp only [cropL]
    rw [sliceV_cropL vs (d + 1) (b.crop d v.1 v.2) (crop_solid hs d _ _) ?_]
    · by_cases hd : d < b.rank
      · rcases h 0 v rfl hd with ⟨i, hi, hk⟩ | rfl
        · rw [crop_eq _ _ _ _ (by omega)]
          exact sliceV_crop hk d xs b.dims b.base hi (dim_eq b d hd)
        · simp only [Nat.add_zero, crop_self hs]
      · rw [crop_broadcast b d _ _ (by omega)]
    · intro k u hu hk
      rw [(crop_other b d _ _).2.1] at hk
      have e : (b.crop d v.1 v.2).dim (d + 1 + k) = b.dim (d + 1 + k) := (crop_other b d _ _).1 _ (by omega)
      rw [e]
      have := h (k + 1) u hu (by omega)
      rw [show d + (k + 1) = d + 1 + k by omega] at this
      exact this

theorem boxS_get : ∀ (is : List Interval) (ds : List Dim) (vs : List (Int × Int)), boxS w l ρ is ds = some vs → ∀ (k : Nat) (v : Int × Int), vs[k]? = some v →
    ∃ (i : Interval) (D : Dim), is[k]? = some i ∧ ds[k]? = some D ∧ evalIvDefS w l ρ i D.min D.max = some v
  | [], ds, vs, h, k, v, hv => by rw [boxS_nil] at h; obtain rfl := Option.some.inj h; simp at hv
  | i :: is, [], vs, h, k, v, hv => by simp only [boxS] at h; obtain rfl := Option.some.inj h; simp at hv
  | i :: is, D :: ds, vs, h, k, v, hv => by
    simp only [boxS] at h
    simp only [Option.bind_eq_bind, Option.bind_eq_some_iff, Option.map_eq_some_iff] at h
    obtain ⟨u, h1, us, h2, rfl⟩ := h
    cases k with
    | zero => simp at hv; subst hv; exact ⟨i, D, rfl, rfl, h1⟩
    | succ k => exact boxS_get is ds us h2 k v hv

theorem unaffected_get {prove : Expr → Bool} : ∀ (is : List Interval) (es : List Expr), unaffected prove is es = true → ∀ (k : Nat) (i : Interval), is[k]? = some i →
    (i.min.defined = false ∧ i.max.defined = false) ∨ ∃ e, es[k]? = some e ∧ prove (i.contains e) = true
  | [], _, _, k, i, hi => by simp at hi
  | j :: is, [], h, k, i, hi => by
    simp only [unaffected, Bool.and_eq_true, Bool.not_eq_true', Bool.or_eq_false_iff] at h
    cases k with
    | zero => simp at hi; subst hi; exact Or.inl h.1
    | succ k =>
      rcases unaffected_get is [] h.2 k i hi with h' | ⟨e, he, _⟩
      · exact Or.inl h'
      · simp at he
  | j :: is, e :: es, h, k, i, hi => by
    simp only [unaffected, Bool.and_eq_true] at h
    cases k with
    | zero => simp at hi; subst hi; exact Or.inr ⟨e, rfl, h.1⟩
    | succ k => exact unaffected_get is es h.2 k i hi

theorem CropDecl.unaffected_get {prove : Expr → Bool} {es : List Expr} {c : CropDecl} (h : c.unaffected prove es = true) (k : Nat) (i : Interval)
    (hi : c.box[k]? = some i) : (i.min.defined = false ∧ i.max.defined = false) ∨ ∃ e, es[k]? = some e ∧ prove (i.contains e) = true := by
  cases c with
  | buffer s cb => exact VW.unaffected_get cb es h k i hi
  | dim s d c =>
    simp only [CropDecl.box] at hi
    rcases Nat.lt_trichotomy k d with hk | rfl | hk
    · rw [List.getElem?_append_left (by simpa using hk), List.getElem?_replicate, if_pos hk] at hi
      obtain rfl := Option.some.inj hi
      exact Or.inl ⟨rfl, rfl⟩
    · rw [List.getElem?_append_right (by simp)] at hi
      simp at hi; subst hi
      simp only [CropDecl.unaffected] at h
      cases he : es[k]? with
      | none => rw [he] at h; simp at h; exact Or.inl h
      | some e => rw [he] at h; exact Or.inr ⟨e, rfl, h⟩
    · rw [List.getElem?_append_right (by simp; omega)] at hi
      rw [List.getElem?_eq_none (by simp; omega)] at hi
      cases hi

theorem evalI_bin {op : BinOp} {a b : Expr} {x y : Int} (ha : evalI w l ρ a = some x) (hb : evalI w l ρ b = some y) :
    evalI w l ρ (mkBin op a b) = op.machine x y := by
  unfold evalI
  rw [evalS_mkBin]
  simp only [evalS, evalS_of_evalI ha, evalS_of_evalI hb, Option.bind_some, Val.int?]
  cases op.machine x y <;> rfl

/-- The index is in the crop. -/
theorem contains_sound {i : Interval} (hw : i.WF) {e : Expr} {x : Int} {D : Dim} {v : Int × Int} (hx : evalI w l ρ e = some x)
    (hv : evalIvDefS w l ρ i D.min D.max = some v) (hP : ∀ u, evalI w l ρ (i.contains e) = some u → u ≠ 0) :
    (v.1 ≤ x ∨ v.1 ≤ D.min) ∧ (x ≤ v.2 ∨ D.max ≤ v.2) := by
  rw [evalIvDefS_eq hw] at hv
  simp only [Option.bind_eq_bind, Option.bind_eq_some_iff, Option.map_eq_some_iff] at hv
  obtain ⟨a, ha, c, hc, rfl⟩ := hv
  by_cases h1 : i.min.defined = true <;> by_cases h2 : i.max.defined = true
  · simp only [evalDefS, h1, h2, if_true] at ha hc
    have k1 := evalI_bin (op := .le) ha hx
    have k2 := evalI_bin (op := .le) hx hc
    have k3 := evalI_bin (op := .and) k1 k2
    have := hP _ (by simp only [Interval.contains, h1, h2, Bool.and_true, if_true]; exact k3)
    have e3 : ¬ ((if (if a ≤ x then (1 : Int) else 0) ≠ 0 ∧ (if x ≤ c then (1 : Int) else 0) ≠ 0 then (1 : Int) else 0) = 0) := this
    refine ⟨Or.inl ?_, Or.inl ?_⟩
    · by_contra hn; apply e3; simp [show ¬ a ≤ x from hn]
    · by_contra hn; apply e3; simp [show ¬ x ≤ c from hn]
  · simp only [evalDefS, h1, h2, if_true, if_false] at ha hc
    have k1 := evalI_bin (op := .le) ha hx
    have := hP _ (by simp only [Interval.contains, h1, h2, Bool.true_and, if_true, if_false]; exact k1)
    obtain rfl := Option.some.inj hc
    split at this
    · rename_i h; exact ⟨Or.inl h, Or.inr (le_refl _)⟩
    · exact absurd rfl this
  · simp only [evalDefS, h1, h2, if_true, if_false] at ha hc
    have k1 := evalI_bin (op := .le) hx hc
    have := hP _ (by simp only [Interval.contains, h1, h2, Bool.false_and, if_true, if_false]; exact k1)
    obtain rfl := Option.some.inj ha
    split at this
    · rename_i h; exact ⟨Or.inr (le_refl _), Or.inl h⟩
    · exact absurd rfl this
  · simp only [evalDefS, h1, h2, if_false] at ha hc
    obtain rfl := Option.some.inj ha
    obtain rfl := Option.some.inj hc
    exact ⟨Or.inr (le_refl _), Or.inr (le_refl _)⟩

/-! ## The loop -/

/-- All indices can be evaluated. -/
def IndicesOK (w : World) (l : List Ev) (ρ : SEnv) (es : List Expr) : Prop := ∀ e ∈ es, e.defined = true → ∃ v, evalI w l ρ e = some v

/-- The indices. -/
def indices (w : World) (l : List Ev) (ρ : SEnv) (es : List Expr) : List (Option Int) := es.map fun e => if e.defined = true then evalI w l ρ e else none

theorem indices_ok {es : List Expr} (h : IndicesOK w l ρ es) : List.Forall₂ (IsIndex w l ρ) es (indices w l ρ es) := by
  rw [indices, List.forall₂_map_right_iff]
  refine List.forall₂_same.2 fun e he => ?_
  unfold IsIndex
  split
  · rename_i hd
    obtain ⟨v, hv⟩ := h e he hd
    exact ⟨rfl, by rw [hv]; simp⟩
  · rfl

/-- No broadcast is sliced at an index that is not in its bounds. -/
def InBroadcasts (w : World) (l : List Ev) (ρ : SEnv) (es : List Expr) (b : Buf) : Prop :=
  ∀ d e v, es[d]? = some e → evalI w l ρ e = some v → d < b.rank → (b.dim d).stride ≠ 0 ∨ ((b.dim d).min ≤ v ∧ v ≤ (b.dim d).max)

/-- The step of the loop. -/
theorem slice_step {prove : Expr → Bool} {es : List Expr} {c : CropDecl} {b bx : Buf} (hw : ∀ i ∈ c.box, i.WF) (hs : Solid b)
    (hv : c.value w l ρ b = some bx) (he : IndicesOK w l ρ es) (hB : InBroadcasts w l ρ es b)
    (hP : ∀ e u, prove e = true → evalI w l ρ e = some u → u ≠ 0)
    (hU : ∀ i : Interval, prove (i.contains .undef) = true → i.min.defined = false ∧ i.max.defined = false)
    (hu : c.unaffected prove es = true) : sliceS w l ρ es bx.dims bx.base = sliceS w l ρ es b.dims b.base := by
  have h1 := value_box hs hv
  rw [cropS_eq] at h1
  obtain ⟨vs, h2, rfl⟩ := Option.map_eq_some_iff.1 h1
  rw [sliceS_eq (indices_ok he), sliceS_eq (indices_ok he)]
  refine congrArg some (sliceV_cropL vs 0 b hs fun k v hk hr => ?_)
  obtain ⟨i, D, hi, hD, hv'⟩ := boxS_get _ _ _ h2 k v hk
  simp only [Nat.zero_add, List.drop_zero] at hr hD ⊢
  have eD : b.dim k = D := by rw [Buf.dim, hD]; rfl
  rw [eD]
  have hW := hw i (List.mem_of_getElem? hi)
  have hun : i.min.defined = false ∧ i.max.defined = false → v = (D.min, D.max) := by
    rintro ⟨u1, u2⟩
    rw [undef_eval hW u1 u2] at hv'
    exact (Option.some.inj hv').symm
  rcases CropDecl.unaffected_get hu k i hi with h | ⟨e, hke, hp⟩
  · exact Or.inr (hun h)
  · by_cases hd : e.defined = true
    · obtain ⟨x, hx⟩ := he e (List.mem_of_getElem? hke) hd
      have hc := contains_sound hW hx hv' (hP _ · hp)
      have hb := hB k e x hke hx hr
      rw [eD] at hb
      exact Or.inl ⟨x, by simp [indices, hke, hd, hx], hc.1, hc.2, hb⟩
    · obtain rfl := undef_of (by simpa using hd)
      exact Or.inr (hun (hU i hp))

theorem cropL_elem : ∀ (vs : List (Int × Int)) (d : Nat) (b : Buf), (cropL d vs b).elem = b.elem
  | [], _, _ => rfl
  | v :: vs, d, b => by rw [cropL, cropL_elem vs (d + 1), (crop_other b d _ _).2.2]

/-- C59: a slice of a crop is the same slice of the buffer that the simplifier chooses instead. -/
theorem sliceSrc_val {prove : Expr → Bool} {es : List Expr} (hD : Declared w l ρ decl) (hw : ∀ x c, decl x = some c → ∀ i ∈ c.box, i.WF)
    (he : IndicesOK w l ρ es) (hB : ∀ x b, ρ.buf? x = some b → InBroadcasts w l ρ es b) (hP : ∀ e u, prove e = true → evalI w l ρ e = some u → u ≠ 0)
    (hU : ∀ i : Interval, prove (i.contains .undef) = true → i.min.defined = false ∧ i.max.defined = false) : ∀ (n x : Nat) (b : Buf), ρ.buf? x = some b →
    ∃ b0, ρ.buf? (sliceSrc prove decl es n x) = some b0 ∧ b0.elem = b.elem ∧ sliceS w l ρ es b0.dims b0.base = sliceS w l ρ es b.dims b.base
  | 0, x, b, hx => ⟨b, hx, rfl, rfl⟩
  | n + 1, x, b, hx => by
    simp only [sliceSrc]
    cases hd : decl x with
    | none => exact ⟨b, hx, rfl, rfl⟩
    | some c =>
      simp only
      split
      · rename_i hu
        obtain ⟨b0, bx, h1, h2, h3, h4, h5⟩ := hD x c hd
        rw [hx] at h2
        obtain rfl := Option.some.inj h2
        obtain ⟨b1, k1, k2, k3⟩ := sliceSrc_val hD hw he hB hP hU n c.src b0 h1
        refine ⟨b1, k1, ?_, ?_⟩
        · rw [k2]
          have := value_box h3 h4
          rw [cropS_eq] at this
          obtain ⟨vs, _, rfl⟩ := Option.map_eq_some_iff.1 this
          exact (cropL_elem vs 0 b0).symm
        · rw [k3, slice_step (hw x c hd) h3 h4 he (hB _ b0 h1) hP hU hu]
      · exact ⟨b, hx, rfl, rfl⟩

/-! ## The declaration -/

theorem sliceV_none : ∀ (n : Nat) (ds : List Dim) (p : Option Int), sliceV (List.replicate n none) ds p = (p, ds)
  | 0, ds, p => by cases ds <;> rfl
  | n + 1, [], p => by simp [List.replicate_succ, sliceV]
  | n + 1, d :: ds, p => by simp [List.replicate_succ, sliceV, sliceV_none n ds p]

theorem sliceV_nil (p : Option Int) (xs : List (Option Int)) : sliceV xs [] p = (p, []) := by
  cases xs with
  | nil => rfl
  | cons x xs => cases x <;> rfl

theorem sliceV_append_none (n : Nat) : ∀ (xs : List (Option Int)) (ds : List Dim) (p : Option Int),
    sliceV (xs ++ List.replicate n none) ds p = sliceV xs ds p
  | [], ds, p => by rw [List.nil_append, sliceV_none]; cases ds <;> rfl
  | x :: xs, [], p => by rw [sliceV_nil, sliceV_nil]
  | some x :: xs, d :: ds, p => by simp only [List.cons_append, sliceV, sliceV_append_none n xs]
  | none :: xs, d :: ds, p => by simp only [List.cons_append, sliceV, sliceV_append_none n xs]

theorem sliceV_take : ∀ (xs : List (Option Int)) (ds : List Dim) (p : Option Int), sliceV (xs.take ds.length) ds p = sliceV xs ds p
  | xs, [], p => by rw [sliceV_nil, sliceV_nil]
  | [], d :: ds, p => by simp
  | some x :: xs, d :: ds, p => by simp only [List.length_cons, List.take_succ_cons, sliceV, sliceV_take xs ds]
  | none :: xs, d :: ds, p => by simp only [List.length_cons, List.take_succ_cons, sliceV, sliceV_take xs ds]

theorem sliceV_one (x : Int) : ∀ (n : Nat) (ds : List Dim) (p : Option Int), sliceV (List.replicate n none ++ [some x]) ds p =
    (match ds[n]? with
      | none => p
      | some D => sliceBase p D x, ds.eraseIdx n)
  | n, [], p => by rw [sliceV_nil]; simp
  | 0, d :: ds, p => by
    simp only [List.replicate_zero, List.nil_append, sliceV, List.getElem?_cons_zero, List.eraseIdx_cons_zero]
    cases ds <;> rfl
  | n + 1, d :: ds, p => by
    rw [List.replicate_succ, List.cons_append]
    simp only [sliceV, sliceV_one x n ds p, List.getElem?_cons_succ, List.eraseIdx_cons_succ]

theorem clearBcast_id {bcast : Nat → Bool} : ∀ (es : List Expr) (d : Nat), (∀ k e, es[k]? = some e → e.defined = true → bcast (d + k) = false) →
    clearBcast bcast d es = es
  | [], _, _ => rfl
  | e :: es, d, h => by
    simp only [clearBcast]
    rw [clearBcast_id es (d + 1) fun k e' hk hd => by have := h (k + 1) e' hk hd; rwa [show d + (k + 1) = d + 1 + k by omega] at this]
    by_cases he : e.defined = true
    · have := h 0 e rfl he
      simp only [Nat.add_zero] at this
      simp [this]
    · simp [he]

theorem popUndefE_split (es : List Expr) : ∃ n, es = popUndefE es ++ List.replicate n .undef := by
  refine ⟨(es.reverse.takeWhile fun e => !e.defined).length, ?_⟩
  have h : (es.reverse.takeWhile fun e => !e.defined) = List.replicate (es.reverse.takeWhile fun e => !e.defined).length .undef := by
    refine List.eq_replicate_iff.2 ⟨rfl, fun e he => undef_of ?_⟩
    have := List.mem_takeWhile_imp he
    simpa using this
  rw [popUndefE, ← List.reverse_replicate, ← h, ← List.reverse_append, List.takeWhile_append_dropWhile, List.reverse_reverse]

theorem popUndefE_last {es : List Expr} {e : Expr} (h : (popUndefE es).getLast? = some e) : e.defined = true := by
  rw [popUndefE, List.getLast?_reverse] at h
  have := List.head?_dropWhile_not (fun e : Expr => !e.defined) es.reverse
  rw [h] at this
  simpa using this

theorem sliceDim_val {src y d : Nat} {e : Expr} {b : Buf} (hb : ρ.buf? src = some b) (he : e.defined = true) {x : Int} (hx : evalI w l ρ e = some x) :
    (Head.sliceDim src d e).val w l ρ y = (sliceS w l ρ (List.replicate d .undef ++ [e]) b.dims b.base).map fun r => some ⟨r.1, b.elem, r.2⟩ := by
  have hI : IndicesOK w l ρ (List.replicate d .undef ++ [e]) := by
    intro e' he' hd
    rcases List.mem_append.1 he' with h | h
    · rw [List.eq_of_mem_replicate h] at hd; cases hd
    · rw [List.mem_singleton.1 h]; exact ⟨x, hx⟩
  have ei : indices w l ρ (List.replicate d .undef ++ [e]) = List.replicate d none ++ [some x] := by
    simp [indices, he, hx]
  rw [sliceS_eq (indices_ok hI), ei, sliceV_one]
  simp only [Head.val, hb, Option.bind_some, Option.map_some]
  by_cases hd : d ≥ b.rank
  · rw [if_pos hd]
    have h1 : b.dims[d]? = none := List.getElem?_eq_none hd
    rw [h1, List.eraseIdx_of_length_le hd]
  · rw [if_neg hd, dim_eq b d (by omega)]
    cases hp : b.base with
    | none =>
      simp only [sliceBase]
      rw [Buf.sliceDim, if_neg (by simpa [Buf.rank] using hd), hp]
    | some p =>
      simp only [hx, Option.map_some]
      rw [slice_eq b d x (by omega), hp]

/-- The new declaration declares the slice at the indices, if none was dropped for being of a broadcast. -/
theorem makeSlice_val {src y : Nat} {es : List Expr} {b : Buf} {rank : Option Nat} {bcast : Nat → Bool} (hb : ρ.buf? src = some b) (he : IndicesOK w l ρ es)
    (hr : ∀ r, rank = some r → r = b.rank) (hB : ∀ k e, es[k]? = some e → e.defined = true → bcast k = false) :
    match makeSlice src (sliceAt rank bcast es) with
    | none => sliceS w l ρ es b.dims b.base = some (b.base, b.dims)
    | some hd => hd.val w l ρ y = (sliceS w l ρ es b.dims b.base).map fun r => some ⟨r.1, b.elem, r.2⟩ := by
  -- the indices beyond the rank
  obtain ⟨fs, e1, hf, e2⟩ : ∃ fs, sliceAt rank bcast es = fs ∧ IndicesOK w l ρ fs ∧ sliceS w l ρ fs b.dims b.base = sliceS w l ρ es b.dims b.base := by
    cases rank with
    | none => exact ⟨es, clearBcast_id es 0 (by simpa using hB), he, rfl⟩
    | some r =>
      obtain rfl := hr r rfl
      have hI : IndicesOK w l ρ (es.take b.rank) := fun e h' => he e (List.mem_of_mem_take h')
      refine ⟨es.take b.rank, clearBcast_id _ 0 fun k e hk hd => ?_, hI, ?_⟩
      · rw [List.getElem?_take] at hk
        split at hk
        · rw [Nat.zero_add]; exact hB k e hk hd
        · cases hk
      · rw [sliceS_eq (indices_ok hI), sliceS_eq (indices_ok he)]
        have : indices w l ρ (es.take b.rank) = (indices w l ρ es).take b.dims.length := by simp [indices, List.map_take, Buf.rank]
        rw [this, sliceV_take]
  rw [e1]
  -- the undefined indices at the end
  obtain ⟨n, e3⟩ := popUndefE_split fs
  have hp : IndicesOK w l ρ (popUndefE fs) := fun e h' => hf e (e3 ▸ by simp [h'])
  have e4 : sliceS w l ρ (popUndefE fs) b.dims b.base = sliceS w l ρ fs b.dims b.base := by
    rw [sliceS_eq (indices_ok hp), sliceS_eq (indices_ok hf)]
    have : indices w l ρ fs = indices w l ρ (popUndefE fs) ++ List.replicate n none := by
      conv_lhs => rw [e3]
      simp [indices]
    rw [this, sliceV_append_none]
  rw [← e2, ← e4]
  cases hg : (popUndefE fs).getLast? with
  | none =>
    simp only [makeSlice, hg]
    rw [List.getLast?_eq_none_iff.1 hg, sliceS_nil]
  | some e =>
    simp only [makeSlice, hg]
    have hd := popUndefE_last hg
    obtain ⟨is, e5⟩ : ∃ is, popUndefE fs = is ++ [e] := by
      obtain ⟨_, hl⟩ := List.getLast?_eq_some_iff.1 hg
      exact ⟨_, hl⟩
    rw [e5] at hp ⊢
    by_cases hc : (is ++ [e]).countP (·.defined) = 1
    · simp only [hc, if_true]
      have h0 : is = List.replicate is.length .undef := by
        refine List.eq_replicate_iff.2 ⟨rfl, fun j hj => undef_of ?_⟩
        simp only [List.countP_append, List.countP_cons, List.countP_nil, hd, if_true] at hc
        have hz : List.countP (·.defined) is = 0 := by omega
        simpa using List.countP_eq_zero.1 hz j hj
      obtain ⟨x, hx⟩ := hp e (by simp) hd
      rw [List.length_append, List.length_singleton, Nat.add_sub_cancel, sliceDim_val hb hd hx, ← h0]
    · simp only [hc, if_false]
      simp only [Head.val, hb, Option.bind_some]

/-- C59: a slice, of a crop or not, declares the same buffer as what the simplifier makes of it.

Assumed: the declarations are true; all indices can be evaluated; what is proved true is true, and nothing is proved about an undefined index; no broadcast
is sliced at an index outside of its bounds (`InBroadcasts`); no dimension that is sliced is known to be a broadcast. -/
theorem slice_of_crop_partial {prove : Expr → Bool} (hD : Declared w l ρ decl) (hw : ∀ x c, decl x = some c → ∀ i ∈ c.box, i.WF) (n y : Nat)
    (c : SliceDecl) (hdef : ∀ s d e, c = .dim s d e → e.defined = true) (he : IndicesOK w l ρ c.indices)
    (hB : ∀ x b, ρ.buf? x = some b → InBroadcasts w l ρ c.indices b) (hP : ∀ e u, prove e = true → evalI w l ρ e = some u → u ≠ 0)
    (hU : ∀ i : Interval, prove (i.contains .undef) = true → i.min.defined = false ∧ i.max.defined = false) (b b2 : Buf) (hx : ρ.buf? c.src = some b)
    (h : c.head.val w l ρ y = some (some b2)) (rank : Option Nat) (bcast : Nat → Bool)
    (hr : ∀ r b0, rank = some r → ρ.buf? (sliceSrc prove decl c.indices n c.src) = some b0 → r = b0.rank)
    (hb : ∀ k e, c.indices[k]? = some e → e.defined = true → bcast k = false) :
    match makeSlice (sliceSrc prove decl c.indices n c.src) (sliceAt rank bcast c.indices) with
    | none => ρ.buf? (sliceSrc prove decl c.indices n c.src) = some b2
    | some hd => hd.val w l ρ y = some (some b2) := by
  have hv : (sliceS w l ρ c.indices b.dims b.base).map (fun r => some (⟨r.1, b.elem, r.2⟩ : Buf)) = some (some b2) := by
    cases c with
    | buffer s es => simpa [SliceDecl.head, SliceDecl.src, SliceDecl.indices, Head.val, show ρ.buf? s = some b from hx] using h
    | dim s d e =>
      obtain ⟨x, hx'⟩ := he e (by simp [SliceDecl.indices]) (hdef s d e rfl)
      rw [← h]
      exact (sliceDim_val (show ρ.buf? s = some b from hx) (hdef s d e rfl) hx').symm
  obtain ⟨b0, k1, k2, k3⟩ := sliceSrc_val hD hw he hB hP hU n c.src b hx
  have := makeSlice_val (y := y) (bcast := bcast) k1 he (fun r hr' => hr r b0 hr' k1) hb
  rw [← k3, ← k2] at hv
  cases hm : makeSlice (sliceSrc prove decl c.indices n c.src) (sliceAt rank bcast c.indices) with
  | none =>
    rw [hm] at this
    simp only at this ⊢
    rw [this] at hv
    rw [k1]
    exact Option.some.inj hv
  | some hd => rw [hm] at this; simp only at this ⊢; rw [this, hv]

/-- C59: the statement does the same. -/
theorem slice_of_crop_sem_partial {prove : Expr → Bool} (hD : Declared w l ρ decl) (hw : ∀ x c, decl x = some c → ∀ i ∈ c.box, i.WF) (n y : Nat)
    (c : SliceDecl) (hdef : ∀ s d e, c = .dim s d e → e.defined = true) (he : IndicesOK w l ρ c.indices)
    (hB : ∀ x b, ρ.buf? x = some b → InBroadcasts w l ρ c.indices b) (hP : ∀ e u, prove e = true → evalI w l ρ e = some u → u ≠ 0)
    (hU : ∀ i : Interval, prove (i.contains .undef) = true → i.min.defined = false ∧ i.max.defined = false) (b b2 : Buf) (hx : ρ.buf? c.src = some b)
    (h : c.head.val w l ρ y = some (some b2)) (rank : Option Nat) (bcast : Nat → Bool)
    (hr : ∀ r b0, rank = some r → ρ.buf? (sliceSrc prove decl c.indices n c.src) = some b0 → r = b0.rank)
    (hb : ∀ k e, c.indices[k]? = some e → e.defined = true → bcast k = false) (body : Stmt) (sk : Bool) :
    sem w sk (((makeSlice (sliceSrc prove decl c.indices n c.src) (sliceAt rank bcast c.indices)).getD
      (.cloneBuffer (sliceSrc prove decl c.indices n c.src))).stmt y body) ρ l = sem w sk (c.head.stmt y body) ρ l := by
  have h3 := slice_of_crop_partial hD hw n y c hdef he hB hP hU b b2 hx h rank bcast hr hb
  rw [sem_head, sem_head, h]
  cases hm : makeSlice (sliceSrc prove decl c.indices n c.src) (sliceAt rank bcast c.indices) with
  | none => rw [hm] at h3; simp only [Option.getD_none, Head.val] at h3 ⊢; rw [h3]; rfl
  | some hd => rw [hm] at h3; simp only [Option.getD_some] at h3 ⊢; rw [h3]

end Slinky.VW
