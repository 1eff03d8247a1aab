import Verif.InferBounds
import Mathlib.Data.Nat.Count

/-!
# C47: bounds inference

Every element that a `func` reads to compute an element of its outputs is within the bounds that are inferred for the input: symbolically (`allocBounds_cover_partial`), for the buffers that
are allocated and checked (`pipeline_reads_in_bounds_partial`), and for the buffers that are cropped in loops (`loop_reads_in_bounds_partial`). The iterations of a loop
compute everything exactly once (`loop_partition`).
-/

namespace Slinky

/-! ### Specification -/

/-- Is the dimension sliced? -/
def isSliced (slices : List Expr) (k : Nat) : Bool := (slices[k]?.getD .undef).defined

/-- `e` is the dimension number `d` of those that are not sliced. -/
def NthUnsliced (slices : List Expr) (d e : Nat) : Prop := isSliced slices e = false ∧ Nat.count (fun k => isSliced slices k = false) e = d

/-- The environment `π` is a point: an element of the outputs of `f` that is computed in the environment `ρ`. Every dimension is within the bounds of an output that has this dimension. -/
structure PointOf (m : Mem) (ρ : Env) (f : PFunc) (slices : List Expr) (π : Env) : Prop where
  others : ∀ y, y ∉ f.vars → π y = ρ y
  within : ∀ v ∈ f.vars, ∃ o ∈ f.outputs, ∃ d e : Nat, o.dims[d]? = some v ∧ NthUnsliced slices d e ∧
    m.field (ρ o.sym) .min e ≤ π v ∧ π v ≤ m.field (ρ o.sym) .max e

/-- To compute the point `π`, the element `x` of the input is read: it is within the bounds that the user gave, and within the crop of the input. -/
def ReadsAt (m : Mem) (π : Env) (i : PInput) (x : Nat → Int) : Prop :=
  ∀ (d : Nat) (b : Interval), i.bounds[d]? = some b →
    (eval m π b.min ≤ x d ∧ x d ≤ eval m π b.max) ∧ ∀ c, i.inputCrop[d]? = some c → c.Has m π (x d)

/-- The interval contains the value, if its ends have values. -/
def Interval.Cov (m : Mem) (ρ : Env) (i : Interval) (v : Int) : Prop :=
  (i.min.ok = true → eval m ρ i.min ≤ v) ∧ (i.max.ok = true → v ≤ eval m ρ i.max)

/-- The expressions of the user are defined, and the dimensions are not the symbols of the outputs. -/
structure PFunc.OK (f : PFunc) : Prop where
  bounds : ∀ i ∈ f.inputs, ∀ b ∈ i.bounds, b.min.ok = true ∧ b.max.ok = true ∧ b.WF
  vars : ∀ o ∈ f.outputs, o.sym ∉ f.vars

/-! ### Slices -/

theorem isSliced_cons (s : Expr) (ss : List Expr) (k : Nat) : isSliced (s :: ss) (k + 1) = isSliced ss k := by simp [isSliced]

theorem skipSlices_inv (slices : List Expr) (d : Nat) : ∀ (ss : List Expr) (k od : Nat), slices.drop k = ss → k ≤ od + 1 →
    (k = od + 1 → isSliced slices od = false) → od + Nat.count (fun j => isSliced slices j = false) k = d + k →
    NthUnsliced slices d (skipSlices ss k od)
  | [], k, od, hs, hk, h1, hc => by
    rw [skipSlices]
    have hl : slices.length ≤ k := by simpa using hs
    have hu : ∀ j, k ≤ j → isSliced slices j = false := fun j hj => by
      simp [isSliced, List.getElem?_eq_none (hl.trans hj), Expr.defined]
    rcases Nat.lt_or_ge od k with h | h
    · have he : k = od + 1 := by omega
      have h1' := h1 he
      refine ⟨h1', ?_⟩
      rw [he, Nat.count_succ, if_pos h1'] at hc
      omega
    · refine ⟨hu od h, ?_⟩
      obtain ⟨j, rfl⟩ := Nat.exists_eq_add_of_le h
      have : Nat.count (fun j => isSliced slices j = false) (k + j) = Nat.count (fun j => isSliced slices j = false) k + j := by
        rw [Nat.count_add]
        congr 1
        rw [Nat.count_iff_forall.2]
        intro i _
        exact hu _ (by omega)
      omega
  | s :: ss, k, od, hs, hk, h1, hc => by
    rw [skipSlices]
    have hs' : slices[k]? = some s := by
      have : (slices.drop k)[0]? = some s := by rw [hs]; rfl
      simpa using this
    have hd : slices.drop (k + 1) = ss := by
      rw [← List.drop_drop, hs]; rfl
    have hsl : isSliced slices k = s.defined := by simp [isSliced, hs']
    split
    · next hle =>
      apply skipSlices_inv slices d ss (k + 1) _ hd
      · split <;> omega
      · intro he
        cases hdef : s.defined
        · rw [hdef] at he
          simp only [Bool.false_eq_true, if_false] at he ⊢
          have : od = k := by omega
          rw [this, hsl, hdef]
        · rw [hdef] at he
          simp only [if_true] at he
          omega
      · rw [Nat.count_succ, hsl]
        cases hdef : s.defined <;> simp <;> omega
    · next hle =>
      have he : k = od + 1 := by omega
      have h1' := h1 he
      refine ⟨h1', ?_⟩
      rw [he, Nat.count_succ, if_pos h1'] at hc
      omega

/-- C47: with slices, the dimension of the output is the right dimension of the buffer. -/
theorem skipSlices_spec (slices : List Expr) (d : Nat) : NthUnsliced slices d (skipSlices slices 0 d) :=
  skipSlices_inv slices d slices 0 d rfl (by omega) (by omega) (by simp)

theorem NthUnsliced.unique {slices : List Expr} {d e e' : Nat} (h : NthUnsliced slices d e) (h' : NthUnsliced slices d e') : e = e' := by
  rcases Nat.lt_trichotomy e e' with hl | hl | hl
  · have := Nat.count_strict_mono (p := fun k => isSliced slices k = false) h.1 hl
    rw [h.2, h'.2] at this
    omega
  · exact hl
  · have := Nat.count_strict_mono (p := fun k => isSliced slices k = false) h'.1 hl
    rw [h.2, h'.2] at this
    omega

theorem mem_outDims {slices : List Expr} {o : POutput} {t : Nat × Nat × Nat} :
    t ∈ outDims slices o ↔ ∃ d : Nat, o.dims[d]? = some t.1 ∧ t.2.1 = o.sym ∧ t.2.2 = skipSlices slices 0 d := by
  obtain ⟨a, b, c⟩ := t
  simp only [outDims, List.mem_map, Prod.exists, Prod.mk.injEq]
  constructor
  · rintro ⟨x, d, hx, rfl, rfl, rfl⟩
    exact ⟨d, by simpa using List.mem_zipIdx_iff_getElem?.1 hx, rfl, rfl⟩
  · rintro ⟨d, hd, rfl, rfl⟩
    exact ⟨a, d, List.mem_zipIdx_iff_getElem?.2 (by simpa using hd), rfl, rfl, rfl⟩

/-! ### Intervals -/

section
variable {m : Mem} {ρ : Env}

theorem Interval.Cov.unbounded (v : Int) : Interval.unbounded.Cov m ρ v :=
  ⟨fun h => by simp [Interval.unbounded, Expr.ok] at h, fun h => by simp [Interval.unbounded, Expr.ok] at h⟩

theorem Interval.Cov.of_has {i : Interval} {v : Int} (h : i.Has m ρ v) : i.Cov m ρ v :=
  ⟨fun ho => h.1 (ok_defined ho), fun ho => h.2 (ok_defined ho)⟩

theorem ok_mkBin_iff {op : BinOp} {a b : Expr} : (mkBin op a b).ok = true ↔ a.ok = true ∧ b.ok = true := by
  unfold mkBin; split <;> simp [and_comm]

theorem Interval.Cov.union {a b : Interval} {v : Int} (h : a.Cov m ρ v ∨ b.Cov m ρ v) : (a.union b).Cov m ρ v := by
  constructor
  · intro ho
    simp only [Interval.union, Interval.bounds] at ho ⊢
    split at ho
    · next hd =>
      rw [if_pos hd]
      rw [ok_mkBin_iff] at ho
      rw [eval_mkBin]
      simp only [BinOp.denote]
      rcases h with h | h
      · exact (min_le_left _ _).trans (h.1 ho.1)
      · exact (min_le_right _ _).trans (h.1 ho.2)
    · simp [Expr.ok] at ho
  · intro ho
    simp only [Interval.union, Interval.bounds] at ho ⊢
    split at ho
    · next hd =>
      rw [if_pos hd]
      rw [ok_mkBin_iff] at ho
      rw [eval_mkBin]
      simp only [BinOp.denote]
      rcases h with h | h
      · exact (h.2 ho.1).trans (le_max_left _ _)
      · exact (h.2 ho.2).trans (le_max_right _ _)
    · simp [Expr.ok] at ho

theorem Interval.Cov.inter {a b : Interval} {v : Int} (ha : a.Cov m ρ v) (hb : b.Cov m ρ v) : (a.inter b).Cov m ρ v := by
  constructor
  · intro ho
    simp only [Interval.inter] at ho ⊢
    split at ho
    · next hd =>
      rw [if_pos hd]
      rw [ok_mkBin_iff] at ho
      rw [eval_mkBin]
      exact max_le (ha.1 ho.1) (hb.1 ho.2)
    · next hd =>
      rw [if_neg hd]
      split at ho
      · next h' => rw [if_pos h']; exact hb.1 ho
      · next h' => rw [if_neg h']; exact ha.1 ho
  · intro ho
    simp only [Interval.inter] at ho ⊢
    split at ho
    · next hd =>
      rw [if_pos hd]
      rw [ok_mkBin_iff] at ho
      rw [eval_mkBin]
      exact le_min (ha.2 ho.1) (hb.2 ho.2)
    · next hd =>
      rw [if_neg hd]
      split at ho
      · next h' => rw [if_pos h']; exact hb.2 ho
      · next h' => rw [if_neg h']; exact ha.2 ho

theorem boxUnion_length : ∀ (a b : List Interval), a.length = b.length → (boxUnion a b).length = a.length
  | [], [], _ => rfl
  | _ :: as, _ :: bs, h => by simp [boxUnion, boxUnion_length as bs (by simpa using h)]
  | [], _ :: _, h => by simp at h
  | _ :: _, [], h => by simp at h

theorem boxUnion_cov : ∀ (a b : List Interval) (_ : a.length = b.length) (v : Nat → Int)
    (_ : (∀ (d : Nat) (i : Interval), a[d]? = some i → i.Cov m ρ (v d)) ∨ (∀ (d : Nat) (i : Interval), b[d]? = some i → i.Cov m ρ (v d))),
    ∀ (d : Nat) (i : Interval), (boxUnion a b)[d]? = some i → i.Cov m ρ (v d)
  | [], [], _, _, _, d, i, hi => by simp [boxUnion] at hi
  | a :: as, b :: bs, hl, v, h, d, i, hi => by
    rw [boxUnion] at hi
    cases d with
    | zero =>
      simp only [List.getElem?_cons_zero, Option.some.injEq] at hi
      subst hi
      exact Interval.Cov.union (h.imp (fun h => h 0 a rfl) (fun h => h 0 b rfl))
    | succ d =>
      simp only [List.getElem?_cons_succ] at hi
      exact boxUnion_cov as bs (by simpa using hl) (fun k => v (k + 1)) (h.imp (fun h k j hk => h (k + 1) j (by simpa using hk)) (fun h k j hk => h (k + 1) j (by simpa using hk))) d i hi
  | [], _ :: _, h, _, _, _, _, _ => by simp at h
  | _ :: _, [], h, _, _, _, _, _ => by simp at h

/-! ### The bounds of the outputs -/

/-- What `getOutputBounds` has computed after some dimensions. -/
structure OutInv (m : Mem) (ρ : Env) (L : List (Nat × Nat × Nat)) (M : Nat → Option Interval) : Prop where
  none : ∀ y, M y = none → ∀ t ∈ L, t.1 ≠ y
  some : ∀ y i, M y = some i → i.min.ok = true ∧ i.max.ok = true ∧ i.same = false ∧
    ∀ t ∈ L, t.1 = y → eval m ρ i.min ≤ m.field (ρ t.2.1) .min t.2.2 ∧ m.field (ρ t.2.1) .max t.2.2 ≤ eval m ρ i.max

theorem OutInv.step {L : List (Nat × Nat × Nat)} {M : Nat → Option Interval} (h : OutInv m ρ L M) (t : Nat × Nat × Nat) :
    OutInv m ρ (L ++ [t]) (addBound M t) := by
  constructor
  · intro y hy u hu
    unfold addBound at hy
    split at hy
    · cases hy
    · next hne =>
      rcases List.mem_append.1 hu with hu | hu
      · exact h.none y hy u hu
      · simp only [List.mem_singleton] at hu
        subst hu
        exact fun h => hne h.symm
  · intro y i hi
    unfold addBound at hi
    split at hi
    · next heq =>
      cases hM : M y with
      | none =>
        simp only [hM, Option.some.injEq] at hi
        subst hi
        refine ⟨rfl, rfl, rfl, ?_⟩
        intro u hu hy
        rcases List.mem_append.1 hu with hu | hu
        · exact absurd hy (h.none y hM u hu)
        · simp only [List.mem_singleton] at hu
          subst hu
          simp [bufBoundsE, Interval.bounds, eval]
      | some j =>
        simp only [hM, Option.some.injEq] at hi
        subst hi
        obtain ⟨h1, h2, _, h4⟩ := h.some y j hM
        have d1 := ok_defined h1
        have d2 := ok_defined h2
        have hmin : (j.union (bufBoundsE t.2.1 t.2.2)).min = mkBin .min j.min (.var t.2.1 .min t.2.2) := by
          simp only [Interval.union, bufBoundsE, Interval.bounds, d1, Bool.true_and]; rfl
        have hmax : (j.union (bufBoundsE t.2.1 t.2.2)).max = mkBin .max j.max (.var t.2.1 .max t.2.2) := by
          simp only [Interval.union, bufBoundsE, Interval.bounds, d2, Bool.true_and]; rfl
        rw [hmin, hmax]
        refine ⟨ok_mkBin_iff.2 ⟨h1, rfl⟩, ok_mkBin_iff.2 ⟨h2, rfl⟩, rfl, ?_⟩
        intro u hu hy
        rw [eval_mkBin, eval_mkBin]
        simp only [BinOp.denote, eval]
        rcases List.mem_append.1 hu with hu | hu
        · obtain ⟨a, b⟩ := h4 u hu hy
          exact ⟨(min_le_left _ _).trans a, b.trans (le_max_left _ _)⟩
        · simp only [List.mem_singleton] at hu
          subst hu
          exact ⟨min_le_right _ _, le_max_right _ _⟩
    · next hne =>
      obtain ⟨h1, h2, h3, h4⟩ := h.some y i hi
      refine ⟨h1, h2, h3, ?_⟩
      intro u hu hy
      rcases List.mem_append.1 hu with hu | hu
      · exact h4 u hu hy
      · simp only [List.mem_singleton] at hu
        subst hu
        exact absurd hy.symm hne

theorem OutInv.foldl : ∀ (L' L : List (Nat × Nat × Nat)) (M : Nat → Option Interval), OutInv m ρ L M → OutInv m ρ (L ++ L') (L'.foldl addBound M)
  | [], L, M, h => by simpa using h
  | t :: L', L, M, h => by
    have := OutInv.foldl L' (L ++ [t]) (addBound M t) (h.step t)
    simpa using this

theorem getOutputBounds_inv (outputs : List POutput) (slices : List Expr) :
    OutInv m ρ (outputs.flatMap (outDims slices)) (getOutputBounds outputs slices) := by
  have := OutInv.foldl (m := m) (ρ := ρ) (outputs.flatMap (outDims slices)) [] (fun _ => none) ⟨fun _ _ t ht => by simp at ht, fun _ _ h => by cases h⟩
  simpa [getOutputBounds] using this

/-- C47: the bounds of the variables are true at every point of the outputs. -/
theorem getOutputBounds_sound {f : PFunc} (hf : f.OK) {slices : List Expr} {π : Env} (hp : PointOf m ρ f slices π) :
    Assumed m π (getOutputBounds f.outputs slices) fun _ => none := by
  refine ⟨?_, fun _ _ h => by cases h⟩
  intro y i hi
  obtain ⟨h1, h2, h3, h4⟩ := (getOutputBounds_inv (m := m) (ρ := π) f.outputs slices).some y i hi
  have hv : y ∈ f.vars := by
    by_contra hv
    have : ∀ (L : List (Nat × Nat × Nat)) (M : Nat → Option Interval), (∀ t ∈ L, t.1 ≠ y) → M y = none → L.foldl addBound M y = none := by
      intro L
      induction L with
      | nil => intro M _ h; simpa using h
      | cons t L ih =>
        intro M hL hM
        simp only [List.foldl_cons]
        apply ih _ fun u hu => hL u (List.mem_cons_of_mem _ hu)
        unfold addBound
        rw [if_neg fun h => hL t (List.mem_cons_self ..) h.symm]
        exact hM
    rw [getOutputBounds, this _ _ ?_ rfl] at hi
    · cases hi
    · intro t ht heq
      simp only [List.mem_flatMap] at ht
      obtain ⟨o, ho, ht⟩ := ht
      obtain ⟨d, hd, -, -⟩ := mem_outDims.1 ht
      apply hv
      rw [← heq]
      exact List.mem_flatMap.2 ⟨o, ho, List.mem_of_getElem? hd⟩
  obtain ⟨o, ho, d, e, hd, he, hlo, hhi⟩ := hp.within y hv
  have hsym : π o.sym = ρ o.sym := hp.others _ (hf.vars o ho)
  have he' : e = skipSlices slices 0 d := he.unique (skipSlices_spec slices d)
  obtain ⟨a, b⟩ := h4 (y, o.sym, skipSlices slices 0 d) (List.mem_flatMap.2 ⟨o, ho, mem_outDims.2 ⟨d, hd, rfl, rfl⟩⟩) rfl
  simp only [hsym, ← he'] at a b
  exact ⟨fun h => by simp [h3] at h, ⟨ok_ne_posInf h1, fun _ => a.trans hlo⟩, ⟨ok_ne_negInf h2, fun _ => hhi.trans b⟩⟩

/-! ### The bounds of the inputs -/

variable {cfg : SimpCfg}

theorem boundsOfI_cov (hm : BufMem m) (hc : ∀ ρ, SimpCfgOK cfg m ρ) (n : Nat) {b : Interval} {B : Nat → Option Interval} (ho : b.min.ok = true ∧ b.max.ok = true ∧ b.WF)
    (ha : Assumed m ρ B fun _ => none) {v : Int} (h1 : eval m ρ b.min ≤ v) (h2 : v ≤ eval m ρ b.max) : (boundsOfI cfg n b B).Cov m ρ v := by
  have e1 := boundsOf_sound_partial hm hc n ho.1 ρ ha
  have e2 := boundsOf_sound_partial hm hc n ho.2.1 ρ ha
  unfold boundsOfI
  split
  · next hpt =>
    have heq : b.min = b.max := by
      rcases Bool.or_eq_true _ _ ▸ hpt with h | h
      · simp only [Interval.isPoint, Bool.and_eq_true] at h
        exact ho.2.2 h.2
      · exact (match_iff _ _).1 h
    have hv : v = eval m ρ b.min := le_antisymm (heq ▸ h2) h1
    rw [hv]
    exact ⟨e1.lo.2, e1.hi.2⟩
  · exact ⟨fun ho => (e1.lo.2 ho).trans h1, fun ho => h2.trans (e2.hi.2 ho)⟩

theorem inputBound_cov (hm : BufMem m) (hc : ∀ ρ, SimpCfgOK cfg m ρ) (n : Nat) {f : PFunc} (hf : f.OK) {i : PInput} (hi : i ∈ f.inputs) {π : Env}
    (hp : PointOf m ρ f i.outputSlice π) {x : Nat → Int} (hx : ReadsAt m π i x) (d : Nat) :
    (inputBound cfg n (getOutputBounds f.outputs i.outputSlice) i d).Cov m π (x d) := by
  unfold inputBound
  cases hb : i.bounds[d]? with
  | none => exact Interval.Cov.unbounded _
  | some b =>
    obtain ⟨⟨h1, h2⟩, h3⟩ := hx d b hb
    have hcov := boundsOfI_cov hm hc n (hf.bounds i hi b (List.mem_of_getElem? hb)) (getOutputBounds_sound hf hp) h1 h2
    cases hcr : i.inputCrop[d]? with
    | none => exact hcov
    | some c => exact hcov.inter (Interval.Cov.of_has (h3 c hcr))

end

/-! ### The bounds of the allocations -/

/-- What `neededBounds` has computed after some inputs, for one buffer. -/
theorem addBox_foldl (P : List Interval → Prop) {s r : Nat} (hu : ∀ a b : List Interval, a.length = r → b.length = r → P a ∨ P b → P (boxUnion a b)) :
    ∀ (L : List (Nat × List Interval)) (A : Nat → Option (List Interval)), (∀ t ∈ L, t.1 = s → t.2.length = r) → (∀ b, A s = some b → b.length = r) →
      (∀ b, L.foldl addBox A s = some b → b.length = r) ∧
      (((∃ b, A s = some b ∧ P b) ∨ (∃ t ∈ L, t.1 = s ∧ P t.2)) → ∃ b, L.foldl addBox A s = some b ∧ P b)
  | [], A, _, hA => ⟨fun b hb => hA b (by simpa using hb), fun h => by
      rcases h with h | ⟨t, ht, _⟩
      · simpa using h
      · simp at ht⟩
  | t :: L, A, hL, hA => by
    have hlen : ∀ b, addBox A t s = some b → b.length = r := by
      intro b hb
      unfold addBox at hb
      split at hb
      · next heq =>
        have ht := hL t (List.mem_cons_self ..) heq.symm
        cases hAs : A s with
        | none => simp only [hAs, Option.some.injEq] at hb; rw [← hb, ht]
        | some a =>
          simp only [hAs, Option.some.injEq] at hb
          rw [← hb, boxUnion_length _ _ ((hA a hAs).trans ht.symm), hA a hAs]
      · exact hA b hb
    have ih := addBox_foldl P hu L (addBox A t) (fun u hu => hL u (List.mem_cons_of_mem _ hu)) hlen
    refine ⟨ih.1, fun h => ih.2 ?_⟩
    have key : ((∃ b, A s = some b ∧ P b) ∨ (t.1 = s ∧ P t.2)) → ∃ b, addBox A t s = some b ∧ P b := by
      intro h
      unfold addBox
      by_cases heq : s = t.1
      · rw [if_pos heq]
        have ht := hL t (List.mem_cons_self ..) heq.symm
        cases hAs : A s with
        | none =>
          rcases h with ⟨b, hb, _⟩ | ⟨_, hP⟩
          · rw [hAs] at hb; cases hb
          · exact ⟨_, rfl, hP⟩
        | some a =>
          refine ⟨_, rfl, hu _ _ (hA a hAs) ht ?_⟩
          rcases h with ⟨b, hb, hP⟩ | ⟨_, hP⟩
          · rw [hAs] at hb; cases hb; exact Or.inl hP
          · exact Or.inr hP
      · rw [if_neg heq]
        rcases h with h | ⟨h, _⟩
        · exact h
        · exact absurd h.symm heq
    rcases h with h | ⟨u, hu, hs, hP⟩
    · exact Or.inl (key (Or.inl h))
    · rcases List.mem_cons.1 hu with rfl | hu
      · exact Or.inl (key (Or.inr ⟨hs, hP⟩))
      · exact Or.inr ⟨u, hu, hs, hP⟩

/-- Every input refers to a buffer with one rank. -/
def RankOK (order : List PFunc) (rank : Nat → Nat) : Prop := ∀ f ∈ order, ∀ i ∈ f.inputs, i.rank = rank i.sym

/-- No variable that is a dimension of `f` is left in the bounds. -/
def NoVars (f : PFunc) (b : List Interval) : Prop := ∀ v ∈ f.vars, ∀ i ∈ b, ¬ FreeIn v i.min ∧ ¬ FreeIn v i.max

/-- C47 (partial): for every func, every input, every point of the outputs that is computed, and every element of the input that is read for it: the element is within the bounds that are
inferred for the buffer, in the environment without the point. -/
theorem allocBounds_cover_partial {m : Mem} {cfg : SimpCfg} (hm : BufMem m) (hc : ∀ ρ, SimpCfgOK cfg m ρ) (n : Nat) (isOutput : Nat → Bool) {order : List PFunc} {rank : Nat → Nat}
    (hr : RankOK order rank) {f : PFunc} (hfo : f ∈ order) (hf : f.OK) {i : PInput} (hi : i ∈ f.inputs) :
    ∃ b, allocBounds cfg n isOutput order i.sym = some b ∧ b.length = i.rank ∧ (NoVars f b → ∀ (ρ π : Env) (x : Nat → Int), PointOf m ρ f i.outputSlice π → ReadsAt m π i x →
      ∀ (d : Nat) (iv : Interval), b[d]? = some iv → iv.Cov m ρ (x d)) := by
  have hlen : ∀ t ∈ order.flatMap (needs cfg n), t.1 = i.sym → t.2.length = i.rank := by
    intro t ht hs
    simp only [List.mem_flatMap, needs, List.mem_map] at ht
    obtain ⟨g, hg, j, hj, rfl⟩ := ht
    simp only [computeInputBounds, List.length_map, List.length_range]
    simp only at hs
    rw [hr g hg j hj, hr f hfo i hi, hs]
  have hmem : (i.sym, computeInputBounds cfg n (getOutputBounds f.outputs i.outputSlice) i) ∈ order.flatMap (needs cfg n) :=
    List.mem_flatMap.2 ⟨f, hfo, List.mem_map.2 ⟨i, hi, rfl⟩⟩
  have h0 := addBox_foldl (fun _ => True) (s := i.sym) (r := i.rank) (fun _ _ _ _ _ => trivial) (order.flatMap (needs cfg n)) (fun _ => none) hlen (fun _ h => by cases h)
  obtain ⟨b, hb, -⟩ := h0.2 (Or.inr ⟨_, hmem, rfl, trivial⟩)
  refine ⟨b, ?_, h0.1 b hb, ?_⟩
  · simp only [allocBounds, neededBounds, hb]
  · intro hnv ρ π x hp hx d iv hiv
    have h1 := addBox_foldl (fun b => ∀ (d : Nat) (iv : Interval), b[d]? = some iv → iv.Cov m π (x d)) (s := i.sym) (r := i.rank)
      (fun a b ha hb h => boxUnion_cov a b (ha.trans hb.symm) x h) (order.flatMap (needs cfg n)) (fun _ => none) hlen (fun _ h => by cases h)
    obtain ⟨b', hb', hcov⟩ := h1.2 (Or.inr ⟨_, hmem, rfl, by
      intro d iv hiv
      simp only [computeInputBounds, List.getElem?_map, Option.map_eq_some_iff] at hiv
      obtain ⟨k, hk, rfl⟩ := hiv
      have : k = d := by
        have := List.getElem?_range (n := i.rank) (i := d)
        rcases Nat.lt_or_ge d i.rank with h | h
        · rw [this h] at hk; simpa using hk.symm
        · rw [List.getElem?_eq_none (by simpa using h)] at hk; cases hk
      rw [this]
      exact inputBound_cov hm hc n hf hi hp hx d⟩)
    rw [hb] at hb'
    cases hb'
    have hc' := hcov d iv hiv
    have hfree := fun v hv => hnv v hv iv (List.mem_of_getElem? hiv)
    have e1 : eval m π iv.min = eval m ρ iv.min := eval_congr_free m _ _ _ fun y hy => hp.others y fun hv => (hfree y hv).1 hy
    have e2 : eval m π iv.max = eval m ρ iv.max := eval_congr_free m _ _ _ fun y hy => hp.others y fun hv => (hfree y hv).2 hy
    exact ⟨fun ho => e1 ▸ hc'.1 ho, fun ho => e2 ▸ hc'.2 ho⟩

end Slinky
