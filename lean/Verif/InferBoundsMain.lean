import Verif.InferBoundsThm

/-! # C47: bounds inference: allocations, checks and loops -/

namespace Slinky

/-! ### Specification -/

/-- The dimension of the buffer is a broadcast. -/
def IsBcast (m : Mem) (p : Int) (d : Nat) : Prop := m.field p .min d = 0 ∧ m.field p .max d = 0 ∧ m.field p .stride d = 0

/-- The element is within the bounds of the buffer. -/
def InBuf (m : Mem) (p : Int) (rank : Nat) (x : Nat → Int) : Prop :=
  ∀ d < rank, IsBcast m p d ∨ (m.field p .min d ≤ x d ∧ x d ≤ m.field p .max d)

/-- In the environment `ρ`, the funcs in `S` only read elements that are within the bounds of their inputs, to compute any element within the bounds of their outputs. -/
def ReadsInBounds (m : Mem) (ρ : Env) (S : List PFunc) : Prop :=
  ∀ f ∈ S, ∀ i ∈ f.inputs, ∀ (π : Env) (x : Nat → Int), PointOf m ρ f i.outputSlice π → ReadsAt m π i x → InBuf m (ρ i.sym) i.rank x

/-- The bounds refer only to buffers that are defined before. -/
inductive Scoped (bnd : Nat → List Interval) : List Nat → Prop
  | nil : Scoped bnd []
  | cons {b : Nat} {bs : List Nat} : b ∉ bs → (∀ i ∈ bnd b, ∀ y ∈ b :: bs, ¬ FreeIn y i.min ∧ ¬ FreeIn y i.max) → Scoped bnd bs → Scoped bnd (b :: bs)

/-- The ends of the intervals have values. -/
def EndsOK (b : List Interval) : Prop := ∀ i ∈ b, i.min.ok = true ∧ i.max.ok = true

/-- The dimension of the buffer at `p` contains the interval, or is a broadcast. -/
def CoversDim (m : Mem) (ρ : Env) (p : Int) (d : Nat) (i : Interval) : Prop :=
  IsBcast m p d ∨ (m.field p .min d ≤ eval m ρ i.min ∧ eval m ρ i.max ≤ m.field p .max d)

/-! ### The dimensions of allocations -/

mutual
/-- The symbol occurs anywhere in the expression. -/
def Mentions (x : Nat) : Expr → Prop
  | .undef => False
  | .var y _ _ => y = x
  | .const _ => False
  | .lets bs b => MentionsBinds x bs ∨ Mentions x b
  | .bin _ a b => Mentions x a ∨ Mentions x b
  | .not a => Mentions x a
  | .select c t f => Mentions x c ∨ Mentions x t ∨ Mentions x f
  | .call _ as => MentionsArgs x as
/-- See `Mentions`. -/
def MentionsArgs (x : Nat) : Exprs → Prop
  | .nil => False
  | .cons e es => Mentions x e ∨ MentionsArgs x es
/-- See `Mentions`. -/
def MentionsBinds (x : Nat) : Binds → Prop
  | .nil => False
  | .cons _ e bs => Mentions x e ∨ MentionsBinds x bs
end

theorem substExpr_var_ne {t r : Expr} {x : Nat} {f : Field} {d : Int} (h : Expr.var x f d ≠ t) : substExpr t r (.var x f d) = .var x f d := by
  rw [substExpr, if_neg]
  intro hm
  exact h ((match_iff _ _).1 hm)

mutual
theorem substExpr_notFree {t : Nat} {f : Field} {d : Int} {r : Expr} : ∀ e : Expr, ¬ Mentions t e → substExpr (.var t f d) r e = e
  | .undef, _ => by rw [substExpr, if_neg]; intro h; cases (match_iff _ _).1 h
  | .var x g k, h => substExpr_var_ne fun he => h (by cases he; exact rfl)
  | .const _, _ => by rw [substExpr, if_neg]; intro h; cases (match_iff _ _).1 h
  | .lets bs b, h => by
    rw [Mentions, not_or] at h
    rw [substExpr, if_neg, substExprBinds_notFree bs h.1, substExpr_notFree b h.2]
    intro h; cases (match_iff _ _).1 h
  | .bin op a b, h => by
    rw [Mentions, not_or] at h
    rw [substExpr, if_neg, substExpr_notFree a h.1, substExpr_notFree b h.2]
    · simp [rebuildBin]
    · intro h; cases (match_iff _ _).1 h
  | .not a, h => by
    rw [Mentions] at h
    rw [substExpr, if_neg, substExpr_notFree a h]
    intro h; cases (match_iff _ _).1 h
  | .select c u v, h => by
    rw [Mentions, not_or, not_or] at h
    rw [substExpr, if_neg, substExpr_notFree c h.1, substExpr_notFree u h.2.1, substExpr_notFree v h.2.2]
    intro h; cases (match_iff _ _).1 h
  | .call fn as, h => by
    rw [Mentions] at h
    rw [substExpr, if_neg, substExprArgs_notFree as h]
    intro h; cases (match_iff _ _).1 h
theorem substExprArgs_notFree {t : Nat} {f : Field} {d : Int} {r : Expr} : ∀ es : Exprs, ¬ MentionsArgs t es → substExprArgs (.var t f d) r es = es
  | .nil, _ => rfl
  | .cons e es, h => by
    rw [MentionsArgs, not_or] at h
    rw [substExprArgs, substExpr_notFree e h.1, substExprArgs_notFree es h.2]
theorem substExprBinds_notFree {t : Nat} {f : Field} {d : Int} {r : Expr} : ∀ bs : Binds, ¬ MentionsBinds t bs → substExprBinds (.var t f d) r bs = bs
  | .nil, _ => rfl
  | .cons x e bs, h => by
    rw [MentionsBinds, not_or] at h
    rw [substExprBinds, substExpr_notFree e h.1, substExprBinds_notFree bs h.2]
end

/-- The replacements, one after the other. -/
def substAll (subs : List (Expr × Expr)) (e : Expr) : Expr := subs.foldl (fun e s => substExpr s.1 s.2 e) e

theorem substAll_notFree {b : Nat} {e : Expr} (h : ¬ Mentions b e) : ∀ subs : List (Expr × Expr), (∀ s ∈ subs, ∃ f d, s.1 = .var b f d) → substAll subs e = e
  | [], _ => rfl
  | s :: subs, hs => by
    obtain ⟨f, d, hk⟩ := hs s (List.mem_cons_self ..)
    rw [substAll, List.foldl_cons, hk, substExpr_notFree e h]
    exact substAll_notFree h subs fun u hu => hs u (List.mem_cons_of_mem _ hu)

theorem substAll_var {b : Nat} {f : Field} {d : Int} {r : Expr} (h : ¬ Mentions b r) : ∀ subs : List (Expr × Expr), (∀ s ∈ subs, ∃ f d, s.1 = .var b f d) →
    (Expr.var b f d, r) ∈ subs → (∀ s ∈ subs, s.1 = .var b f d → s.2 = r) → substAll subs (.var b f d) = r
  | [], _, hm, _ => by simp at hm
  | s :: subs, hs, hm, hu => by
    have hs' := fun u hu => hs u (List.mem_cons_of_mem s hu)
    rw [substAll, List.foldl_cons]
    by_cases hk : s.1 = .var b f d
    · have : substExpr s.1 s.2 (.var b f d) = r := by
        rw [substExpr, if_pos ((match_iff _ _).2 hk.symm), hu s (List.mem_cons_self ..) hk]
      rw [this]
      exact substAll_notFree h subs hs'
    · rw [substExpr_var_ne fun he => hk he.symm]
      rcases List.mem_cons.1 hm with rfl | hm
      · exact absurd rfl hk
      · exact substAll_var h subs hs' hm fun u hu' => hu u (List.mem_cons_of_mem _ hu')

theorem substFromMap_bounds : ∀ (subs : List (Expr × Expr)) (d : DimE), (substFromMap subs d).bounds.min = substAll subs d.bounds.min ∧
    (substFromMap subs d).bounds.max = substAll subs d.bounds.max
  | [], _ => ⟨rfl, rfl⟩
  | s :: subs, d => by
    have := substFromMap_bounds subs ⟨⟨substExpr s.1 s.2 d.bounds.min, substExpr s.1 s.2 d.bounds.max, false⟩, substExpr s.1 s.2 d.stride, substExpr s.1 s.2 d.fold⟩
    simpa [substFromMap, substAll] using this

theorem mem_dimSubs {b : Nat} {bounds : List Interval} {s : Expr × Expr} : s ∈ dimSubs b bounds ↔
    ∃ (d : Nat) (i : Interval), bounds[d]? = some i ∧ (s = (.var b .min d, i.min) ∨ s = (.var b .max d, i.max) ∨ s = (.var b .stride d, .undef)) := by
  simp only [dimSubs, List.mem_append, List.mem_flatMap, List.mem_map, Prod.exists, List.mem_cons, List.not_mem_nil, or_false]
  constructor
  · rintro (⟨i, d, h, h'⟩ | ⟨i, d, h, h'⟩)
    · exact ⟨d, i, by simpa using List.mem_zipIdx_iff_getElem?.1 h, h'.imp_right Or.inl⟩
    · exact ⟨d, i, by simpa using List.mem_zipIdx_iff_getElem?.1 h, Or.inr (Or.inr h'.symm)⟩
  · rintro ⟨d, i, h, h' | h' | h'⟩
    · exact Or.inl ⟨i, d, List.mem_zipIdx_iff_getElem?.2 (by simpa using h), Or.inl h'⟩
    · exact Or.inl ⟨i, d, List.mem_zipIdx_iff_getElem?.2 (by simpa using h), Or.inr h'⟩
    · exact Or.inr ⟨i, d, List.mem_zipIdx_iff_getElem?.2 (by simpa using h), h'.symm⟩

/-- C47: the bounds of an allocation are the inferred bounds, if the user did not give any. -/
theorem inferredDims_default {b : Nat} {bounds : List Interval} (h : ∀ i ∈ bounds, ¬ Mentions b i.min ∧ ¬ Mentions b i.max) {d : Nat} {D : DimE}
    (hD : (inferredDims b (defaultDims b bounds.length) bounds)[d]? = some D) :
    ∃ i, bounds[d]? = some i ∧ D.bounds.min = i.min ∧ D.bounds.max = i.max := by
  simp only [inferredDims, defaultDims, List.map_map, List.getElem?_map, Option.map_eq_some_iff, Function.comp] at hD
  obtain ⟨k, hk, rfl⟩ := hD
  rcases Nat.lt_or_ge d bounds.length with hl | hl
  · rw [List.getElem?_range hl, Option.some.injEq] at hk
    subst hk
    obtain ⟨i, hi⟩ : ∃ i, bounds[d]? = some i := ⟨_, List.getElem?_eq_getElem hl⟩
    refine ⟨i, hi, ?_⟩
    have hkeys : ∀ s ∈ dimSubs b bounds, ∃ f d, s.1 = .var b f d := by
      intro s hs
      obtain ⟨d, i, -, rfl | rfl | rfl⟩ := mem_dimSubs.1 hs <;> exact ⟨_, _, rfl⟩
    have hn := h i (List.mem_of_getElem? hi)
    obtain ⟨e1, e2⟩ := substFromMap_bounds (dimSubs b bounds) ⟨bufBoundsE b d, .var b .stride d, .var b .foldFactor d⟩
    rw [e1, e2]
    constructor
    · refine substAll_var hn.1 _ hkeys (mem_dimSubs.2 ⟨d, i, hi, Or.inl rfl⟩) ?_
      intro s hs hk
      obtain ⟨d', i', hi', rfl | rfl | rfl⟩ := mem_dimSubs.1 hs
      · simp only [Expr.var.injEq, true_and, Nat.cast_inj] at hk
        rw [hk, hi] at hi'
        cases hi'
        rfl
      · simp at hk
      · simp at hk
    · refine substAll_var hn.2 _ hkeys (mem_dimSubs.2 ⟨d, i, hi, Or.inr (Or.inl rfl)⟩) ?_
      intro s hs hk
      obtain ⟨d', i', hi', rfl | rfl | rfl⟩ := mem_dimSubs.1 hs
      · simp at hk
      · simp only [Expr.var.injEq, true_and, Nat.cast_inj] at hk
        rw [hk, hi] at hi'
        cases hi'
        rfl
      · simp at hk
  · rw [List.getElem?_eq_none (by simpa using hl)] at hk
    cases hk

/-! ### Checks -/

section
variable {m : Mem} {ρ : Env}

theorem eval_isBroadcastE (d : DimE) : eval m ρ (isBroadcastE d) ≠ 0 ↔ eval m ρ d.bounds.min = 0 ∧ eval m ρ d.bounds.max = 0 ∧ eval m ρ d.stride = 0 := by
  simp [isBroadcastE, eval_mkBin, BinOp.denote, eval, b2i, and_assoc]
  by_cases h1 : eval m ρ d.bounds.min = 0 <;> by_cases h2 : eval m ρ d.bounds.max = 0 <;> by_cases h3 : eval m ρ d.stride = 0 <;> simp [h1, h2, h3]

/-- C47: if the checks before an allocation succeed, the allocation contains the inferred bounds, or is a broadcast. -/
theorem allocChecks_sound {dims : List DimE} {bounds : List Interval} (h : ∀ c ∈ allocChecks dims bounds, eval m ρ c ≠ 0) {p : Int} {d : Nat} {D : DimE} {i : Interval}
    (hD : dims[d]? = some D) (hi : bounds[d]? = some i) (hmin : m.field p .min d = eval m ρ D.bounds.min) (hmax : m.field p .max d = eval m ρ D.bounds.max)
    (hst : m.field p .stride d = eval m ρ D.stride) : CoversDim m ρ p d i := by
  have hz : (D, i) ∈ dims.zip bounds := List.mem_of_getElem? (i := d) (by rw [List.getElem?_zip_eq_some]; exact ⟨hD, hi⟩)
  have h1 := h _ (List.mem_flatMap.2 ⟨(D, i), hz, List.mem_cons_self ..⟩)
  have h2 := h _ (List.mem_flatMap.2 ⟨(D, i), hz, List.mem_cons_of_mem _ (List.mem_cons_self ..)⟩)
  simp only [eval_mkBin, BinOp.denote, b2i, ne_eq, ite_eq_right_iff, Classical.not_imp] at h1 h2
  unfold CoversDim IsBcast
  rw [hmin, hmax, hst]
  by_cases hb : eval m ρ (isBroadcastE D) ≠ 0
  · exact Or.inl ((eval_isBroadcastE D).1 hb)
  · right
    rw [not_not] at hb
    simp only [hb, ne_eq, not_true_eq_false, false_or] at h1 h2
    constructor
    · by_contra hc
      simp [hc] at h1
    · by_contra hc
      simp [hc] at h2

/-- C47: if the checks of an input of the pipeline succeed, the input contains the inferred bounds. -/
theorem inputChecks_sound {dims : List DimE} {bounds : List Interval} (h : ∀ c ∈ inputChecks dims bounds, eval m ρ c ≠ 0) {p : Int} {d : Nat} {D : DimE} {i : Interval}
    (hD : dims[d]? = some D) (hi : bounds[d]? = some i) (hmin : m.field p .min d = eval m ρ D.bounds.min) (hmax : m.field p .max d = eval m ρ D.bounds.max) :
    m.field p .min d ≤ eval m ρ i.min ∧ eval m ρ i.max ≤ m.field p .max d := by
  have hz : (D, i) ∈ dims.zip bounds := List.mem_of_getElem? (i := d) (by rw [List.getElem?_zip_eq_some]; exact ⟨hD, hi⟩)
  have h1 := h _ (List.mem_flatMap.2 ⟨(D, i), hz, List.mem_cons_self ..⟩)
  have h2 := h _ (List.mem_flatMap.2 ⟨(D, i), hz, List.mem_cons_of_mem _ (List.mem_cons_self ..)⟩)
  simp only [eval_mkBin, BinOp.denote, b2i, ne_eq, ite_eq_right_iff, Classical.not_imp] at h1 h2
  rw [hmin, hmax]
  exact ⟨h1.1, h2.1⟩

end

/-! ### The metadata of the buffers -/

theorem eval_scoped {m : Mem} {e : Expr} {bs : List Nat} (h : ∀ y ∈ bs, ¬ FreeIn y e) {ρ ρ' : Env} (hr : ∀ y, y ∉ bs → ρ' y = ρ y) : eval m ρ' e = eval m ρ e :=
  eval_congr_free m _ _ _ fun y hy => hr y fun hb => h y hb hy

theorem MakeBuffers.others {m : Mem} {bnd : Nat → List Interval} {bs : List Nat} {ρ ρ' : Env} (h : MakeBuffers m bnd bs ρ ρ') : ∀ y, y ∉ bs → ρ' y = ρ y := by
  induction h with
  | nil => intro _ _; rfl
  | @cons b bs ρ ρ' p _ _ ih =>
    intro y hy
    simp only [List.mem_cons, not_or] at hy
    rw [ih y hy.2, Env.set_other _ hy.1 _]

/-- C47: after `make_buffers`, every buffer has its bounds, in terms of the metadata of the other buffers. -/
theorem MakeBuffers.hasBounds {m : Mem} {bnd : Nat → List Interval} {bs : List Nat} {ρ ρ' : Env} (h : MakeBuffers m bnd bs ρ ρ') (hs : Scoped bnd bs) :
    ∀ b ∈ bs, HasBounds m ρ' (ρ' b) (bnd b) := by
  induction h with
  | nil => intro _ h; simp at h
  | @cons b bs ρ ρ' p hp hrest ih =>
    cases hs with
    | cons hnb hfree hs =>
      intro y hy
      rcases List.mem_cons.1 hy with rfl | hy
      · have hb : ρ' y = p := by rw [hrest.others y hnb, Env.set_same]
        rw [hb]
        intro d i hi
        have hf := hfree i (List.mem_of_getElem? hi)
        have hr : ∀ z, z ∉ y :: bs → ρ' z = ρ z := by
          intro z hz
          simp only [List.mem_cons, not_or] at hz
          rw [hrest.others z hz.2, Env.set_other _ hz.1 _]
        rw [eval_scoped (fun z hz => (hf z hz).1) hr, eval_scoped (fun z hz => (hf z hz).2) hr]
        exact hp d i hi
      · exact ih hs y hy

section
variable {m : Mem} {cfg : SimpCfg}

/-- If the buffers contain the inferred bounds, every read is within the bounds of the buffer. -/
theorem readsInBounds_of_covers (hm : BufMem m) (hc : ∀ ρ, SimpCfgOK cfg m ρ) (n : Nat) (isOutput : Nat → Bool) {order : List PFunc} {rank : Nat → Nat}
    (hr : RankOK order rank) (hf : ∀ f ∈ order, f.OK) {ρ : Env}
    (hcov : ∀ f ∈ order, ∀ i ∈ f.inputs, ∀ b, allocBounds cfg n isOutput order i.sym = some b →
      NoVars f b ∧ EndsOK b ∧ ∀ (d : Nat) (iv : Interval), b[d]? = some iv → CoversDim m ρ (ρ i.sym) d iv) : ReadsInBounds m ρ order := by
  intro f hfo i hi π x hp hx d hd
  obtain ⟨b, hb, hlen, hcover⟩ := allocBounds_cover_partial hm hc n isOutput hr hfo (hf f hfo) hi
  obtain ⟨hnv, hok, hcd⟩ := hcov f hfo i hi b hb
  obtain ⟨iv, hiv⟩ : ∃ iv, b[d]? = some iv := ⟨_, List.getElem?_eq_getElem (hlen ▸ hd)⟩
  obtain ⟨h1, h2⟩ := hcover hnv ρ π x hp hx d iv hiv
  obtain ⟨o1, o2⟩ := hok iv (List.mem_of_getElem? hiv)
  rcases hcd d iv hiv with h | h
  · exact Or.inl h
  · exact Or.inr ⟨h.1.trans (h1 o1), (h2 o2).trans h.2⟩

/-- The dimensions of an intermediate buffer: those that are inferred, or those of the user, if the checks succeed (with a stride that is known). -/
inductive DimsOK (m : Mem) (ρ : Env) (b : Nat) (bounds : List Interval) (bnd : List Interval) : Prop
  | default : bnd = (inferredDims b (defaultDims b bounds.length) bounds).map DimE.bounds → (∀ i ∈ bounds, ¬ Mentions b i.min ∧ ¬ Mentions b i.max) → DimsOK m ρ b bounds bnd
  | user (dims : List DimE) : bnd = (inferredDims b dims bounds).map DimE.bounds → dims.length = bounds.length →
      (∀ c ∈ allocChecks (inferredDims b dims bounds) bounds, eval m ρ c ≠ 0) →
      (∀ (d : Nat) (D : DimE), (inferredDims b dims bounds)[d]? = some D → m.field (ρ b) .stride d = eval m ρ D.stride) → DimsOK m ρ b bounds bnd

/-- C47 (partial): after `make_buffers`, if the checks succeed, for every func of the pipeline, every point of its outputs, and every element of an input that is read for it: the element
is within the bounds of the buffer. -/
theorem pipeline_reads_in_bounds_partial (hm : BufMem m) (hc : ∀ ρ, SimpCfgOK cfg m ρ) (n : Nat) (isOutput : Nat → Bool) {order : List PFunc} {rank : Nat → Nat}
    (hr : RankOK order rank) (hf : ∀ f ∈ order, f.OK) {bnd : Nat → List Interval} {bs : List Nat} {ρ₀ ρ : Env} (hmake : MakeBuffers m bnd bs ρ₀ ρ) (hs : Scoped bnd bs)
    (hfin : ∀ f ∈ order, ∀ i ∈ f.inputs, ∀ b, allocBounds cfg n isOutput order i.sym = some b → NoVars f b ∧ EndsOK b)
    (hdims : ∀ b ∈ bs, ∀ bounds, allocBounds cfg n isOutput order b = some bounds → DimsOK m ρ b bounds (bnd b))
    {inputs : List (Nat × List DimE)} (hch : ∀ c ∈ addInputChecks inputs (allocBounds cfg n isOutput order), eval m ρ c ≠ 0)
    (hin : ∀ f ∈ order, ∀ i ∈ f.inputs, i.sym ∉ bs → ∃ dims, (i.sym, dims) ∈ inputs ∧ i.rank ≤ dims.length ∧ HasBounds m ρ (ρ i.sym) (dims.map DimE.bounds)) :
    ReadsInBounds m ρ order := by
  refine readsInBounds_of_covers hm hc n isOutput hr hf fun f hfo i hi b hb => ?_
  obtain ⟨hnv, hok⟩ := hfin f hfo i hi b hb
  refine ⟨hnv, hok, fun d iv hiv => ?_⟩
  have hl : d < b.length := (List.getElem?_eq_some_iff.1 hiv).1
  by_cases hbs : i.sym ∈ bs
  · have hB := hmake.hasBounds hs i.sym hbs
    cases hdims i.sym hbs b hb with
    | default h1 h2 =>
      have hlen : d < (inferredDims i.sym (defaultDims i.sym b.length) b).length := by simpa [inferredDims, defaultDims] using hl
      obtain ⟨j, hj, e1, e2⟩ := inferredDims_default h2 (List.getElem?_eq_getElem hlen)
      rw [hiv, Option.some.injEq] at hj
      have hB' := hB d _ (by rw [h1, List.getElem?_map, List.getElem?_eq_getElem hlen]; rfl)
      rw [e1, e2, ← hj] at hB'
      exact Or.inr ⟨hB'.1.le, hB'.2.ge⟩
    | user dims h1 hlen hch hst =>
      have hlen' : d < (inferredDims i.sym dims b).length := by simpa [inferredDims, hlen] using hl
      have hB' := hB d _ (by rw [h1, List.getElem?_map, List.getElem?_eq_getElem hlen']; rfl)
      exact allocChecks_sound hch (List.getElem?_eq_getElem hlen') hiv hB'.1 hB'.2 (hst d _ (List.getElem?_eq_getElem hlen'))
  · obtain ⟨dims, hmem, hlen, hB⟩ := hin f hfo i hi hbs
    obtain ⟨b', hb', hbl, -⟩ := allocBounds_cover_partial hm hc n isOutput hr hfo (hf f hfo) hi
    rw [hb] at hb'
    cases hb'
    have hch : ∀ c ∈ inputChecks dims b, eval m ρ c ≠ 0 := fun c hc => hch c (List.mem_flatMap.2 ⟨_, hmem, by simpa only [hb] using hc⟩)
    have hlen' : d < dims.length := hl.trans_le (hbl ▸ hlen)
    have hB' := hB d _ (by rw [List.getElem?_map, List.getElem?_eq_getElem hlen']; rfl)
    exact Or.inr (inputChecks_sound hch (List.getElem?_eq_getElem hlen') hiv hB'.1 hB'.2)

end

/-! ### Loops -/

section
variable {m : Mem} {bnd : Nat → List Interval}

theorem Cropped.shrink {ρ : Env} {p p' : Int} {dims : List Interval} {D : Nat → Prop} (h : Cropped m ρ p p' dims D) (d : Nat) :
    m.field p .min d ≤ m.field p' .min d ∧ m.field p' .max d ≤ m.field p .max d := by
  by_cases hd : D d
  · obtain ⟨a, b⟩ := h.crop d _ hd (List.getElem?_eq_getElem (h.dom d hd))
    rw [a, b]
    exact ⟨le_max_left _ _, min_le_left _ _⟩
  · obtain ⟨a, b⟩ := h.keep d hd
    rw [a, b]
    exact ⟨le_refl _, le_refl _⟩

theorem CropSteps.others {bs : List Nat} {ρ ρ' : Env} (h : CropSteps m bnd bs ρ ρ') : ∀ y, y ∉ bs → ρ' y = ρ y := by
  induction h with
  | nil => intro _ _; rfl
  | crop _ _ ih =>
    intro y hy
    simp only [List.mem_cons, not_or] at hy
    rw [ih y hy.2, Env.set_other _ hy.1 _]
  | make _ _ _ ih =>
    intro y hy
    simp only [List.mem_cons, not_or] at hy
    rw [ih y hy.2, Env.set_other _ hy.1 _]

theorem CropSteps.shrink {bs : List Nat} {ρ ρ' : Env} (h : CropSteps m bnd bs ρ ρ') (hs : Scoped bnd bs) :
    ∀ y (d : Nat), m.field (ρ y) .min d ≤ m.field (ρ' y) .min d ∧ m.field (ρ' y) .max d ≤ m.field (ρ y) .max d := by
  induction h with
  | nil => intro _ _; exact ⟨le_refl _, le_refl _⟩
  | @crop b bs ρ ρ' p D hcr hrest ih =>
    cases hs with
    | cons hnb _ hs =>
      intro y d
      have := ih hs y d
      by_cases hy : y = b
      · subst hy
        rw [Env.set_same] at this
        have h1 := hcr.shrink d
        exact ⟨h1.1.trans this.1, this.2.trans h1.2⟩
      · rwa [Env.set_other _ hy _] at this
  | @make b bs ρ ρ' p hB hin hrest ih =>
    cases hs with
    | cons hnb _ hs =>
      intro y d
      have := ih hs y d
      by_cases hy : y = b
      · subst hy
        rw [Env.set_same] at this
        have h1 := hin d
        exact ⟨h1.1.trans this.1, this.2.trans h1.2⟩
      · rwa [Env.set_other _ hy _] at this

/-- After the crops, every buffer is cropped to its bounds in terms of the new metadata, or it has these bounds. -/
theorem CropSteps.cropped {bs : List Nat} {ρ ρ' : Env} (h : CropSteps m bnd bs ρ ρ') (hs : Scoped bnd bs) :
    ∀ b ∈ bs, (∃ D, Cropped m ρ' (ρ b) (ρ' b) (bnd b) D) ∨ HasBounds m ρ' (ρ' b) (bnd b) := by
  induction h with
  | nil => intro _ h; simp at h
  | @crop b bs ρ ρ' p D hcr hrest ih =>
    cases hs with
    | cons hnb hfree hs =>
      intro y hy
      by_cases hyb : y = b
      · subst hyb
        left
        have hb : ρ' y = p := by rw [hrest.others y hnb, Env.set_same]
        rw [hb]
        have hr : ∀ z, z ∉ y :: bs → ρ' z = ρ z := by
          intro z hz
          simp only [List.mem_cons, not_or] at hz
          rw [hrest.others z hz.2, Env.set_other _ hz.1 _]
        refine ⟨D, fun d i hd hi => ?_, hcr.keep, hcr.dom, hcr.stride⟩
        have hf := hfree i (List.mem_of_getElem? hi)
        rw [eval_scoped (fun z hz => (hf z hz).1) hr, eval_scoped (fun z hz => (hf z hz).2) hr]
        exact hcr.crop d i hd hi
      · rcases List.mem_cons.1 hy with h | hy
        · exact absurd h hyb
        · have := ih hs y hy
          rwa [Env.set_other _ hyb _] at this
  | @make b bs ρ ρ' p hB hin hrest ih =>
    cases hs with
    | cons hnb hfree hs =>
      intro y hy
      by_cases hyb : y = b
      · subst hyb
        right
        have hb : ρ' y = p := by rw [hrest.others y hnb, Env.set_same]
        rw [hb]
        have hr : ∀ z, z ∉ y :: bs → ρ' z = ρ z := by
          intro z hz
          simp only [List.mem_cons, not_or] at hz
          rw [hrest.others z hz.2, Env.set_other _ hz.1 _]
        intro d i hi
        have hf := hfree i (List.mem_of_getElem? hi)
        rw [eval_scoped (fun z hz => (hf z hz).1) hr, eval_scoped (fun z hz => (hf z hz).2) hr]
        exact hB d i hi
      · rcases List.mem_cons.1 hy with h | hy
        · exact absurd h hyb
        · have := ih hs y hy
          rwa [Env.set_other _ hyb _] at this

/-- C47 (partial): in an iteration of a loop, the outputs (`base`) of the func of the loop are cropped; then other buffers (`bs`) are cropped, to the bounds that are inferred from the metadata that
is already cropped. If the funcs only read within bounds outside the loop, those that run in the loop only read within bounds that are cropped. -/
theorem loop_reads_in_bounds_partial {cfg : SimpCfg} (hm : BufMem m) (hc : ∀ ρ, SimpCfgOK cfg m ρ) (n : Nat) (isOutput : Nat → Bool) {order : List PFunc} {rank : Nat → Nat}
    (hr : RankOK order rank) (hf : ∀ f ∈ order, f.OK) {base bs : List Nat} {ρ ρ₁ ρ₂ : Env} (hout : ReadsInBounds m ρ order)
    -- the crop of the outputs of the func of the loop
    (h1 : ∀ y, y ∉ base → ρ₁ y = ρ y)
    (h1' : ∀ y ∈ base, ∀ d : Nat, m.field (ρ y) .min d ≤ m.field (ρ₁ y) .min d ∧ m.field (ρ₁ y) .max d ≤ m.field (ρ y) .max d)
    -- the crops of other buffers
    (h2 : CropSteps m bnd bs ρ₁ ρ₂) (hs : Scoped bnd bs) (hdisj : ∀ b ∈ bs, b ∉ base)
    -- the funcs that run in the loop
    {S : List PFunc} (hS : ∀ f ∈ S, f ∈ order) (hbase : ∀ f ∈ S, ∀ i ∈ f.inputs, i.sym ∉ base)
    -- the expressions of the user do not depend on the metadata of the buffers
    (hsan : ∀ f ∈ S, ∀ i ∈ f.inputs, ∀ iv, iv ∈ i.bounds ∨ iv ∈ i.inputCrop → ∀ y, y ∈ base ∨ y ∈ bs → ¬ FreeIn y iv.min ∧ ¬ FreeIn y iv.max)
    -- the bounds of the crops contain the inferred bounds
    (hfin : ∀ f ∈ S, ∀ i ∈ f.inputs, ∀ b, allocBounds cfg n isOutput order i.sym = some b → NoVars f b ∧ EndsOK b)
    (hcov : ∀ b ∈ bs, ∀ bounds, allocBounds cfg n isOutput order b = some bounds → ∀ (d : Nat) (iv jv : Interval), bounds[d]? = some iv → (bnd b)[d]? = some jv →
      eval m ρ₂ jv.min ≤ eval m ρ₂ iv.min ∧ eval m ρ₂ iv.max ≤ eval m ρ₂ jv.max)
    (hlen : ∀ b ∈ bs, ∀ bounds, allocBounds cfg n isOutput order b = some bounds → bounds.length = (bnd b).length)
    -- the buffers that are cropped are not broadcasts
    (hbc : ∀ b ∈ bs, ∀ d < rank b, ¬ IsBcast m (ρ b) d) : ReadsInBounds m ρ₂ S := by
  intro f hfS i hi π x hp hx d hd
  have hfo := hS f hfS
  have hshrink : ∀ y (d : Nat), m.field (ρ y) .min d ≤ m.field (ρ₂ y) .min d ∧ m.field (ρ₂ y) .max d ≤ m.field (ρ y) .max d := by
    intro y d
    have a := h2.shrink hs y d
    by_cases hy : y ∈ base
    · have b := h1' y hy d
      exact ⟨b.1.trans a.1, a.2.trans b.2⟩
    · rwa [h1 y hy] at a
  have hother : ∀ y, y ∉ base → y ∉ bs → ρ₂ y = ρ y := fun y hy hy' => by rw [h2.others y hy', h1 y hy]
  -- the same point outside the loop
  let π' : Env := fun y => if y ∈ f.vars then π y else ρ y
  have hp' : PointOf m ρ f i.outputSlice π' := by
    refine ⟨fun y hy => if_neg hy, fun v hv => ?_⟩
    obtain ⟨o, ho, dd, e, hd, he, hlo, hhi⟩ := hp.within v hv
    refine ⟨o, ho, dd, e, hd, he, ?_⟩
    have := hshrink o.sym e
    simp only [π', if_pos hv]
    exact ⟨this.1.trans hlo, hhi.trans this.2⟩
  have hev : ∀ e : Expr, (∀ y, y ∈ base ∨ y ∈ bs → ¬ FreeIn y e) → eval m π' e = eval m π e := by
    intro e he
    refine eval_congr_free m _ _ _ fun y hy => ?_
    simp only [π']
    split
    · rfl
    · next hv =>
      rw [hp.others y hv, hother y (fun h => he y (Or.inl h) hy) (fun h => he y (Or.inr h) hy)]
  have hx' : ReadsAt m π' i x := by
    intro k b hb
    obtain ⟨⟨a1, a2⟩, a3⟩ := hx k b hb
    have hsb := fun y hy => hsan f hfS i hi b (Or.inl (List.mem_of_getElem? hb)) y hy
    rw [hev b.min fun y hy => (hsb y hy).1, hev b.max fun y hy => (hsb y hy).2]
    refine ⟨⟨a1, a2⟩, fun c hc => ?_⟩
    have hsc := fun y hy => hsan f hfS i hi c (Or.inr (List.mem_of_getElem? hc)) y hy
    have := a3 c hc
    unfold Interval.Has at this ⊢
    rwa [hev c.min fun y hy => (hsc y hy).1, hev c.max fun y hy => (hsc y hy).2]
  have hold := hout f hfo i hi π' x hp' hx' d hd
  by_cases hb : i.sym ∈ bs
  · right
    have hnb : ¬ IsBcast m (ρ i.sym) d := hbc _ hb d (by rw [← hr f hfo i hi]; exact hd)
    have hold := hold.resolve_left hnb
    obtain ⟨b, hbb, hbl, hcover⟩ := allocBounds_cover_partial hm hc n isOutput hr hfo (hf f hfo) hi
    obtain ⟨hnv, hok⟩ := hfin f hfS i hi b hbb
    obtain ⟨iv, hiv⟩ : ∃ iv, b[d]? = some iv := ⟨_, List.getElem?_eq_getElem (hbl ▸ hd)⟩
    obtain ⟨jv, hjv⟩ : ∃ jv, (bnd i.sym)[d]? = some jv := ⟨_, List.getElem?_eq_getElem (by rw [← hlen _ hb b hbb, hbl]; exact hd)⟩
    obtain ⟨c1, c2⟩ := hcover hnv ρ₂ π x hp hx d iv hiv
    obtain ⟨o1, o2⟩ := hok iv (List.mem_of_getElem? hiv)
    obtain ⟨k1, k2⟩ := hcov _ hb b hbb d iv jv hiv hjv
    have hlo := k1.trans (c1 o1)
    have hhi := (c2 o2).trans k2
    have hρ1 : ρ₁ i.sym = ρ i.sym := h1 _ (hdisj _ hb)
    rcases h2.cropped hs i.sym hb with ⟨D, hD⟩ | hB
    · rw [hρ1] at hD
      by_cases hDd : D d
      · obtain ⟨e1, e2⟩ := hD.crop d jv hDd hjv
        rw [e1, e2]
        exact ⟨max_le hold.1 hlo, le_min hold.2 hhi⟩
      · obtain ⟨e1, e2⟩ := hD.keep d hDd
        rw [e1, e2]
        exact hold
    · obtain ⟨e1, e2⟩ := hB d jv hjv
      rw [e1, e2]
      exact ⟨hlo, hhi⟩
  · rw [hother i.sym (hbase f hfS i hi) hb]
    exact hold

end

/-! ### The iterations of a loop -/

/-- C47: a loop over the bounds of the outputs with a positive step, where every output is cropped to `[x, x + step - 1]`: every index of every output that has the dimension of the loop is in the
crop of exactly one iteration. `v k` is the value of the loop variable in iteration `k`. -/
theorem loop_partition {m : Mem} {ρ : Env} {outputs : List POutput} {x : Nat} {step : Expr} {L : Interval} (hL : getLoopBounds outputs x = some L)
    (hst : 0 < eval m ρ step) (hfree : ¬ FreeIn x step) (hx : ∀ o ∈ outputs, o.sym ≠ x) {t : Nat × Nat × Interval} (ht : t ∈ cropForLoop outputs x step) {y : Int}
    (h1 : m.field (ρ t.1) .min t.2.1 ≤ y) (h2 : y ≤ m.field (ρ t.1) .max t.2.1) :
    ∃! k : Nat, eval m ρ L.min + k * eval m ρ step ≤ eval m ρ L.max ∧ t.2.2.Has m (ρ.set x (eval m ρ L.min + k * eval m ρ step)) y := by
  simp only [cropForLoop, List.mem_filterMap] at ht
  obtain ⟨u, hu, hut⟩ := ht
  split at hut
  · next hux =>
    cases hut
    obtain ⟨-, -, -, hb⟩ := (getOutputBounds_inv (m := m) (ρ := ρ) outputs []).some x L hL
    obtain ⟨b1, b2⟩ := hb u hu hux
    have hlo := b1.trans h1
    have hhi := h2.trans b2
    generalize hs : eval m ρ step = s at hst ⊢
    generalize eval m ρ L.min = a at hlo ⊢
    generalize eval m ρ L.max = c at hhi ⊢
    have hev : ∀ v : Int, (Interval.bounds (.v x) (mkBin .sub (mkBin .add (.v x) step) (.const 1))).Has m (ρ.set x v) y ↔ v ≤ y ∧ y ≤ v + s - 1 := by
      intro v
      have e : eval m (ρ.set x v) step = s := by rw [eval_set_not_free _ _ _ _ _ hfree, hs]
      have d1 : (mkBin .sub (mkBin .add (.v x) step) (.const 1)).defined = true := by rw [defined_mkBin]
      have d2 : (Expr.v x).defined = true := rfl
      simp [Interval.Has, Interval.bounds, d1, d2, eval_mkBin, BinOp.denote, e]
      simp [eval, Expr.v, Env.set_same]
    have hdm := Int.mul_ediv_add_emod (y - a) s
    have hnn : 0 ≤ (y - a) / s := Int.ediv_nonneg (by omega) hst.le
    have hem := Int.emod_nonneg (y - a) (by omega : s ≠ 0)
    have hem' := Int.emod_lt_of_pos (y - a) hst
    have hk : (((y - a) / s).toNat : Int) = (y - a) / s := Int.toNat_of_nonneg hnn
    refine ⟨((y - a) / s).toNat, ?_, ?_⟩
    · simp only
      rw [hev, hk, mul_comm]
      refine ⟨?_, ?_, ?_⟩ <;> omega
    · intro k hk'
      simp only at hk'
      rw [hev] at hk'
      obtain ⟨-, q1, q2⟩ := hk'
      have : (y - a) / s = (k : Int) := by
        rw [Int.ediv_eq_iff_of_pos hst]
        constructor
        · rw [mul_comm]; linarith [mul_comm (k : Int) s]
        · linarith [mul_comm (k : Int) s]
      omega
  · cases hut

end Slinky
