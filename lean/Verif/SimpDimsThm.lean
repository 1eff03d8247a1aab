import Verif.SimpDims

/-!
# C65: the metadata of buffers that the simplifier declares. Theorems
-/

namespace Slinky.SD

open Slinky VW MV

variable {w : World} {l : List Ev} {ρ : SEnv} {prove : Expr → Bool}

theorem evalI_defined {e : Expr} {v : Int} (h : evalI w l ρ e = some v) : e.defined = true := by
  cases e <;> first | rfl | simp [evalI, evalS] at h

theorem prove_eq (hs : Sound w l ρ prove) {a b : Expr} {x y : Int} (ha : evalI w l ρ a = some x) (hb : evalI w l ρ b = some y)
    (h : prove (mkBin .eq a b) = true) : x = y := by
  have := hs.nonzero _ h
  rw [evalI_bin ha hb] at this
  simp only [BinOp.machine] at this
  by_contra hne
  exact this (by simp [hne])

theorem evalI_field {src : Nat} {b : Buf} (hb : ρ.buf? src = some b) (f : Field) (k : Int) (hf : f ≠ .none) :
    evalI w l ρ (.var src f k) = some ((Obj.ofBuf b).field f k) := by
  have := buf_of hb
  cases f <;> first | exact absurd rfl hf | simp [evalI, evalS, this, Val.int?]

/-- A metadatum that has a value has the value of the source. -/
theorem isMeta_value (hs : Sound w l ρ prove) {x value dflt : Expr} {sym : Nat} {f : Field} {k : Int} {b : Buf} {v : Int}
    (hb : ρ.buf? sym = some b) (hf : f ≠ .none) (hk : Known w l ρ value ((Obj.ofBuf b).field f k)) (h : isMeta prove x value sym f k dflt = true)
    (hx : evalI w l ρ x = some v) : v = (Obj.ofBuf b).field f k := by
  have hd := evalI_defined hx
  have hv := evalI_field (w := w) (l := l) hb f k hf
  unfold isMeta at h
  rw [hd] at h
  simp only [Bool.not_true, Bool.false_and, Bool.false_eq_true, if_false] at h
  split at h
  · rename_i e
    rw [e, hv] at hx
    exact (Option.some.inj hx).symm
  · cases hd' : value.defined with
    | true =>
      simp only [hd', if_true] at h
      split at h
      · rename_i hp
        exact prove_eq hs hx (hk hd') hp
      · cases h
    | false =>
      simp only [hd', Bool.false_eq_true, if_false] at h
      split at h
      · rename_i hp
        exact prove_eq hs hx hv hp
      · cases h

/-- A fold factor that is not given is `unfolded`. -/
theorem isMeta_default (hs : Sound w l ρ prove) {x value : Expr} {c : Int} {sym : Nat} {f : Field} {k : Int} {b : Buf}
    (hb : ρ.buf? sym = some b) (hf : f ≠ .none) (hk : Known w l ρ value ((Obj.ofBuf b).field f k)) (h : isMeta prove x value sym f k (.const c) = true)
    (hx : x.defined = false) (hu : value.defined = true) : (Obj.ofBuf b).field f k = c := by
  unfold isMeta at h
  rw [hx, hu] at h
  simp only [Bool.not_false, Bool.not_true, Bool.and_false, Bool.false_eq_true, if_false, if_true, Bool.true_and] at h
  split at h
  · rename_i e; subst e; simp [Expr.defined] at hx
  · split at h
    · rename_i hp
      rw [hs.undef x value (.inl hx)] at hp; cases hp
    · simp only [Bool.and_eq_true] at h
      exact prove_eq hs (hk hu) (by simp [evalI, evalS, Val.int?]) h.2

theorem iv_vals {i : Interval} {v : Int × Int} (hw : i.WF) (h : evalIvS w l ρ i = some v) : evalI w l ρ i.min = some v.1 ∧ evalI w l ρ i.max = some v.2 := by
  simp only [evalIvS, Option.bind_eq_bind] at h
  obtain ⟨a, ha, h⟩ := Option.bind_eq_some_iff.1 h
  split at h
  · rename_i hp
    obtain rfl := Option.some.inj h
    unfold Interval.isPoint at hp
    simp only [Bool.and_eq_true] at hp
    exact ⟨ha, by rw [← hw hp.2]; exact ha⟩
  · obtain ⟨c, hc, h⟩ := Option.bind_eq_some_iff.1 h
    obtain rfl := Option.some.inj h
    exact ⟨ha, hc⟩

/-- The values of one dimension. -/
structure DimVal (w : World) (l : List Ev) (ρ : SEnv) (D : DimE) (d : Dim) : Prop where
  bounds : evalIvS w l ρ D.bounds = some (d.min, d.max)
  stride : evalI w l ρ D.stride = some d.stride
  fold : evalDefS w l ρ D.fold Dim.unfolded = some d.fold

theorem dims_vals : ∀ (ds : List DimE) (K : List Dim), evalDimsS w l ρ none ds = some K ↔ List.Forall₂ (DimVal w l ρ) ds K
  | [], K => by simp [evalDimsS, eq_comm]
  | D :: ds, K => by
    constructor
    · intro h
      obtain ⟨v, s, f, K', h1, h2, h3, h4, rfl⟩ := dims_cons h
      exact .cons ⟨h1, h2, h3⟩ ((dims_vals ds K').1 h4)
    · intro h
      cases h with
      | @cons _ d _ K' h1 h2 =>
        simp [evalDimsS, (dims_vals ds K').2 h2, h1.bounds, h1.stride, h1.fold]

theorem bufferDim_val {sym k : Nat} {b : Buf} (hb : ρ.buf? sym = some b) : DimVal w l ρ (bufferDim sym k) (b.dim k) := by
  have := bufDim_eval (w := w) (l := l) (D := bufferDim sym k) (src := sym) (k := k) hb (by simp [bufferDim, bufDim, Interval.bounds]) (by intro h; cases h)
  simp only [Int.toNat_natCast] at this
  exact ⟨this.1, this.2.1, this.2.2⟩

/-- C65: a dimension that is recognized as a dimension of the source is that dimension. -/
theorem isDim_val (hs : Sound w l ρ prove) {D S : DimE} {sym k : Nat} {b : Buf} {d : Dim} (hb : ρ.buf? sym = some b) (hk : KnownDim w l ρ S (b.dim k))
    (hw : D.bounds.WF) (hu : S.fold.defined = false → D.fold.defined = false → (b.dim k).fold = Dim.unfolded) (h : isDim prove D S sym k = true)
    (hd : DimVal w l ρ D d) : d = b.dim k := by
  unfold isDim at h
  simp only [Bool.and_eq_true] at h
  obtain ⟨⟨⟨h1, h2⟩, h3⟩, h4⟩ := h
  obtain ⟨m1, m2⟩ := iv_vals hw hd.bounds
  have fm : (Obj.ofBuf b).field .min k = (b.dim k).min := by simp [Obj.field, (ofBuf_ok b).1]
  have fx : (Obj.ofBuf b).field .max k = (b.dim k).max := by simp [Obj.field, (ofBuf_ok b).1]
  have fs : (Obj.ofBuf b).field .stride k = (b.dim k).stride := by simp [Obj.field, (ofBuf_ok b).1]
  have ff : (Obj.ofBuf b).field .foldFactor k = (b.dim k).fold := by simp [Obj.field, (ofBuf_ok b).1]
  have e1 := isMeta_value hs hb (by simp) (by rw [fm]; exact hk.min) h1 m1
  have e2 := isMeta_value hs hb (by simp) (by rw [fx]; exact hk.max) h2 m2
  have e3 := isMeta_value hs hb (by simp) (by rw [fs]; exact hk.stride) h3 hd.stride
  rw [fm] at e1; rw [fx] at e2; rw [fs] at e3
  have e4 : d.fold = (b.dim k).fold := by
    have hf := hd.fold
    unfold evalDefS at hf
    split at hf
    · have := isMeta_value hs hb (by simp) (by rw [ff]; exact hk.fold) h4 hf
      rw [ff] at this; exact this
    · rename_i hn
      have hn : D.fold.defined = false := by simpa using hn
      rw [← Option.some.inj hf]
      cases hS : S.fold.defined with
      | false => exact (hu hS hn).symm
      | true =>
        have := isMeta_default hs hb (by simp) (by rw [ff]; exact hk.fold) h4 hn hS
        rw [ff] at this; exact this.symm
  cases d
  simp only at e1 e2 e3 e4
  rw [e1, e2, e3, e4]

/-- What is known of the dimensions of the source is true, and the fold factor of a dimension of which no fold factor is known is `unfolded`. -/
structure KnownDims (w : World) (l : List Ev) (ρ : SEnv) (src : List DimE) (b : Buf) : Prop where
  dim : ∀ k S, src[k]? = some S → KnownDim w l ρ S (b.dim k)
  fold : ∀ k S, src[k]? = some S → S.fold.defined = false → (b.dim k).fold = Dim.unfolded

theorem canonDim_val (hs : Sound w l ρ prove) {sym : Nat} {src : List DimE} {b : Buf} (hb : ρ.buf? sym = some b) (hk : KnownDims w l ρ src b) {n : Nat} {D : DimE} {d : Dim}
    (hw : D.bounds.WF) (hd : DimVal w l ρ D d) : DimVal w l ρ (canonDim prove sym src n D) d := by
  unfold canonDim
  split
  · rename_i k h
    have := List.find?_some h
    split at this
    · rename_i S hS
      rw [isDim_val hs hb (hk.dim k S hS) hw (fun h _ => hk.fold k S hS h) this hd]
      exact bufferDim_val hb
    · cases this
  · exact hd

theorem canonDims_val (hs : Sound w l ρ prove) {sym : Nat} {src : List DimE} {b : Buf} (hb : ρ.buf? sym = some b) (hk : KnownDims w l ρ src b) :
    ∀ (n : Nat) (ds : List DimE) (K : List Dim), (∀ D ∈ ds, D.bounds.WF) → List.Forall₂ (DimVal w l ρ) ds K → List.Forall₂ (DimVal w l ρ) (canonDims prove sym src n ds) K
  | _, [], _, _, .nil => .nil
  | n, D :: ds, _, hw, .cons h1 h2 => .cons (canonDim_val hs hb hk (hw D (by simp)) h1) (canonDims_val hs hb hk (n + 1) ds _ (fun D' h => hw D' (by simp [h])) h2)

theorem canonElem_val (hs : Sound w l ρ prove) {sym : Nat} {x value : Expr} {b : Buf} {v : Int} (hb : ρ.buf? sym = some b) (hk : Known w l ρ value b.elem)
    (hx : evalDefS w l ρ x 0 = some v) : evalDefS w l ρ (canonElem prove sym x value) 0 = some v := by
  unfold canonElem
  split
  · rename_i h
    simp only [Bool.and_eq_true, decide_eq_true_eq] at h
    unfold evalDefS at hx
    rw [if_pos h.1.1] at hx
    have hv : value.defined = true := by
      by_contra hn
      have := hs.undef x value (.inr (by simpa using hn))
      rw [this] at h; simp at h
    have := prove_eq hs hx (hk hv) h.2
    have he := evalI_field (w := w) (l := l) hb .elemSize (-1) (by simp)
    simp only [evalDefS, defined_var, if_true]
    rw [he, this]; simp [Obj.field, Obj.ofBuf]
  · exact hx

/-- C65: the `make_buffer` with the metadata of the source does what the `make_buffer` does. -/
theorem canonicalize_sem_partial (hs : Sound w l ρ prove) {sym x : Nat} {src : List DimE} {base elem value : Expr} {dims : List DimE} {body : Stmt} {b : Buf} {e : Int} {K : List Dim}
    (hb : ρ.buf? sym = some b) (hk : KnownDims w l ρ src b) (hv : Known w l ρ value b.elem) (hw : ∀ D ∈ dims, D.bounds.WF)
    (he : evalDefS w l ρ elem 0 = some e) (hd : evalDimsS w l ρ none dims = some K) (skip : Bool) :
    sem w skip (.makeBuffer x base (canonElem prove sym elem value) (canonDims prove sym src 0 dims) body) ρ l = sem w skip (.makeBuffer x base elem dims body) ρ l := by
  have h1 := canonElem_val hs hb hv he
  have h2 := (dims_vals _ _).2 (canonDims_val hs hb hk 0 dims K hw ((dims_vals _ _).1 hd))
  simp only [sem, h1, h2, he, hd]

/-! ## `mutate_dim` -/

theorem dropUnfolded_val {f : Expr} : evalDefS w l ρ (dropUnfolded f) Dim.unfolded = evalDefS w l ρ f Dim.unfolded := by
  unfold dropUnfolded
  split
  · rename_i h; subst h; simp [evalDefS, Expr.defined, evalI, evalS, Val.int?]
  · rfl

theorem div_eval {x y : Int} (hx : InRange 64 x) (hy : InRange 64 y) (hm : minOf 64 < x) : BinOp.machine .div x y = some (x / y) := by
  simp only [BinOp.machine]
  exact euclideanDiv_spec 64 x y hx hy (by omega)

/-- Where a fold factor is dropped nothing but the first address changes. -/
theorem sameDim_drop {D : Dim} (hg : 0 < D.fold ∨ D.fold = Dim.unfolded ∨ D.stride = 0) (h : D.min / D.fold = D.max / D.fold) :
    SameDim D { D with fold := Dim.unfolded } := by
  refine ⟨rfl, rfl, rfl, fun i h1 h2 => ?_⟩
  simp only [Dim.flatOffset, or_true, if_true]
  split
  · ring
  · rename_i hn
    push Not at hn
    have hf : 0 < D.fold := by
      rcases hg with h | h | h
      · exact h
      · exact absurd h hn.2
      · exact absurd h hn.1
    have e1 : i / D.fold = D.min / D.fold := by
      have a := Int.ediv_le_ediv hf h1
      have c := Int.ediv_le_ediv hf h2
      omega
    rw [Int.emod_def, Int.emod_def, e1]
    ring

theorem SameDim.refl (D : Dim) : SameDim D D := ⟨rfl, rfl, rfl, fun _ _ _ => rfl⟩

/-- Does `mutate_dim` keep the address of the first element? -/
def KeepsFirst (D E : Dim) : Prop := E.flatOffset D.min = D.flatOffset D.min

/-- C65: a dimension whose stride is not the constant `auto_stride`. -/
theorem mutateDim_val (hs : Sound w l ρ prove) {D : DimE} {d : Dim} (hw : D.bounds.WF) (hg : GoodDim d) (ha : D.stride ≠ .const Dim.autoStride) (hd : DimVal w l ρ D d) :
    ∃ e, DimVal w l ρ (mutateDim prove D) e ∧ SameDim d e ∧ (e = d ∨ e = { d with fold := Dim.unfolded } ∧ d.min / d.fold = d.max / d.fold) := by
  by_cases hp : dropsFold prove D (dropUnfolded D.fold) = true
  · have hfold : d.min / d.fold = d.max / d.fold := by
      unfold dropsFold at hp
      simp only [Bool.and_eq_true] at hp
      have hf := hd.fold
      rw [← dropUnfolded_val] at hf
      unfold evalDefS at hf
      rw [if_pos hp.1.1.1.1] at hf
      obtain ⟨m1, m2⟩ := iv_vals hw hd.bounds
      refine prove_eq hs ?_ ?_ hp.2
      · rw [evalI_bin m1 hf]; exact div_eval hg.rmin hg.rfold hg.low.1
      · rw [evalI_bin m2 hf]; exact div_eval hg.rmax hg.rfold hg.low.2
    refine ⟨{ d with fold := Dim.unfolded }, ⟨hd.bounds, ?_, ?_⟩, sameDim_drop hg.fold hfold, .inr ⟨rfl, hfold⟩⟩
    · simp only [mutateDim, if_neg ha]; exact hd.stride
    · simp only [mutateDim, hp, if_true]; rfl
  · refine ⟨d, ⟨hd.bounds, ?_, ?_⟩, .refl d, .inl rfl⟩
    · simp only [mutateDim, if_neg ha]; exact hd.stride
    · simp only [mutateDim, if_neg hp, dropUnfolded_val]; exact hd.fold

/-- What is proved to be a broadcast is one. -/
def SoundBcast (w : World) (l : List Ev) (ρ : SEnv) (bcast : DimE → Bool) : Prop := ∀ D d, bcast D = true → DimVal w l ρ D d → d.isBroadcast = true

theorem popBcast_append (bcast : DimE → Bool) (ds : List DimE) : ds = popBcast bcast ds ++ (ds.reverse.takeWhile bcast).reverse := by
  rw [popBcast, ← List.reverse_append, List.takeWhile_append_dropWhile, List.reverse_reverse]

/-- C65: broadcasts at the end that are dropped are dropped by the evaluator. -/
theorem popBcast_val {bcast : DimE → Bool} (hb : SoundBcast w l ρ bcast) {ds : List DimE} {K : List Dim} (h : List.Forall₂ (DimVal w l ρ) ds K) :
    ∃ K', List.Forall₂ (DimVal w l ρ) (popBcast bcast ds) K' ∧ K'.take (trimRank K') = K.take (trimRank K) := by
  have e := popBcast_append bcast ds
  have hq : ∀ D ∈ (ds.reverse.takeWhile bcast).reverse, bcast D = true := fun D hD => List.mem_takeWhile_imp (List.mem_reverse.1 hD)
  generalize popBcast bcast ds = p at e
  generalize (ds.reverse.takeWhile bcast).reverse = q at e hq
  subst e
  have h1 := List.forall₂_take p.length h
  have h2 := List.forall₂_drop p.length h
  rw [List.take_left] at h1
  rw [List.drop_left] at h2
  refine ⟨K.take p.length, h1, ?_⟩
  have hE : ∀ E ∈ K.drop p.length, E.isBroadcast = true := by
    intro E hE
    obtain ⟨k, hk, rfl⟩ := List.mem_iff_getElem.1 hE
    have hl := h2.length_eq
    exact hb q[k] _ (hq _ (List.getElem_mem _)) (h2.get (by omega) hk)
  conv_rhs => rw [← List.take_append_drop p.length K]
  rw [trim_append _ _ hE, List.take_append_of_le_length (trimRank_le _)]

/-- Pairs of dimensions of the program and of the simplified program. -/
def Related (d e : Dim) : Prop := SameDim d e ∧ (e = d ∨ e = { d with fold := Dim.unfolded } ∧ d.min / d.fold = d.max / d.fold)

theorem mutateDims_val (hs : Sound w l ρ prove) : ∀ {ds : List DimE} {K : List Dim}, (∀ D ∈ ds, D.bounds.WF ∧ D.stride ≠ .const Dim.autoStride) → (∀ d ∈ K, GoodDim d) →
    List.Forall₂ (DimVal w l ρ) ds K → ∃ K', List.Forall₂ (DimVal w l ρ) (ds.map (mutateDim prove)) K' ∧ List.Forall₂ Related K K'
  | _, _, _, _, .nil => ⟨[], .nil, .nil⟩
  | _, _, hw, hg, .cons h1 h2 => by
    obtain ⟨e, a1, a2, a3⟩ := mutateDim_val hs (hw _ (by simp)).1 (hg _ (by simp)) (hw _ (by simp)).2 h1
    obtain ⟨K', b1, b2⟩ := mutateDims_val hs (fun D h => hw D (by simp [h])) (fun d h => hg d (by simp [h])) h2
    exact ⟨e :: K', .cons a1 b1, .cons ⟨a2, a3⟩ b2⟩

theorem related_bcast {d e : Dim} (h : Related d e) : e.isBroadcast = d.isBroadcast := by
  rcases h.2 with rfl | ⟨rfl, _⟩ <;> rfl

theorem related_trim {K K' : List Dim} (h : List.Forall₂ Related K K') : trimRank K' = trimRank K := by
  induction h with
  | nil => rfl
  | cons h _ ih => simp only [trimRank, ih, related_bcast h]

/-- C65: the simplified dimensions of a `make_buffer` are those of the `make_buffer`, except for fold factors that are dropped. -/
theorem mutateDims_sem_partial (hs : Sound w l ρ prove) {bcast : DimE → Bool} (hb : SoundBcast w l ρ bcast) {ds : List DimE} {K : List Dim}
    (hw : ∀ D ∈ ds, D.bounds.WF ∧ D.stride ≠ .const Dim.autoStride) (hg : ∀ d ∈ K, GoodDim d) (h : evalDimsS w l ρ none ds = some K) :
    ∃ K', evalDimsS w l ρ none (mutateDims prove bcast ds) = some K' ∧ List.Forall₂ Related (K.take (trimRank K)) (K'.take (trimRank K')) := by
  obtain ⟨K1, h1, h2⟩ := mutateDims_val hs hw hg ((dims_vals _ _).1 h)
  obtain ⟨K2, h3, h4⟩ := popBcast_val hb h1
  refine ⟨K2, (dims_vals _ _).2 h3, ?_⟩
  rw [h4, related_trim h2]
  exact List.forall₂_take _ h2

/-- Indices of elements of the dimensions. -/
def Inside (ds : List Dim) (is : List Int) : Prop := List.Forall₂ (fun d i => Dim.min d ≤ i ∧ i ≤ Dim.max d) ds is

/-- C65: all elements keep their distance from the first element. -/
theorem related_offset {K K' : List Dim} (h : List.Forall₂ Related K K') : ∀ is, Inside K is →
    Buf.offset K' is - Buf.offset K' (K.map (·.min)) = Buf.offset K is - Buf.offset K (K.map (·.min)) := by
  induction h with
  | nil => intro is _; rfl
  | @cons d e K K' h1 _ ih =>
    intro is hi
    cases hi with
    | cons hi his =>
      have := ih _ his
      have h2 := h1.1.offset _ hi.1 hi.2
      simp only [Buf.offset, List.map_cons]
      omega

/-- C65: elements keep their addresses if the first element of every dimension whose fold factor is dropped is a multiple of the fold factor. -/
theorem related_address {K K' : List Dim} (h : List.Forall₂ Related K K') (hm : ∀ d ∈ K, d.min / d.fold = d.max / d.fold → d.min % d.fold = 0) : ∀ is, Inside K is →
    Buf.offset K' is = Buf.offset K is := by
  induction h with
  | nil => intro is _; rfl
  | @cons d e K K' h1 _ ih =>
    intro is hi
    cases hi with
    | @cons _ i _ _ hi his =>
      have := ih (fun d h => hm d (by simp [h])) _ his
      have h2 : e.flatOffset i = d.flatOffset i := by
        rcases h1.2 with rfl | ⟨rfl, hf⟩
        · rfl
        · have h2 := h1.1.offset _ hi.1 hi.2
          have h3 := hm d (by simp) hf
          have h4 : d.flatOffset d.min = 0 := by
            unfold Dim.flatOffset
            split
            · ring
            · rw [h3]; ring
          have h5 : ({ d with fold := Dim.unfolded } : Dim).flatOffset d.min = 0 := by simp [Dim.flatOffset]
          omega
      simp only [Buf.offset]
      omega

/-- C65: a `make_buffer` with simplified dimensions declares a buffer of the same bounds and strides, and all elements keep their distance from the first
one; they keep their addresses where the first element of every dimension whose fold factor does nothing is a multiple of the fold factor. -/
theorem mutateDims_buffer_partial (hs : Sound w l ρ prove) {bcast : DimE → Bool} (hb : SoundBcast w l ρ bcast) {ds : List DimE} {K : List Dim}
    (hw : ∀ D ∈ ds, D.bounds.WF ∧ D.stride ≠ .const Dim.autoStride) (hg : ∀ d ∈ K, GoodDim d) (h : evalDimsS w l ρ none ds = some K) :
    ∃ K', evalDimsS w l ρ none (mutateDims prove bcast ds) = some K' ∧
      (K'.take (trimRank K')).map (fun d => (d.min, d.max, d.stride)) = (K.take (trimRank K)).map (fun d => (d.min, d.max, d.stride)) ∧
      (∀ is, Inside (K.take (trimRank K)) is →
        Buf.offset (K'.take (trimRank K')) is - Buf.offset (K'.take (trimRank K')) ((K.take (trimRank K)).map (·.min)) =
          Buf.offset (K.take (trimRank K)) is - Buf.offset (K.take (trimRank K)) ((K.take (trimRank K)).map (·.min))) ∧
      ((∀ d ∈ K, d.min / d.fold = d.max / d.fold → d.min % d.fold = 0) → ∀ is, Inside (K.take (trimRank K)) is →
        Buf.offset (K'.take (trimRank K')) is = Buf.offset (K.take (trimRank K)) is) := by
  obtain ⟨K', h1, h2⟩ := mutateDims_sem_partial hs hb hw hg h
  refine ⟨K', h1, ?_, related_offset h2, fun hm => related_address h2 fun d hd => hm d (List.mem_of_mem_take hd)⟩
  clear h1
  generalize K.take (trimRank K) = A at h2
  generalize K'.take (trimRank K') = B at h2
  induction h2 with
  | nil => rfl
  | cons h _ ih => simp only [List.map_cons, ih, h.1.min, h.1.max, h.1.stride]

/-- What evaluates to 1 may be proved. -/
theorem sound_eval : Sound w l ρ fun e => decide (evalI w l ρ e = some 1) where
  nonzero e h := by
    simp only [decide_eq_true_eq] at h
    rw [h]; simp
  undef a b h := by
    have hn : ∀ e : Expr, e.defined = false → evalI w l ρ e = none := fun e he => by cases e <;> first | rfl | simp [Expr.defined] at he
    simp only [decide_eq_false_iff_not, evalI_mkBin]
    rcases h with h | h
    · simp [hn a h]
    · rw [hn b h]; cases evalI w l ρ a <;> simp

end Slinky.SD
