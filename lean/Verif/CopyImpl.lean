import Verif.CopyProps

/-! # C26: `copy_impl` -/

namespace Slinky
namespace Copy

open FE (Ptrs OkDim OkBufs vw ptr1 offs)

/-- The addresses of the elements of `dst`, and of the elements that are copied there, given by a function of the indices. -/
def pairs (dst : Buf) (f : List Int → Option Int) : Set (Int × Int) :=
  {p | ∃ is, dst.InBounds is ∧ dst.address is = some p.1 ∧ f is = some p.2}

/-- Specification: the elements of `dst` do not overlap each other, nor the elements that are copied. -/
structure Separate (dst : Buf) (f : List Int → Option Int) : Prop where
  dst_dst : ∀ is js a b, dst.InBounds is → dst.InBounds js → is ≠ js → dst.address is = some a → dst.address js = some b →
    Apart dst.elem a b
  dst_src : ∀ is js a b, dst.InBounds is → dst.InBounds js → dst.address is = some a → f js = some b → Apart dst.elem a b

theorem Separate.safe {dst : Buf} {f : List Int → Option Int} (h : Separate dst f) : Safe dst.elem (pairs dst f) := by
  constructor
  · rintro p ⟨is, i1, i2, i3⟩ q ⟨js, j1, j2, j3⟩ hne
    refine h.dst_dst is js _ _ i1 j1 ?_ i2 j2
    rintro rfl
    rw [i2] at j2
    rw [i3] at j3
    exact hne (Prod.ext (Option.some.inj j2) (Option.some.inj j3))
  · rintro p ⟨is, i1, i2, i3⟩ q ⟨js, j1, j2, j3⟩
    exact h.dst_src is js _ _ i1 j1 i2 j3

/-- The bounds of each dimension of `src` contain the bounds of `dst`. -/
def CoversD (src dst : Buf) : Prop := ∀ d, (src.dim d).stride = 0 ∨ ((src.dim d).min ≤ (dst.dim d).min ∧ (dst.dim d).max ≤ (src.dim d).max)

/-! ### Loops over an empty buffer -/

theorem oneFold_zero (dims : List Dim) (B : Ptrs) {lo hi : Int} (h : hi < lo) : FE.runOneFold dims B lo hi = [] := by
  unfold FE.runOneFold
  rw [show (hi - lo + 1).toNat = 0 by omega]
  rfl

theorem chunks_empty (f : Int) (dims : List Dim) (B : Ptrs) {lo hi : Int} (h : hi < lo) : FE.chunks f dims B lo hi = [] := by
  unfold FE.chunks
  split
  · exact oneFold_zero _ _ h
  · next hf =>
    have := (FE.alignUp_facts (x := lo) (n := f) (by omega)).2.1
    simp only
    rw [oneFold_zero _ _ (by omega), show (hi - FE.alignUp lo f + 1).toNat = 0 by omega]
    simp [FE.foldsFrom]

theorem steps_nil {α : Type} (s : List Int) : ∀ (n : Nat) (B : Ptrs), FE.steps (fun _ => ([] : List α)) s n B = []
  | 0, B => rfl
  | n + 1, B => by simp [FE.steps, steps_nil s n]

theorem run_empty {f : Int} {dims : List Dim} {c : Bool} (he : (dims.headD .broadcast).max < (dims.headD .broadcast).min) :
    ∀ (ls : List FE.Loop), FE.Loop.nonlinear f dims c ∈ ls → ∀ B S, FE.run ls B S = []
  | [], h, _, _ => by simp at h
  | .linear e s :: ls, h, B, S => by
    simp only [List.mem_cons, reduceCtorEq, false_or] at h
    have : (fun b => FE.run ls b S) = fun _ => [] := funext fun b => run_empty he ls h b S
    simp only [FE.run, FE.doWhile, this, steps_nil]
  | .nonlinear f' dims' c' :: ls, h, B, S => by
    by_cases h' : FE.Loop.nonlinear f dims c ∈ ls
    · have : ∀ S, (fun b => FE.run ls b S) = fun _ => [] := fun S => funext fun b => run_empty he ls h' b S
      simp [FE.run, FE.doWhile, this, steps_nil]
    · simp only [List.mem_cons, h', or_false, FE.Loop.nonlinear.injEq] at h
      obtain ⟨rfl, rfl, rfl⟩ := h
      rw [FE.run, chunks_empty _ _ _ he, List.flatMap_nil]

theorem plan_empty (skip : Bool) (bs : Bufs) {d : Nat} (he : (bs.first.dim d).max < (bs.first.dim d).min) : ∀ (k : Nat), d < k →
    ∀ e B S, ∃ f dims c, FE.Loop.nonlinear f dims c ∈ (FE.plan skip bs k e B S).1 ∧ dims.headD .broadcast = bs.first.dim d
  | 0, h, _, _, _ => by omega
  | k + 1, h, e, B, S => by
    rw [FE.plan]
    by_cases hd : d = k
    · subst hd
      rw [if_pos ⟨by omega, .inl he⟩]
      exact ⟨_, _, _, List.mem_cons_self, by simp [Bufs.all]⟩
    · have ih := plan_empty skip bs he k (by omega)
      split
      · obtain ⟨f, dims, c, h1, h2⟩ := ih 1 B S
        exact ⟨f, dims, c, List.mem_cons_of_mem _ h1, h2⟩
      · simp only
        generalize (if (bs.first.dim k).min = (bs.first.dim k).max then e else e * ((bs.first.dim k).max - (bs.first.dim k).min + 1)) = E
        by_cases h1 : E = 1 ∨ k > 0 ∧ FE.canFuse bs k = true
        · rw [if_pos h1]
          exact ih _ _ _
        · rw [if_neg h1]
          by_cases h2 : (skip && FE.isContiguousSlice bs k) = true
          · rw [if_pos h2]
            exact ih _ _ _
          · rw [if_neg h2]
            obtain ⟨f, dims, c, h1, h2⟩ := ih 1 (FE.alignBases bs k B) S
            exact ⟨f, dims, c, List.mem_cons_of_mem _ h1, h2⟩

theorem forEachImpl_empty (skip : Bool) (bs : Bufs) {d : Nat} (he : (bs.first.dim d).max < (bs.first.dim d).min) :
    FE.forEachImpl skip bs = [] := by
  have hd : d < bs.maxRank := by
    have := FE.rank_le_maxRank (bs := bs) (b := bs.first) (by simp [Bufs.all])
    by_contra hc
    rw [FE.dim_beyond (by omega)] at he
    simp [Dim.broadcast] at he
  obtain ⟨f, dims, c, h1, h2⟩ := plan_empty skip bs he bs.maxRank hd 1 (bs.all.map (·.base)) 1
  exact run_empty (by rw [h2]; exact he) _ h1 _ _

/-! ### Elements -/

theorem exists_inB : ∀ (ds : List Dim), (∀ d ∈ ds, d.min ≤ d.max) → InB ds (ds.map (·.min))
  | [], _ => trivial
  | d :: ds, h => ⟨⟨le_rfl, h d (by simp)⟩, exists_inB ds fun e he => h e (by simp [he])⟩

/-- A buffer has an element, or an empty dimension. -/
theorem elem_or_empty (b : Buf) : (∃ is, b.InBounds is) ∨ ∃ d, (b.dim d).max < (b.dim d).min := by
  by_cases h : ∃ d, (b.dim d).max < (b.dim d).min
  · exact .inr h
  · left
    refine ⟨_, exists_inB b.dims fun d hd => ?_⟩
    by_contra hc
    obtain ⟨n, hn, rfl⟩ := List.mem_iff_getElem.1 hd
    refine h ⟨n, ?_⟩
    simp only [Buf.dim, List.getElem?_eq_getElem hn, Option.getD_some]
    omega

theorem containsL_inB : ∀ {ds : List Dim} {is : List Int}, InB ds is → Buf.containsL ds is = true
  | [], [], _ => rfl
  | d :: ds, i :: is, h => by
    simp only [Buf.containsL, Bool.and_eq_true]
    exact ⟨(dim_contains_iff _ _).2 (.inr h.1), containsL_inB h.2⟩

theorem at_address {b : Buf} {is : List Int} (h : b.InBounds is) : b.at is = b.address is := by
  have hl := InB.length h
  rw [Buf.at, show b.rank - is.length = 0 by simp [Buf.rank, hl], List.replicate_zero, List.append_nil, Buf.view, Buf.contains,
    containsL_inB h, if_pos rfl]

theorem at_cons (b : Buf) (i : Int) (is : List Int) : b.at (i :: is) = ptr1 (b.dim 0) ((sliceDim0 b).at is) i := by
  obtain ⟨p, e, ds⟩ := b
  cases ds with
  | nil => simp [Buf.at, FE.view_eq_vw, FE.vw_nil, sliceDim0, Buf.dim]
  | cons d ds =>
    simp only [Buf.at, FE.view_eq_vw, sliceDim0, Buf.dim, Buf.rank, List.length_cons, List.tail_cons, List.cons_append, FE.vw_cons,
      List.getElem?_cons_zero, Option.getD_some, Nat.add_sub_add_right]

theorem at_offs (b : Buf) (o : Int) (is : List Int) : ({ b with base := offs b.base o } : Buf).at is = offs (b.at is) o := by
  simp only [Buf.at, FE.view_eq_vw, Buf.rank, vw]
  split
  · simp [FE.offs_offs, add_comm]
  · rfl

theorem dim_tail (b : Buf) (d : Nat) : (sliceDim0 b).dim d = b.dim (d + 1) := by
  simp [sliceDim0, Buf.dim]

/-- If `src` covers `dst`, it has the elements of `dst`. -/
theorem CoversD.at : ∀ {src dst : Buf} {is : List Int}, CoversD src dst → dst.InBounds is → src.base.isSome → (src.at is).isSome := by
  intro src dst is
  induction is generalizing src dst with
  | nil =>
    intro hc hi hb
    have hr : dst.dims = [] := by
      have := InB.length hi
      simp at this
      exact List.eq_nil_of_length_eq_zero this.symm
    have : ∀ (ds : List Dim) (n : Nat), (∀ d ∈ ds, d.stride = 0 ∨ (d.min ≤ 0 ∧ 0 ≤ d.max)) → (vw ds (List.replicate n 0) src.base).isSome := by
      intro ds
      induction ds with
      | nil => intro n _; rw [FE.vw_nil]; exact hb
      | cons d ds ih =>
        intro n hd
        cases n with
        | zero => simp [FE.vw_nil', hb]
        | succ n =>
          rw [List.replicate_succ, FE.vw_cons, ptr1, if_pos ((dim_contains_iff _ _).2 (hd d (by simp)))]
          simp [offs, ih n fun e he => hd e (by simp [he])]
    simp only [Buf.at, FE.view_eq_vw, List.nil_append]
    apply this
    intro d hd
    obtain ⟨n, hn, rfl⟩ := List.mem_iff_getElem.1 hd
    have := hc n
    rw [FE.dim_beyond (b := dst) (by simp [Buf.rank, hr])] at this
    simpa [Buf.dim, List.getElem?_eq_getElem hn, Dim.broadcast] using this
  | cons i is ih =>
    intro hc hi hb
    obtain ⟨p, e, ds⟩ := dst
    cases ds with
    | nil => exact hi.elim
    | cons d ds =>
      rw [at_cons, ptr1, if_pos]
      · have := ih (src := sliceDim0 src) (dst := ⟨p, e, ds⟩) (fun j => by
          have := hc (j + 1)
          rw [dim_tail]
          simpa [Buf.dim] using this) hi.2 hb
        simp [offs, this]
      · rw [dim_contains_iff]
        have h0 := hc 0
        have h1 := hi.1
        simp only [Buf.dim, List.getElem?_cons_zero, Option.getD_some] at h0
        simp only [Buf.dim]
        omega

/-- Two dimensions with the stride of an element: two elements overlap. -/
theorem oneSlice_of {dst : Buf} {f : List Int → Option Int} (hs : Separate dst f) (he : 0 < dst.elem) (hu : ∀ d ∈ dst.dims, d.fold = Dim.unfolded)
    (hne : ∃ is, dst.InBounds is) (hb : dst.base.isSome) (rest : List Buf) : FE.OneSlice ⟨dst, rest⟩ := by
  intro d d' hdd h1 h2 h3 h4
  simp only at h1 h2 h3 h4
  have hd' : d' < dst.rank := by
    by_contra hc
    rw [FE.dim_beyond (by omega)] at h2
    simp [Dim.broadcast] at h2
    omega
  obtain ⟨is, his⟩ := hne
  obtain ⟨p, hp⟩ := Option.isSome_iff_exists.1 hb
  have hlen : is.length = dst.rank := InB.length his
  have hg := dim_eq dst d (by omega)
  have hg' := dim_eq dst d' hd'
  have hset : ∀ {ds : List Dim} {is : List Int} {n : Nat} {dd : Dim} {x : Int}, InB ds is → ds[n]? = some dd → dd.min ≤ x ∧ x ≤ dd.max →
      InB ds (is.set n x) := by
    intro ds
    induction ds with
    | nil => intro is n dd x _ h; simp at h
    | cons a ds ih =>
      intro is n dd x h hd hx
      cases is with
      | nil => exact h.elim
      | cons i is =>
        cases n with
        | zero => simp at hd; subst hd; exact ⟨hx, h.2⟩
        | succ n => simp at hd; exact ⟨h.1, ih h.2 hd hx⟩
  have hoff : ∀ {ds : List Dim} {is : List Int} {n : Nat} {dd : Dim} {x y : Int}, ds[n]? = some dd → n < is.length → dd.fold = Dim.unfolded →
      Buf.offset ds (is.set n x) = Buf.offset ds (is.set n y) + (x - y) * dd.stride := by
    intro ds
    induction ds with
    | nil => intro is n dd x y h; simp at h
    | cons a ds ih =>
      intro is n dd x y hd hl hf
      cases is with
      | nil => simp at hl
      | cons i is =>
        cases n with
        | zero => simp at hd; subst hd; simp [Buf.offset, Dim.flatOffset, hf]; ring
        | succ n =>
          simp at hd hl
          simp only [List.set_cons_succ, Buf.offset]
          rw [ih hd hl hf (x := x) (y := y)]
          ring
  -- (min + 1, min) and (min, min + 1)
  have e1 := hoff (is := is.set d' (dst.dim d').min) (x := (dst.dim d).min + 1) (y := (dst.dim d).min) hg (by simp; omega) (hu _ (List.mem_of_getElem? hg))
  have e2 := hoff (is := is.set d (dst.dim d).min) (x := (dst.dim d').min + 1) (y := (dst.dim d').min) hg' (by simp; omega) (hu _ (List.mem_of_getElem? hg'))
  rw [List.set_comm (dst.dim d).min (dst.dim d').min (by omega : d ≠ d')] at e2
  have hap := hs.dst_dst ((is.set d' (dst.dim d').min).set d ((dst.dim d).min + 1)) ((is.set d (dst.dim d).min).set d' ((dst.dim d').min + 1)) _ _
    (hset (hset his hg' (by omega)) hg (by omega)) (hset (hset his hg (by omega)) hg' (by omega)) (by
      intro heq
      have := congrArg (fun l : List Int => l[d]?) heq
      rw [List.getElem?_set_self (by simp; omega), List.getElem?_set_ne (by omega), List.getElem?_set_self (by omega)] at this
      simp at this) (by rw [Buf.address, hp]; rfl) (by rw [Buf.address, hp]; rfl)
  unfold Apart at hap
  rw [e1, e2, h1, h2] at hap
  simp only [add_sub_cancel_left, one_mul] at hap
  omega

/-! ### The three ways to copy -/

theorem linear_flat {d : Dim} (h : d.stride = 0 ∨ d.fold = Dim.unfolded) (i j : Int) : d.flatOffset (i + j) = d.flatOffset i + j * d.stride := by
  simp only [Dim.flatOffset, if_pos h]
  ring

theorem copyImpl_slices {src dst : Buf} {m : Mem} (hok : OkBufs ⟨dst, [src]⟩) (helem : src.elem = dst.elem) (he : 0 < dst.elem)
    (hu : ∀ d ∈ dst.dims, d.fold = Dim.unfolded) (hcov : CoversD src dst) (hb : (∃ is, dst.InBounds is) → dst.base.isSome ∧ src.base.isSome)
    (hs : Separate dst src.at) :
    ∃ m', memcpys (fun extent => extent * dst.elem) (FE.forEachContiguousSlice ⟨dst, [src]⟩) m = some m' ∧
      Copied dst.elem (pairs dst src.at) m m' := by
  rcases elem_or_empty dst with hne | ⟨d, hd⟩
  · obtain ⟨hb1, hb2⟩ := hb hne
    have h1 := oneSlice_of hs he hu hne hb1 [src]
    obtain ⟨⟨idxs, -, hidx, hperm⟩, hpos⟩ := FE.forEachContiguousSlice_once_partial ⟨dst, [src]⟩ hok h1
    have hfit := FE.run_length hok true (Bufs.maxRank ⟨dst, [src]⟩) 1 _ 1 (FE.fits_bases ⟨dst, [src]⟩) le_rfl le_rfl
    -- the elements of the slices
    have hel : ∀ q : Ptrs, q ∈ (FE.forEachContiguousSlice ⟨dst, [src]⟩).flatMap (FE.sliceElements [dst.elem, src.elem]) ↔
        ∃ is, dst.InBounds is ∧ q = [dst.at is, src.at is] := by
      intro q
      have := hperm.mem_iff (a := q)
      simp only [Bufs.all, List.map_cons, List.map_nil, List.mem_map, hidx] at this
      rw [this]
      simp only [eq_comm]
    have hcall : ∀ c ∈ FE.forEachContiguousSlice ⟨dst, [src]⟩, ∃ a s, c.1 = [some a, some s] ∧
        ∀ j : Int, 0 ≤ j → j < c.2 → ∃ is, dst.InBounds is ∧ dst.address is = some (a + j * dst.elem) ∧ src.at is = some (s + j * dst.elem) := by
      intro c hc
      have hlen := (hfit c hc).1.len
      have h1 := hpos c hc
      obtain ⟨ptrs, n⟩ := c
      simp only [Bufs.all, List.length_cons, List.length_nil] at hlen
      match ptrs, hlen with
      | [p, q], _ =>
        have hj : ∀ j : Int, 0 ≤ j → j < n → ∃ is, dst.InBounds is ∧ [p.map (· + j * dst.elem), q.map (· + j * dst.elem)] = [dst.at is, src.at is] := by
          intro j hj0 hj
          refine (hel _).1 ?_
          rw [List.mem_flatMap]
          refine ⟨_, hc, ?_⟩
          simp only [FE.sliceElements, List.mem_map, List.mem_range]
          exact ⟨j.toNat, by omega, by simp [helem, Int.toNat_of_nonneg hj0]⟩
        obtain ⟨is, hi, h0⟩ := hj 0 le_rfl h1
        simp only [zero_mul, add_zero, List.cons.injEq, and_true] at h0
        have hsome := hcov.at hi hb2
        rw [at_address hi] at h0
        obtain ⟨a, ha⟩ := Option.isSome_iff_exists.1 hb1
        rw [← h0.2] at hsome
        cases p with
        | none => simp [Buf.address, ha] at h0
        | some p =>
          cases q with
          | none => simp at hsome
          | some q =>
            refine ⟨p, q, rfl, fun j hj0 hj' => ?_⟩
            obtain ⟨is, hi, h⟩ := hj j hj0 hj'
            rw [at_address hi] at h
            simp only [Option.map_some, List.cons.injEq, and_true] at h
            exact ⟨is, hi, h.1.symm, h.2.symm⟩
    obtain ⟨m', h2, h3⟩ := memcpys_copied (cnt := id) he hs.safe (fun extent => extent * dst.elem) (fun _ => rfl) (FE.forEachContiguousSlice ⟨dst, [src]⟩) m
      (by
        intro c hc
        obtain ⟨a, s, h1, h2⟩ := hcall c hc
        refine ⟨a, s, h1, ?_⟩
        rintro p ⟨j, hj0, hj, rfl⟩
        obtain ⟨is, i1, i2, i3⟩ := h2 j hj0 hj
        exact ⟨is, i1, i2, i3⟩)
    refine ⟨m', h2, ?_⟩
    convert h3 using 1
    ext p
    constructor
    · rintro ⟨is, hi, h4, h5⟩
      have := (hel _).2 ⟨is, hi, rfl⟩
      rw [List.mem_flatMap] at this
      obtain ⟨c, hc, hm⟩ := this
      obtain ⟨a, s, h6, h7⟩ := hcall c hc
      refine ⟨c, hc, a, s, h6, ?_⟩
      obtain ⟨ptrs, n⟩ := c
      simp only at h6
      subst h6
      simp only [FE.sliceElements, List.mem_map, List.mem_range, List.zipWith_cons_cons, List.zipWith_nil_left, Option.map_some, List.cons.injEq, and_true] at hm
      obtain ⟨j, hj, h8, h9⟩ := hm
      rw [at_address hi, h4] at h8
      rw [h5] at h9
      refine ⟨j, by omega, by simp only [id]; omega, ?_⟩
      rw [helem] at h9
      exact Prod.ext (Option.some.inj h8).symm (Option.some.inj h9).symm
    · rintro ⟨c, hc, a, s, h6, j, hj0, hj, rfl⟩
      obtain ⟨a', s', h7, h8⟩ := hcall c hc
      rw [h6] at h7
      simp at h7
      obtain ⟨rfl, rfl⟩ := h7
      obtain ⟨is, i1, i2, i3⟩ := h8 j hj0 hj
      exact ⟨is, i1, i2, i3⟩
  · have : FE.forEachContiguousSlice ⟨dst, [src]⟩ = [] := forEachImpl_empty true ⟨dst, [src]⟩ hd
    rw [this]
    refine ⟨m, rfl, ?_⟩
    have hemp : pairs dst src.at = ∅ := by
      ext p
      simp only [pairs, Set.mem_setOf_eq, Set.mem_empty_iff_false, iff_false]
      rintro ⟨is, hi, -⟩
      have hr : d < dst.rank := by
        by_contra hc
        rw [FE.dim_beyond (by omega)] at hd
        simp [Dim.broadcast] at hd
      obtain ⟨x, -, h⟩ := InB.get hi (dim_eq dst d hr)
      omega
    rw [hemp]
    exact Copied.empty _ _

/-- The loop over the rows: the pairs of the rows are the pairs of all elements. `t` is what the source advances by, `o` its offset. -/
theorem rows {src dst : Buf} {t o : Int} (hok : OkBufs ⟨dst, [src]⟩) (hst : (dst.dim 0).stride = dst.elem) (he : 0 < dst.elem)
    (hu : ∀ d ∈ dst.dims, d.fold = Dim.unfolded) (hnemp : (dst.dim 0).min ≤ (dst.dim 0).max)
    (hat : ∀ (p : Option Int) (j : Int), 0 ≤ j → (dst.dim 0).min + j ≤ (dst.dim 0).max → ptr1 (src.dim 0) p ((dst.dim 0).min + j) = offs p (o + j * t))
    (hcov : CoversD src dst) (hb : (∃ is, dst.InBounds is) → dst.base.isSome ∧ src.base.isSome) :
    (∀ c ∈ FE.forEachElement ⟨sliceDim0 dst, [{ sliceDim0 src with base := offs src.base o }]⟩,
      ∃ d s, c = [some d, some s] ∧ rowOf dst.elem t d s (dst.dim 0).extent ⊆ pairs dst src.at) ∧
    {p | ∃ c ∈ FE.forEachElement ⟨sliceDim0 dst, [{ sliceDim0 src with base := offs src.base o }]⟩,
      ∃ d s, c = [some d, some s] ∧ p ∈ rowOf dst.elem t d s (dst.dim 0).extent} = pairs dst src.at := by
  have hext : (dst.dim 0).extent = (dst.dim 0).max + 1 - (dst.dim 0).min := by unfold Dim.extent; rw [if_pos (by omega)]
  have hok' : OkBufs ⟨sliceDim0 dst, [{ sliceDim0 src with base := offs src.base o }]⟩ := by
    intro b hb d hd
    simp only [Bufs.all, List.mem_cons, List.not_mem_nil, or_false] at hb
    rcases hb with rfl | rfl
    · exact hok dst (by simp [Bufs.all]) d (List.mem_of_mem_tail hd)
    · exact hok src (by simp [Bufs.all]) d (List.mem_of_mem_tail hd)
  obtain ⟨dd, ds, hdims⟩ : ∃ dd ds, dst.dims = dd :: ds := by
    cases h : dst.dims with
    | nil =>
      rw [Buf.dim, h] at hst
      simp [Dim.broadcast] at hst
      omega
    | cons dd ds => exact ⟨dd, ds, rfl⟩
  have hd0 : dst.dim 0 = dd := by simp [Buf.dim, hdims]
  rw [hd0] at hst hnemp hat hext ⊢
  obtain ⟨idxs, -, hidx, hperm⟩ := FE.forEachElement_once _ hok'
  have hat' : ∀ is, ({ sliceDim0 src with base := offs src.base o } : Buf).at is = offs ((sliceDim0 src).at is) o := fun is => at_offs (sliceDim0 src) o is
  have hel : ∀ q : Ptrs, q ∈ FE.forEachElement ⟨sliceDim0 dst, [{ sliceDim0 src with base := offs src.base o }]⟩ ↔
      ∃ is, InB ds is ∧ q = [(sliceDim0 dst).address is, offs ((sliceDim0 src).at is) o] := by
    intro q
    have h1 := hperm.mem_iff (a := q)
    simp only [Bufs.all, List.map_cons, List.map_nil, List.mem_map, hidx, hat'] at h1
    rw [h1]
    have h2 : ∀ is, (sliceDim0 dst).InBounds is ↔ InB ds is := fun is => by simp [sliceDim0, Buf.InBounds, hdims]
    constructor
    · rintro ⟨is, hi, rfl⟩
      exact ⟨is, (h2 is).1 hi, by rw [at_address hi]⟩
    · rintro ⟨is, hi, rfl⟩
      exact ⟨is, (h2 is).2 hi, by rw [at_address ((h2 is).2 hi)]⟩
  -- one element of a row
  have hone : ∀ is, InB ds is → ∀ j, 0 ≤ j → j < dd.extent → dst.InBounds ((dd.min + j) :: is) ∧
      dst.address ((dd.min + j) :: is) = offs ((sliceDim0 dst).address is) (j * dst.elem) ∧
      src.at ((dd.min + j) :: is) = offs (offs ((sliceDim0 src).at is) o) (j * t) := by
    intro is hi j hj0 hj
    have hfo : dd.fold = Dim.unfolded := hu dd (by simp [hdims])
    refine ⟨?_, ?_, ?_⟩
    · rw [Buf.InBounds, hdims]
      exact ⟨⟨by omega, by omega⟩, hi⟩
    · simp only [Buf.address, hdims, Buf.offset, sliceDim0, List.tail_cons, offs]
      cases dst.base with
      | none => rfl
      | some p =>
        simp only [Option.map_some, Dim.flatOffset, hfo, or_true, if_true, hst]
        congr 1
        ring
    · rw [at_cons, hat _ j hj0 (by omega), FE.offs_offs]
  have hrow : ∀ is, InB ds is → ∃ d s, (sliceDim0 dst).address is = some d ∧ offs ((sliceDim0 src).at is) o = some s := by
    intro is hi
    obtain ⟨h1, h2, h3⟩ := hone is hi 0 le_rfl (by omega)
    obtain ⟨b1, b2⟩ := hb ⟨_, h1⟩
    have h4 := hcov.at h1 b2
    rw [h3] at h4
    obtain ⟨p, hp⟩ := Option.isSome_iff_exists.1 b1
    refine ⟨_, _, by rw [Buf.address]; simp [sliceDim0, hp]; rfl, Option.eq_some_of_isSome ?_⟩
    simpa [offs] using h4
  constructor
  · intro c hc
    obtain ⟨is, hi, rfl⟩ := (hel c).1 hc
    obtain ⟨d, s, h1, h2⟩ := hrow is hi
    refine ⟨d, s, by rw [h1, h2], ?_⟩
    rintro p ⟨j, hj0, hj, rfl⟩
    obtain ⟨h3, h4, h5⟩ := hone is hi j hj0 hj
    exact ⟨_, h3, by rw [h4, h1]; rfl, by rw [h5, h2]; rfl⟩
  · ext p
    constructor
    · rintro ⟨c, hc, d, s, hds, j, hj0, hj, rfl⟩
      obtain ⟨is, hi, rfl⟩ := (hel c).1 hc
      simp only [List.cons.injEq, and_true] at hds
      obtain ⟨h1, h2⟩ := hds
      obtain ⟨h3, h4, h5⟩ := hone is hi j hj0 hj
      exact ⟨_, h3, by rw [h4, h1]; rfl, by rw [h5, h2]; rfl⟩
    · rintro ⟨is, hi, h4, h5⟩
      rw [Buf.InBounds, hdims] at hi
      cases is with
      | nil => exact hi.elim
      | cons i is =>
        obtain ⟨d, s, h1, h2⟩ := hrow is hi.2
        obtain ⟨h6, h7, h8⟩ := hone is hi.2 (i - dd.min) (by have := hi.1; omega) (by have := hi.1; omega)
        rw [show dd.min + (i - dd.min) = i by omega] at h6 h7 h8
        refine ⟨_, (hel _).2 ⟨is, hi.2, rfl⟩, d, s, by rw [h1, h2], i - dd.min, by have := hi.1; omega, by have := hi.1; omega, ?_⟩
        rw [h7, h1] at h4
        rw [h8, h2] at h5
        exact Prod.ext (Option.some.inj h4).symm (Option.some.inj h5).symm

/-- **C26**, `copy_impl`: every element of `dst` is a copy of the element of `src` at the same indices, and nothing else is changed. -/
theorem copyImpl_copied {src dst : Buf} {m : Mem} (hok : OkBufs ⟨dst, [src]⟩) (helem : src.elem = dst.elem) (he : 0 < dst.elem)
    (hu : ∀ d ∈ dst.dims, d.fold = Dim.unfolded) (hcov : CoversD src dst) (hb : (∃ is, dst.InBounds is) → dst.base.isSome ∧ src.base.isSome)
    (hs : Separate dst src.at) : ∃ m', copyImpl src dst m = some m' ∧ Copied dst.elem (pairs dst src.at) m m' := by
  unfold copyImpl
  rw [if_neg (by simp [helem])]
  simp only
  split
  · next hd =>
    refine ⟨m, rfl, ?_⟩
    have hemp : pairs dst src.at = ∅ := by
      ext p
      simp only [pairs, Set.mem_setOf_eq, Set.mem_empty_iff_false, iff_false]
      rintro ⟨is, hi, -⟩
      simp only [Dim.empty, decide_eq_true_eq] at hd
      have hr : 0 < dst.rank := by
        by_contra hc
        rw [FE.dim_beyond (by omega)] at hd
        simp [Dim.broadcast] at hd
      obtain ⟨x, -, h⟩ := InB.get hi (dim_eq dst 0 hr)
      omega
    rw [hemp]
    exact Copied.empty _ _
  · next hd =>
    simp only [Dim.empty, decide_eq_true_eq, not_lt] at hd
    have hext : 0 < (dst.dim 0).extent := by unfold Dim.extent; rw [if_pos (by omega)]; omega
    split
    · exact copyImpl_slices hok helem he hu hcov hb hs
    · next hc =>
      simp only [not_or, not_and, not_not, not_lt] at hc
      obtain ⟨hc1, hc2, hc3, hc4⟩ := hc
      split
      · next h0 =>
        have hr := rows (t := 0) (o := 0) hok hc3 he hu hd (fun p j _ _ => by simp [FE.ptr1_stride0 h0]) hcov hb
        simp only [FE.offs_zero] at hr
        obtain ⟨hr1, hr2⟩ := hr
        obtain ⟨m', h1, h2⟩ := fillCalls_copied (m0 := m) he hext hs.safe (FE.forEachElement ⟨sliceDim0 dst, [sliceDim0 src]⟩) ⟨none, none⟩ m
          hr1 (fun _ _ _ _ _ => rfl) (by simp)
        refine ⟨m', h1, ?_⟩
        rw [← hr2]
        exact h2
      · next h0 =>
        have hse := hc4 h0
        have hbd := (hcov 0).resolve_left h0
        rw [if_pos ⟨.inr hse, hbd.1, by omega⟩]
        have hsu : (src.dim 0).fold = Dim.unfolded := by
          have := FE.OkBufs.dim hok (b := src) (by simp [Bufs.all]) 0
          rcases this with (h | h) | h
          · exact h
          · omega
          · exact absurd h h0
        have hr := rows (t := dst.elem) (o := (src.dim 0).flatOffset (dst.dim 0).min) hok hc3 he hu hd (fun p j hj0 hj => by
          rw [ptr1, if_pos ((dim_contains_iff _ _).2 (.inr ⟨by omega, by omega⟩)), linear_flat (.inr hsu), hse]) hcov hb
        obtain ⟨hr1, hr2⟩ := hr
        obtain ⟨m', h1, h2⟩ := memcpys_copied (cnt := fun _ => (dst.dim 0).extent) he hs.safe (fun _ => (dst.dim 0).extent * dst.elem) (fun _ => rfl)
          ((FE.forEachElement ⟨sliceDim0 dst, [{ sliceDim0 src with base := FE.offs src.base ((src.dim 0).flatOffset (dst.dim 0).min) }]⟩).map (·, 1)) m
          (by
            intro c hc
            simp only [List.mem_map] at hc
            obtain ⟨c, hc, rfl⟩ := hc
            exact hr1 c hc)
        refine ⟨m', h1, ?_⟩
        rw [← hr2]
        convert h2 using 1
        ext p
        simp only [List.mem_map, Set.mem_setOf_eq]
        constructor
        · rintro ⟨c, hc, h⟩
          exact ⟨(c, 1), ⟨c, hc, rfl⟩, h⟩
        · rintro ⟨c, ⟨c', hc, rfl⟩, h⟩
          exact ⟨c', hc, h⟩

end Copy
end Slinky
