import Verif.Concat
import Verif.RemovePureThm

/-! # C54: concatenations and stacks -/

namespace Slinky.CC

open Copy (CopiedFrom Separate)

/-! ### Crops and slices -/

mutual
theorem plain_bufOK {X : List Nat} : ∀ (e : Expr), e.Plain X → e.BufOK
  | .undef, _ => trivial
  | .var _ _ _, _ => trivial
  | .const _, _ => trivial
  | .lets _ _, h => h.elim
  | .bin _ a b, h => ⟨plain_bufOK a h.1, plain_bufOK b h.2⟩
  | .not a, h => plain_bufOK a h
  | .select c t f, h => ⟨plain_bufOK c h.1, plain_bufOK t h.2.1, plain_bufOK f h.2.2⟩
  | .call _ as, h => ⟨fun h' => absurd h' h.1, plains_bufOK as h.2⟩
theorem plains_bufOK {X : List Nat} : ∀ (es : Exprs), es.Plain X → es.BufOK
  | .nil, _ => trivial
  | .cons e es, h => ⟨plain_bufOK e h.1, plains_bufOK es h.2⟩
end

theorem containsL_set : ∀ {ds : List Dim} {is : List Int} {d : Nat} {dd dn : Dim} {i : Int}, ds[d]? = some dd → is[d]? = some i → dn.contains i = dd.contains i →
    Buf.containsL (ds.set d dn) is = Buf.containsL ds is
  | [], _, _, _, _, _, h, _, _ => by simp at h
  | _ :: _, [], _, _, _, _, _, h, _ => by simp at h
  | e :: ds, j :: is, 0, dd, dn, i, h, h', hc => by
    simp at h h'; subst h h'; simp [Buf.containsL, hc]
  | e :: ds, j :: is, d + 1, dd, dn, i, h, h', hc => by
    simp at h h'
    simp only [List.set_cons_succ, Buf.containsL]
    rw [containsL_set h h' hc]

theorem inB_set : ∀ {ds : List Dim} {is : List Int} {d : Nat} {dd dn : Dim} {lo hi : Int}, ds[d]? = some dd → (∀ i, (dn.min ≤ i ∧ i ≤ dn.max) ↔ (dd.min ≤ i ∧ i ≤ dd.max) ∧ lo ≤ i ∧ i ≤ hi) →
    (InB (ds.set d dn) is ↔ InB ds is ∧ lo ≤ is.getD d 0 ∧ is.getD d 0 ≤ hi)
  | [], _, _, _, _, _, _, h, _ => by simp at h
  | _ :: _, [], d, _, _, _, _, _, _ => by cases d <;> simp [InB]
  | e :: ds, j :: is, 0, dd, dn, lo, hi, h, hc => by
    simp at h; subst h
    simp only [List.set_cons_zero, InB, hc, List.getD_cons_zero]
    tauto
  | e :: ds, j :: is, d + 1, dd, dn, lo, hi, h, hc => by
    simp at h
    simp only [List.set_cons_succ, InB, List.getD_cons_succ, inB_set h hc]
    tauto

theorem crop_inB {b : Buf} {d : Nat} (h : d < b.rank) (lo hi : Int) (x : List Int) :
    (b.crop d lo hi).InBounds x ↔ b.InBounds x ∧ lo ≤ x.getD d 0 ∧ x.getD d 0 ≤ hi := by
  rw [crop_eq b d lo hi (by omega)]
  exact inB_set (dim_eq b d h) fun i => by simp; omega

theorem inB_getD {b : Buf} {x : List Int} (hx : b.InBounds x) {d : Nat} (h : d < b.rank) : x[d]? = some (x.getD d 0) := by
  have : d < x.length := by rw [InB.length hx]; exact h
  simp [List.getD, List.getElem?_eq_getElem this]

theorem crop_addr {b : Buf} {d : Nat} (h : d < b.rank) {lo hi : Int} {x : List Int} (hx : (b.crop d lo hi).InBounds x) : (b.crop d lo hi).address x = b.address x := by
  have h' : d < (b.crop d lo hi).rank := by rw [(crop_other b d lo hi).2.1]; exact h
  have hg := inB_getD hx h'
  refine crop_address b d lo hi x _ h hg ?_
  obtain ⟨i, h1, h2⟩ := InB.get hx (dim_eq _ d h')
  rw [hg] at h1
  cases h1
  exact h2

/-- The view of a crop, at an index in its range. A broadcast dimension must not become empty. -/
theorem crop_view {b : Buf} {d : Nat} (h : d < b.rank) {lo hi : Int} (hb : (b.dim d).stride = 0 → max lo (b.dim d).min ≤ min hi (b.dim d).max) {x : List Int}
    (hx : d < x.length) (hi' : lo ≤ x.getD d 0 ∧ x.getD d 0 ≤ hi) : (b.crop d lo hi).view x = b.view x := by
  have hg : x[d]? = some (x.getD d 0) := by simp [List.getD, List.getElem?_eq_getElem hx]
  have hd := dim_eq b d h
  have hcon : (b.crop d lo hi).contains x = b.contains x := by
    show Buf.containsL (b.crop d lo hi).dims x = Buf.containsL b.dims x
    rw [crop_eq b d lo hi (by omega)]
    refine containsL_set hd hg ?_
    by_cases hs : (b.dim d).stride = 0
    · simp [Dim.contains, Dim.containsI, hs]
    · simp only [Dim.contains, Dim.containsI, hs, decide_false, Bool.false_or]
      generalize x.getD d 0 = i at hi'
      congr 1 <;> simp <;> omega
  have hadd : b.contains x = true → (b.crop d lo hi).address x = b.address x := by
    intro hc
    by_cases hs : (b.dim d).stride = 0
    · have hne := hb hs
      simp only [Buf.address, crop_eq b d lo hi (by omega)]
      rw [offset_set b.dims x d (b.dim d) ⟨max lo (b.dim d).min, min hi (b.dim d).max, (b.dim d).stride, (b.dim d).fold⟩ _ hd hg]
      simp only [cropBase]
      cases b.base with
      | none => simp
      | some p => simp [hne, Dim.flatOffset, hs]
    · refine crop_address b d lo hi x _ h hg ?_
      rw [crop_bounds b d lo hi h]
      have hc' := Copy.containsL_get hc hd hg
      simp only [Dim.contains, Dim.containsI, hs, decide_false, Bool.false_or, Bool.and_eq_true, decide_eq_true_eq] at hc'
      exact ⟨hc', hi'⟩
  rw [Buf.view, Buf.view, hcon]
  by_cases hc : b.contains x = true
  · rw [if_pos hc, if_pos hc, hadd hc]
  · rw [if_neg hc, if_neg hc]

theorem crop_self {b : Buf} {d : Nat} (h : d < b.rank) (hne : (b.dim d).min ≤ (b.dim d).max) : b.crop d (b.dim d).min (b.dim d).max = b := by
  rw [crop_eq b d _ _ (by omega)]
  have hset : b.dims.set d ⟨max (b.dim d).min (b.dim d).min, min (b.dim d).max (b.dim d).max, (b.dim d).stride, (b.dim d).fold⟩ = b.dims := by
    have hd := dim_eq b d h
    rw [max_self, min_self]
    exact List.ext_getElem? fun j => by
      rw [List.getElem?_set]
      split
      · next hj => subst hj; simp [hd]; exact h
      · rfl
  rw [hset]
  obtain ⟨base, e, ds⟩ := b
  cases base with
  | none => rfl
  | some p => simp only [cropBase, max_self, min_self, ge_iff_le, hne, if_true]; simp [Dim.flatOffset]; exact fun a _ c => absurd a c

theorem cropS_last {w : World} {l : List Ev} {ρ : SEnv} {lo hi : Expr} (hd : lo.defined = true ∧ hi.defined = true) : ∀ (n d : Nat) {b b' : Buf}, d + n < b.rank →
    (∀ j, d ≤ j → j < d + n → (b.dim j).min ≤ (b.dim j).max) → cropS w l ρ d (List.replicate n .unbounded ++ [⟨lo, hi, false⟩]) b = some b' →
    ∃ x y, evalI w l ρ lo = some x ∧ evalI w l ρ hi = some y ∧ b' = b.crop (d + n) x y
  | 0, d, b, b', hr, _, h => by
    simp only [List.replicate_zero, List.nil_append, cropS, show d < b.rank by omega, if_true, evalIvDefS, Interval.isPoint, Bool.and_false, Bool.false_eq_true, if_false,
      evalDefS, hd.1, hd.2] at h
    simp only [bind, Option.bind_eq_some_iff, Option.some.injEq] at h
    obtain ⟨v, ⟨x, h1, y, h2, rfl⟩, rfl⟩ := h
    exact ⟨x, y, h1, h2, rfl⟩
  | n + 1, d, b, b', hr, hne, h => by
    have hself := crop_self (b := b) (d := d) (by omega) (hne d le_rfl (by omega))
    simp only [List.replicate_succ, List.cons_append, cropS, show d < b.rank by omega, if_true, evalIvDefS, Interval.unbounded, Interval.isPoint, Expr.defined, Bool.false_and,
      Bool.false_eq_true, if_false, evalDefS] at h
    simp only [bind, Option.bind_some, hself] at h
    have := cropS_last hd n (d + 1) (by omega) (fun j h1 h2 => hne j (by omega) (by omega)) h
    rwa [show d + 1 + n = d + (n + 1) by omega] at this

theorem sliceS_last {w : World} {l : List Ev} {ρ : SEnv} {i e : Int} : ∀ (n : Nat) {ds : List Dim} {p : Option Int} {r : Option Int × List Dim}, n < ds.length →
    sliceS w l ρ (List.replicate n .undef ++ [.const i]) ds p = some r → (⟨r.1, e, r.2⟩ : Buf) = (⟨p, e, ds⟩ : Buf).slice n i
  | 0, [], _, _, hr, _ => by simp at hr
  | 0, d :: ds, p, r, hr, h => by
    have hnil : ∀ (ds : List Dim) (p : Option Int), sliceS w l ρ [] ds p = some (p, ds) := by
      intro ds
      induction ds with
      | nil => intro p; rfl
      | cons d ds ih => intro p; simp [sliceS, ih]
    rw [slice_eq _ _ _ (by simp [Buf.rank])]
    cases p with
    | none =>
      simp only [List.replicate_zero, List.nil_append, sliceS, Expr.defined, if_true, hnil, Option.some.injEq] at h
      subst h
      simp [sliceBase]
    | some q =>
      simp only [List.replicate_zero, List.nil_append, sliceS, Expr.defined, if_true, evalI, evalS, Option.bind_some, Val.int?, bind, hnil, Option.some.injEq] at h
      subst h
      simp [sliceBase, Buf.dim]
  | n + 1, [], _, _, hr, _ => by simp at hr
  | n + 1, d :: ds, p, r, hr, h => by
    simp only [List.replicate_succ, List.cons_append, sliceS, Expr.defined, Bool.false_eq_true, if_false, Option.map_eq_some_iff] at h
    obtain ⟨q, h1, rfl⟩ := h
    have := sliceS_last (e := e) n (by simpa using hr) h1
    rw [slice_eq _ _ _ (by simpa [Buf.rank] using hr)] at this ⊢
    simp only [Buf.mk.injEq, true_and] at this
    simp only [this, List.eraseIdx_cons_succ, Buf.mk.injEq, and_self, and_true, true_and]
    simp [Buf.dim]

/-! ### The indices -/

theorem mapM_of_get {α β : Type} {f : α → Option β} : ∀ {as : List α} {bs : List β}, as.length = bs.length → (∀ (k : Nat) a b, as[k]? = some a → bs[k]? = some b → f a = some b) →
    as.mapM f = some bs
  | [], [], _, _ => rfl
  | [], _ :: _, h, _ => by simp at h
  | _ :: _, [], h, _ => by simp at h
  | a :: as, b :: bs, h, hf => by
    rw [List.mapM_cons, hf 0 a b rfl rfl, mapM_of_get (as := as) (bs := bs) (by simpa using h) fun k a b h1 h2 => hf (k + 1) a b h1 h2]
    rfl

theorem bindAll_get {ρ : SEnv} : ∀ {xs : List Nat} {is : List Int} {k y : Nat} {v : Int}, xs.Nodup → xs[k]? = some y → is[k]? = some v → ρ.bindAll xs is y = .int v
  | [], _, _, _, _, _, h, _ => by simp at h
  | _ :: _, [], _, _, _, _, _, h => by simp at h
  | x :: xs, i :: is, 0, y, v, _, h, h' => by
    simp at h h'; subst h h'; simp [SEnv.bindAll, SEnv.bindSome, SEnv.set]
  | x :: xs, i :: is, k + 1, y, v, hn, h, h' => by
    rw [List.getElem?_cons_succ] at h h'
    have hne : y ≠ x := by
      rintro rfl
      exact (List.nodup_cons.1 hn).1 (List.mem_of_getElem? h)
    have := bindAll_get (ρ := ρ) (List.nodup_cons.1 hn).2 h h'
    simp only [SEnv.bindAll, List.map_cons, SEnv.bindSome, SEnv.set, hne, if_false] at this ⊢
    exact this

theorem bindAll_other {ρ : SEnv} {z : Nat} {xs : List Nat} {is : List Int} (h : z ∉ xs) : ρ.bindAll xs is z = ρ z := bindSome_other h

/-- The indices of a source. -/
theorem points_min (dims : List Nat) : (dims.map fun x => Interval.point (.var x .none 0)).map Interval.min = dims.map fun x => Expr.var x .none 0 := by
  simp [List.map_map, Function.comp_def, Interval.point]

theorem concatX_get {dst : Output} {src dim : Nat} {lo hi : Expr} {k : Nat} {e : Expr} (h : ((concatInput src dst dim lo hi).bounds.map Interval.min)[k]? = some e) :
    ∃ y, dst.dims[k]? = some y ∧ e = if k = dim then .bin .sub (.var y .none 0) lo else .var y .none 0 := by
  simp only [concatInput, List.getElem?_map, List.getElem?_modify] at h
  cases h1 : dst.dims[k]? with
  | none => simp [h1] at h
  | some y =>
  refine ⟨y, rfl, ?_⟩
  simp only [h1, Option.map_eq_map, Option.map_some, Option.some.injEq] at h
  subst h
  by_cases hk : dim = k
  · subst hk; simp [subI, Interval.point, Interval.isPoint, Expr.defined, mkBin, BinOp.comm]
  · have hk' : ¬ k = dim := fun h => hk h.symm
    simp [hk, hk', Interval.point]

theorem concatX_length {dst : Output} {src dim : Nat} {lo hi : Expr} : ((concatInput src dst dim lo hi).bounds.map Interval.min).length = dst.dims.length := by
  simp [concatInput]

/-- An index of a source that depends on the index of `dst` with the same number only. -/
theorem sep_of {simp : Expr → Expr} {lb : Expr → Option Int} {src dst : Nat} {srcX : List Expr} {dstX : List Nat} (hn : dstX.Nodup)
    (hX : ∀ (k : Nat) (e : Expr), srcX[k]? = some e → ∃ y, dstX[k]? = some y ∧ e.Plain dstX ∧ ∀ z ∈ dstX, FreeIn z e → z = y)
    (d x k : Nat) (e : Expr) (hd : dstX[d]? = some x) (hp : PassesTo simp lb src srcX dst dstX x d k) (he : srcX[k]? = some e) :
    ∀ y ∈ dstX, y ≠ x → ¬ FreeIn y e := by
  intro y hy hyx hf
  obtain ⟨c, hc⟩ := hp
  obtain ⟨e', h1, h2, -⟩ := copyStep_some hc
  rw [he] at h1
  cases h1
  obtain ⟨z, -, h4, h5⟩ := hX k e he
  rw [dependsOn_precise e (plain_bufOK e h4)] at h2
  exact hyx ((h5 y hy hf).trans (h5 x (List.mem_of_getElem? hd) h2).symm)

end Slinky.CC
