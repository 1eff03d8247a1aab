import Verif.ConcatThm
import Verif.SemLe

/-! # C54: the copy of one source -/

namespace Slinky.CC

/-- What is assumed of the environment and of the destination. -/
structure Cond (w : World) (host : Fn → List (Option Int) → Int) (simp : Expr → Expr) (lb : Expr → Option Int) (ρ : SEnv) (n : Nat) (dst : Output) (D : Buf) (dim : Nat) : Prop where
  /-- The functions of the world do not depend on what was done before. -/
  h_host : ∀ fn xs l, w.host fn xs l = host fn xs
  h_range : ρ.InRange64
  h_dst : ρ dst.sym = .buf D
  /-- The symbols from `n` on are new. -/
  fresh : ∀ k, n ≤ k → ρ k = .undef ∧ k ∉ dst.dims
  /-- The names of the indices are not in scope, and they are not the same. -/
  idx : ∀ x ∈ dst.dims, ρ x = .undef
  nodup : dst.dims.Nodup
  rank : D.rank = dst.dims.length
  dim_lt : dim < D.rank
  h_simp : ∀ m X, SimpSound simp lb m X

/-- What is assumed of a source. -/
structure Source (ρ : SEnv) (dst : Output) (D : Buf) (src : Nat) (S : Buf) : Prop where
  h_src : ρ src = .buf S
  ne : src ≠ dst.sym
  elem : S.elem = D.elem
  /-- The source is not folded (`folded_src_counterexample`). -/
  unfolded : ∀ k, (S.dim k).fold = Dim.unfolded ∨ (S.dim k).stride = 0

/-- What is assumed of an end of a range: it is a good expression, without metadata of the buffers that are copied, and without the indices. -/
structure BoundOk (w : World) (l : List Ev) (ρ : SEnv) (n : Nat) (dst : Output) (srcs : List Nat) (e : Expr) (v : Int) : Prop where
  ok : e.ok = true
  wf : e.WF
  plain : e.Plain dst.dims
  free : ∀ z, FreeIn z e → z ≠ dst.sym ∧ z ∉ srcs ∧ z ∉ dst.dims ∧ z < n
  val : evalI w l ρ e = some v

/-- What is assumed of the range `[a, b)` of a source in a concatenation. -/
structure RangeOk (D : Buf) (dim : Nat) (S : Buf) (a b : Int) : Prop where
  rank : S.rank = D.rank
  /-- The dimensions before the one that is concatenated are not empty. -/
  nonempty : ∀ j, j < dim → (S.dim j).min ≤ (S.dim j).max
  /-- A broadcast dimension of the source does not become empty. -/
  bcast : (S.dim dim).stride = 0 → max 0 (S.dim dim).min ≤ min (b - a - 1) (S.dim dim).max
  /-- The metadata of the parts are 64-bit integers. -/
  range_dst : (D.crop dim a (b - 1)).InRange64
  range_src : (S.crop dim 0 (b - a - 1)).InRange64
  /-- No element is at the null pointer. -/
  nonnull : ∀ is, (S.crop dim 0 (b - a - 1)).view is ≠ some 0

/-- The calls of the function that copies write the elements of `D` at the indices `P`, and the element that is copied to `x` is `F x`. -/
structure Part (calls : List (Buf × Buf)) (D : Buf) (P : List Int → Prop) (F : List Int → Option Int) : Prop where
  elem : ∀ c ∈ calls, c.1.elem = c.2.elem ∧ c.2.elem = D.elem
  sub : ∀ c ∈ calls, ∀ is, c.2.InBounds is → ∃ x, D.InBounds x ∧ P x ∧ c.2.address is = D.address x ∧ c.1.view is = F x
  cover : ∀ x, D.InBounds x → P x → ∃ c ∈ calls, ∃ is, c.2.InBounds is ∧ c.2.address is = D.address x ∧ c.1.view is = F x

variable {w : World} {host : Fn → List (Option Int) → Int} {simp : Expr → Expr} {lb : Expr → Option Int} {ρ : SEnv} {n : Nat} {dst : Output} {D : Buf} {dim : Nat}

theorem evalI_sub {l : List Ev} {ρ : SEnv} {a b : Expr} {v : Int} : evalI w l ρ (.bin .sub a b) = some v ↔
    ∃ x y, evalI w l ρ a = some x ∧ evalI w l ρ b = some y ∧ v = x - y ∧ InRange 64 (x - y) := by
  simp only [evalI, evalS, Option.bind_eq_some_iff, Option.map_eq_some_iff, BinOp.machine]
  constructor
  · rintro ⟨u, ⟨x, ⟨p, h1, h2⟩, y, ⟨q, h3, h4⟩, z, h5, rfl⟩, h6⟩
    obtain ⟨rfl, h7⟩ := chk_eq_some h5
    simp only [Val.int?, Option.some.injEq] at h6
    exact ⟨x, y, ⟨p, h1, h2⟩, ⟨q, h3, h4⟩, h6.symm, h7⟩
  · rintro ⟨x, y, ⟨p, h1, h2⟩, ⟨q, h3, h4⟩, rfl, h7⟩
    exact ⟨_, ⟨x, ⟨p, h1, h2⟩, y, ⟨q, h3, h4⟩, _, chk_some h7, rfl⟩, rfl⟩

theorem BoundOk.evalAt (h : Cond w host simp lb ρ n dst D dim) {l l1 : List Ev} {srcs : List Nat} {e : Expr} {v : Int} (he : BoundOk w l ρ n dst srcs e v) {ρ' : SEnv}
    (hr : ∀ z, z ≠ dst.sym → z ∉ srcs → z ∉ dst.dims → z < n → ρ' z = ρ z) : evalI w l1 ρ' e = some v := by
  have h1 : evalI w l1 ρ' e = evalI w l1 ρ e := evalI_in (F := fun z => z ≠ dst.sym ∧ z ∉ srcs ∧ z ∉ dst.dims ∧ z < n) ⟨he.wf, he.free⟩
    fun z hz => hr z hz.1 hz.2.1 hz.2.2.1 hz.2.2.2
  rw [h1, evalI_log (l' := l) e ρ (.inl fun fn xs => by rw [h.h_host, h.h_host])]
  exact he.val

theorem set_range {ρ : SEnv} (h : ρ.InRange64) {x : Nat} {b : Buf} (hb : b.InRange64) : (ρ.set x (.buf b)).InRange64 := by
  intro y
  by_cases hy : y = x
  · simp only [SEnv.set, hy, if_true]; exact hb
  · simp only [SEnv.set, hy, if_false]; exact h y

/-- The copy of one source of a concatenation. -/
theorem concat_piece (h : Cond w host simp lb ρ n dst D dim) {srcs : List Nat} {src : Nat} (hsrc : src ∈ srcs) {S : Buf} (hS : Source ρ dst D src S) {lo hi : Expr} {a b : Int}
    {l l1 l' : List Ev} (hlo : BoundOk w l ρ n dst srcs lo a) (hhi : BoundOk w l ρ n dst srcs hi b) (hne : ∀ j, j < dim → (D.dim j).min ≤ (D.dim j).max)
    (hR : RangeOk D dim S a b) {k t : Nat} (hk : n ≤ k) {skip : Bool}
    (hs : sem w skip (implS simp lb (makeCopyFunc t (concatInput src dst dim lo hi) dst none) k).1 ρ l1 = some (0, l')) :
    ∃ calls, runSeq (copyCall w t []) calls l1 = some (0, l') ∧
      Part calls D (fun x => a ≤ x.getD dim 0 ∧ x.getD dim 0 < b) (fun x => S.view (x.set dim (x.getD dim 0 - a))) := by
  have hdef : ∀ {e : Expr}, e.ok = true → e.defined = true := fun {e} ho => by cases e <;> first | rfl | simp [Expr.ok] at ho
  have hX := @concatX_get dst src dim lo hi
  have hXl := @concatX_length dst src dim lo hi
  simp only [makeCopyFunc] at hs
  generalize (concatInput src dst dim lo hi).bounds.map Interval.min = srcX at hs hX hXl
  have hsym : (concatInput src dst dim lo hi).sym = src := rfl
  have hic : (concatInput src dst dim lo hi).inputCrop = List.replicate dim .unbounded ++ [⟨.const 0, .bin .sub (.bin .sub hi lo) (.const 1), false⟩] := rfl
  have hoc : (concatInput src dst dim lo hi).outputCrop = List.replicate dim .unbounded ++ [⟨lo, .bin .sub hi (.const 1), false⟩] := rfl
  have hos : (concatInput src dst dim lo hi).outputSlice = [] := rfl
  rw [hos, if_pos rfl, hoc, if_neg (by simp), hic, if_neg (by simp), hsym] at hs
  simp only [implS, sem, SEnv.buf?, h.h_dst, Val.buf?, Option.bind_some] at hs
  obtain ⟨D', hD', hs⟩ := Option.bind_eq_some_iff.1 hs
  split at hs
  swap
  · cases hs
  clear * - h hsrc hS hlo hhi hne hR hk hs hX hXl hD' hdef
  obtain ⟨x, y, e1, e2, rfl⟩ := cropS_last ⟨hdef hlo.ok, rfl⟩ dim 0 (by simpa using h.dim_lt) (fun j _ hj => hne j (by simpa using hj)) hD'
  rw [hlo.evalAt h (l1 := l1) fun _ _ _ _ _ => rfl] at e1
  cases e1
  obtain ⟨x, z, e3, e4, rfl, -⟩ := evalI_sub.1 e2
  rw [hhi.evalAt h (l1 := l1) fun _ _ _ _ _ => rfl] at e3
  cases e3
  cases e4
  rw [Nat.zero_add] at hs
  set ρ1 := ρ.set dst.sym (.buf (D.crop dim a (b - 1))) with hρ1
  have hsrc1 : ρ1 src = .buf S := by simp only [hρ1, SEnv.set, hS.ne, if_false]; exact hS.h_src
  rw [hsrc1] at hs
  simp only [Val.buf?, Option.bind_some] at hs
  obtain ⟨S', hS', hs⟩ := Option.bind_eq_some_iff.1 hs
  split at hs
  swap
  · cases hs
  clear * - h hsrc hS hlo hhi hne hR hk hs hX hXl hS' hdef hsrc1 hρ1
  have hout : ∀ z, z ≠ dst.sym → z ∉ srcs → z ∉ dst.dims → z < n → ρ1 z = ρ z := fun z hz _ _ _ => by simp [hρ1, SEnv.set, hz]
  obtain ⟨x, y, e1, e2, rfl⟩ := cropS_last ⟨rfl, rfl⟩ dim 0 (by rw [hR.rank]; simpa using h.dim_lt) (fun j _ hj => hR.nonempty j (by simpa using hj)) hS'
  cases e1
  obtain ⟨x, z, e3, e4, rfl, -⟩ := evalI_sub.1 e2
  cases e4
  obtain ⟨x, z, e5, e6, rfl, e7⟩ := evalI_sub.1 e3
  rw [hhi.evalAt h hout] at e5
  cases e5
  rw [hlo.evalAt h hout] at e6
  cases e6
  rw [Nat.zero_add] at hs
  set ρ2 := ρ1.set src (.buf (S.crop dim 0 (b - a - 1))) with hρ2
  have hdimS : dim < S.rank := by rw [hR.rank]; exact h.dim_lt
  have hrD : (D.crop dim a (b - 1)).rank = D.rank := (crop_other D dim a (b - 1)).2.1
  have hnd : dst.sym ∉ dst.dims := fun hx => by have := h.h_dst; rw [h.idx _ hx] at this; cases this
  have hns : src ∉ dst.dims := fun hx => by have := hS.h_src; rw [h.idx _ hx] at this; cases this
  have hkd : dst.sym ≠ k := by rintro rfl; have := h.h_dst; rw [(h.fresh _ hk).1] at this; cases this
  have hks : src ≠ k := by rintro rfl; have := hS.h_src; rw [(h.fresh _ hk).1] at this; cases this
  have hρ2o : ∀ z, z ≠ dst.sym → z ≠ src → ρ2 z = ρ z := fun z h1 h2 => by simp [hρ2, hρ1, SEnv.set, h1, h2]
  have hfv : ∀ {z y : Nat}, FreeIn z (.var y .none 0) → z = y := fun h => by simpa [FreeIn, eq_comm] using h
  have hXe : ∀ (i : Nat) (e : Expr), srcX[i]? = some e → ∃ y, dst.dims[i]? = some y ∧ e.Plain dst.dims ∧ e.ok = true ∧ e.WF ∧
      (∀ z, FreeIn z e → z = y ∨ FreeIn z lo) := by
    intro i e he
    obtain ⟨y, h1, rfl⟩ := hX he
    refine ⟨y, h1, ?_⟩
    split
    · exact ⟨⟨.inl rfl, hlo.plain⟩, by simp [Expr.ok, hlo.ok], ⟨trivial, hlo.wf⟩, fun z hz => hz.imp (fun (hz : FreeIn z (.var y .none 0)) => hfv hz) id⟩
    · exact ⟨.inl rfl, rfl, trivial, fun z hz => .inl (hfv hz)⟩
  have C : CopyCond w host simp lb l1 ρ2 k src srcX dst.sym dst.dims (S.crop dim 0 (b - a - 1)) (D.crop dim a (b - 1)) (fun x => x.set dim (x.getD dim 0 - a)) := by
    constructor
    · exact h.h_host
    · exact set_range (set_range h.h_range hR.range_dst) hR.range_src
    · simp [hρ2, SEnv.set]
    · simp [hρ2, hρ1, SEnv.set, hS.ne.symm]
    · rw [hρ2o k hkd.symm hks.symm]; exact (h.fresh _ hk).1
    · exact (h.fresh _ hk).2
    · intro e he hf
      obtain ⟨i, hi', rfl⟩ := List.mem_iff_getElem.1 he
      obtain ⟨y, h1, -, -, -, h2⟩ := hXe i _ (List.getElem?_eq_getElem hi')
      rcases h2 _ hf with rfl | h2
      · exact (h.fresh _ hk).2 (List.mem_of_getElem? h1)
      · exact absurd (hlo.free _ h2).2.2.2 (by omega)
    · intro x hx
      rw [hρ2o x (by rintro rfl; exact hnd hx) (by rintro rfl; exact hns hx)]
      exact h.idx x hx
    · exact h.nodup
    · rw [hrD]; exact h.rank
    · intro e he
      obtain ⟨i, hi', rfl⟩ := List.mem_iff_getElem.1 he
      obtain ⟨y, h1, h2, h3, h4, -⟩ := hXe i _ (List.getElem?_eq_getElem hi')
      exact ⟨h3, h4, h2⟩
    · exact h.h_simp _ _
    · intro j
      by_cases hj : j = dim
      · subst hj; rw [crop_dim S j _ _ hdimS]; exact hS.unfolded j
      · rw [(crop_other S dim _ _).1 j hj]; exact hS.unfolded j
    · exact hR.nonnull
    · intro x hx
      have hxl : x.length = dst.dims.length := by rw [InB.length hx]; exact hrD.trans h.rank
      rw [crop_inB h.dim_lt] at hx
      refine mapM_of_get (by rw [hXl, List.length_set, hxl]) fun i e v he hv => ?_
      obtain ⟨y, h1, rfl⟩ := hX he
      rw [List.getElem?_set] at hv
      have hil : i < x.length := by rw [hxl]; exact (List.getElem?_eq_some_iff.1 h1).1
      have hxi : x[i]? = some (x.getD i 0) := by simp [List.getD, List.getElem?_eq_getElem hil]
      have hyi : evalI w l1 (ρ2.bindAll dst.dims x) (.var y .none 0) = some (x.getD i 0) := by
        simp [evalI, evalS, bindAll_get h.nodup h1 hxi, Val.int?]
      by_cases hi' : i = dim
      · subst hi'
        simp only [if_true, hil, Option.some.injEq] at hv ⊢
        refine evalI_sub.2 ⟨_, a, hyi, hlo.evalAt h ?_, hv.symm, ?_⟩
        · intro z g1 g2 g3 g4
          rw [bindAll_other g3]
          exact hρ2o z g1 (by rintro rfl; exact g2 hsrc)
        · have := hx.2
          unfold InRange at *
          omega
      · have : ¬ dim = i := fun h => hi' h.symm
        simp only [this, hi', if_false] at hv ⊢
        rw [hxi] at hv
        cases hv
        exact hyi
    · exact sep_of h.nodup fun i e he => by
        obtain ⟨y, h1, h2, -, -, h3⟩ := hXe i e he
        exact ⟨y, h1, h2, fun z hz hf => (h3 z hf).resolve_right fun hl => (hlo.free z hl).2.2.1 hz⟩
    · intro d x i e hd _ he hf
      exfalso
      obtain ⟨y, h1, -, -, -, h2⟩ := hXe i e he
      rcases h2 _ hf with h3 | h3
      · exact hnd (h3 ▸ List.mem_of_getElem? h1)
      · exact (hlo.free _ h3).1 rfl
  obtain ⟨calls, c1, c2⟩ := implementCopy_sound_partial C (by simp) (pads := []) (by simp) hs
  refine ⟨calls, c1, ?_, ?_, ?_⟩
  · intro c hc
    have := c2.elem c hc
    rw [(crop_other S dim _ _).2.2, (crop_other D dim _ _).2.2] at this
    rw [this.1, this.2]
    exact ⟨hS.elem, rfl⟩
  all_goals
    have hview : ∀ x, (D.crop dim a (b - 1)).InBounds x → (S.crop dim 0 (b - a - 1)).view (x.set dim (x.getD dim 0 - a)) = S.view (x.set dim (x.getD dim 0 - a)) := by
      intro x hx
      have hxl : x.length = D.rank := by rw [InB.length hx]; exact hrD
      rw [crop_inB h.dim_lt] at hx
      have hd : dim < x.length := by rw [hxl]; exact h.dim_lt
      have hg : (x.set dim (x.getD dim 0 - a)).getD dim 0 = x.getD dim 0 - a := by simp [List.getD, hd]
      refine crop_view hdimS hR.bcast (by simpa using hd) ?_
      rw [hg]
      omega
  · intro c hc is his
    obtain ⟨x, x1, x2, x3⟩ := c2.sub c hc is his
    have x4 := x1
    rw [crop_inB h.dim_lt] at x4
    exact ⟨x, x4.1, by omega, x2.trans (crop_addr h.dim_lt x1), x3.trans (hview x x1)⟩
  · intro x hx hp
    have hx' : (D.crop dim a (b - 1)).InBounds x := by rw [crop_inB h.dim_lt]; exact ⟨hx, by omega⟩
    obtain ⟨c, hc, is, g1, g2, g3⟩ := c2.cover x hx'
    exact ⟨c, hc, is, g1, g2.trans (crop_addr h.dim_lt hx'), g3.trans (hview x hx')⟩

end Slinky.CC
