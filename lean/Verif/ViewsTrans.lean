import Verif.ViewsSlice

/-!
# C59: transposes of transposes
-/

namespace Slinky.VW

open Slinky

variable {w : World} {l : List Ev} {ρ : SEnv}

theorem normD_bcast (D : Dim) : (normD D).isBroadcast = D.isBroadcast := by
  unfold normD
  split
  · rename_i h; rw [h]; decide
  · rfl

theorem trimRank_norm : ∀ ds : List Dim, trimRank (ds.map normD) = trimRank ds
  | [] => rfl
  | d :: ds => by simp only [List.map_cons, trimRank, trimRank_norm ds, normD_bcast]

theorem trimRank_congr {ds es : List Dim} (h : ds.map normD = es.map normD) : trimRank ds = trimRank es := by
  rw [← trimRank_norm, h, trimRank_norm]

theorem dim_beyond {b : Buf} {d : Nat} (h : b.rank ≤ d) : b.dim d = Dim.broadcast := by
  rw [Buf.dim, List.getElem?_eq_none h]; rfl

theorem dim_norm (b : Buf) (d : Nat) : normD (b.dim d) = ((b.dims.map normD)[d]?).getD Dim.broadcast := by
  rw [Buf.dim, List.getElem?_map]
  cases b.dims[d]? <;> rfl

theorem SameView.rank {a b : Buf} (h : SameView a b) : a.rank = b.rank := by
  have := congrArg List.length h.2.2
  simpa [Buf.rank] using this

/-- What is seen of a buffer by its dimensions. -/
theorem transpose_norm {p q : List Nat} {a b : Buf} (hb : a.base = b.base) (he : a.elem = b.elem)
    (h : (p.map a.dim).map normD = (q.map b.dim).map normD) : SameView (Buf.transpose p a) (Buf.transpose q b) := by
  refine ⟨hb, he, ?_⟩
  simp only [Buf.transpose, List.map_take, trimRank_congr h]
  rw [← List.map_take, ← List.map_take] at *
  rw [List.map_take, List.map_take, h]

/-- Transposes do not see the fold factors of broadcasts. -/
theorem transpose_view (p : List Nat) {a b : Buf} (h : SameView a b) : SameView (Buf.transpose p a) (Buf.transpose p b) := by
  refine transpose_norm h.1 h.2.1 ?_
  simp only [List.map_map]
  refine List.map_congr_left fun d _ => ?_
  simp only [Function.comp, dim_norm, h.2.2]

theorem trim_bcast : ∀ (ds : List Dim) (k : Nat) (D : Dim), ds[k]? = some D → trimRank ds ≤ k → D.isBroadcast = true
  | d :: ds, 0, D, hd, h => by
    simp only [List.getElem?_cons_zero, Option.some.injEq] at hd
    subst hd
    simp only [trimRank] at h
    split at h
    · split at h
      · assumption
      · omega
    · omega
  | d :: ds, k + 1, D, hd, h => by
    refine trim_bcast ds k D hd ?_
    simp only [trimRank] at h
    split at h
    · omega
    · omega
  | [], _, _, hd, _ => by simp at hd

/-- A dimension of a transposed buffer. -/
theorem transpose_dim (t : List Nat) (b : Buf) (d : Nat) : normD ((Buf.transpose t b).dim d) = normD (((t.map b.dim)[d]?).getD Dim.broadcast) := by
  simp only [Buf.transpose]
  by_cases h : d < trimRank (t.map b.dim)
  · rw [Buf.dim, List.getElem?_take_of_lt h]
  · rw [dim_beyond (by simp only [Buf.rank, List.length_take]; omega)]
    cases hd : (t.map b.dim)[d]? with
    | none => rfl
    | some D =>
      have := trim_bcast _ d D hd (by omega)
      simp only [Option.getD_some, normD, this, if_true]
      rfl

/-- C59: a transpose of a transpose is a transpose with the composed permutation. -/
theorem transpose_transpose {newDim : Nat} {b : Buf} (hn : b.rank ≤ newDim) (p t : List Nat) :
    SameView (Buf.transpose (permute newDim p t) b) (Buf.transpose p (Buf.transpose t b)) := by
  refine transpose_norm rfl rfl ?_
  simp only [permute, List.map_map]
  refine List.map_congr_left fun d _ => ?_
  simp only [Function.comp, transpose_dim, List.getElem?_map]
  cases t[d]? with
  | none => simp [dim_beyond hn]
  | some k => rfl

theorem SameView.trans {a b c : Buf} (h : SameView a b) (k : SameView b c) : SameView a c := ⟨h.1.trans k.1, h.2.1.trans k.2.1, h.2.2.trans k.2.2⟩

/-- C59: the loop. -/
theorem mergeTranspose_view {newDim : Nat} {decl : Nat → Option (Nat × List Nat)} (hD : DeclaredT newDim ρ decl) : ∀ (n x : Nat) (p : List Nat) (b : Buf),
    ρ.buf? x = some b → ∃ b0, ρ.buf? (mergeTranspose newDim decl n x p).1 = some b0 ∧
      SameView (Buf.transpose (mergeTranspose newDim decl n x p).2 b0) (Buf.transpose p b)
  | 0, x, p, b, hx => ⟨b, hx, rfl, rfl, rfl⟩
  | n + 1, x, p, b, hx => by
    simp only [mergeTranspose]
    cases hd : decl x with
    | none => exact ⟨b, hx, rfl, rfl, rfl⟩
    | some q =>
      obtain ⟨src, t⟩ := q
      obtain ⟨b1, h1, h2, h3⟩ := hD x src t hd
      rw [hx] at h3
      obtain rfl := Option.some.inj h3
      obtain ⟨b0, k1, k2⟩ := mergeTranspose_view hD n src (permute newDim p t) b1 h1
      exact ⟨b0, k1, k2.trans (transpose_transpose h2 p t)⟩

theorem trim_append : ∀ (ds es : List Dim), (∀ E ∈ es, E.isBroadcast = true) → trimRank (ds ++ es) = trimRank ds
  | [], [], _ => rfl
  | [], E :: es, h => by
    have ih := trim_append [] es fun F hF => h F (by simp [hF])
    simp only [List.nil_append] at ih ⊢
    simp only [trimRank, ih, h E (by simp), if_true]
  | d :: ds, es, h => by simp only [List.cons_append, trimRank, trim_append ds es h]

/-- C59: dimensions at the end that the buffer does not have can be dropped. -/
theorem popRank_transpose (b : Buf) (p : List Nat) : Buf.transpose (popRank (some b.rank) p) b = Buf.transpose p b := by
  have e : p = popRank (some b.rank) p ++ (p.reverse.takeWhile fun d => decide (b.rank ≤ d)).reverse := by
    rw [popRank, ← List.reverse_append, List.takeWhile_append_dropWhile, List.reverse_reverse]
  have h : ∀ d ∈ (p.reverse.takeWhile fun d => decide (b.rank ≤ d)).reverse, b.rank ≤ d := fun d hd => by
    have := List.mem_takeWhile_imp (List.mem_reverse.1 hd)
    simpa using this
  generalize (p.reverse.takeWhile fun d => decide (b.rank ≤ d)).reverse = q at e h
  generalize popRank (some b.rank) p = r at e
  subst e
  have hq : ∀ E ∈ q.map b.dim, E.isBroadcast = true := by
    intro E hE
    obtain ⟨d, hd, rfl⟩ := List.mem_map.1 hE
    rw [dim_beyond (h d hd)]; decide
  simp only [Buf.transpose, List.map_append]
  rw [trim_append _ _ hq, List.take_append_of_le_length (trimRank_le _)]

theorem range_dims (b : Buf) : (List.range b.rank).map b.dim = b.dims := by
  refine List.ext_getElem? fun k => ?_
  rw [List.getElem?_map]
  by_cases hk : k < b.rank
  · rw [List.getElem?_range hk, dim_eq b k hk]; rfl
  · rw [List.getElem?_eq_none (by simpa using hk), List.getElem?_eq_none (by simpa [Buf.rank] using hk)]; rfl

/-- C59: a transpose that is taken for one that does nothing does nothing, if the last dimension of the buffer is not a broadcast. -/
theorem noop_transpose_partial (b : Buf) (p : List Nat) (h : noopTranspose (some b.rank) p = true) (ht : trimRank b.dims = b.rank) : Buf.transpose p b = b := by
  simp only [noopTranspose, Bool.and_eq_true, decide_eq_true_eq] at h
  obtain ⟨h1, h2⟩ := h
  have e : p.map b.dim = b.dims ++ ((List.range' b.rank (p.length - b.rank)).map b.dim) := by
    conv_lhs => rw [h1, show p.length = b.rank + (p.length - b.rank) by omega, List.range_add, List.map_append, range_dims]
    congr 1
    rw [List.range'_eq_map_range, List.map_map]
  have hq : ∀ E ∈ (List.range' b.rank (p.length - b.rank)).map b.dim, E.isBroadcast = true := by
    intro E hE
    obtain ⟨d, hd, rfl⟩ := List.mem_map.1 hE
    rw [dim_beyond (List.mem_range'_1.1 hd).1]; decide
  rw [Buf.transpose, e, trim_append _ _ hq, ht, List.take_append_of_le_length (by simp [Buf.rank])]
  simp only [Buf.rank, List.take_length]

/-- C59: a transpose, of a transpose or not, declares the same buffer as what the simplifier makes of it, up to the fold factors of broadcasts.

Assumed: the declarations are true, the rank is known correctly, no symbol is declared by a transpose of itself, and the last dimension of a buffer is not a
broadcast. -/
theorem transpose_of_transpose_partial {newDim : Nat} {decl : Nat → Option (Nat × List Nat)} (hD : DeclaredT newDim ρ decl)
    (hT : ∀ x b, ρ.buf? x = some b → trimRank b.dims = b.rank) (n x y : Nat) (p : List Nat) (b2 : Buf) (h : (Head.transpose x p).val w l ρ y = some (some b2))
    (rank : Option Nat) (hr : ∀ r b0, rank = some r → ρ.buf? (mergeTranspose newDim decl n x p).1 = some b0 → r = b0.rank)
    (hy : y ≠ (mergeTranspose newDim decl n x p).1) :
    ∃ b1, SameView b1 b2 ∧
      if noopTranspose rank (popRank rank (mergeTranspose newDim decl n x p).2) then ρ.buf? (mergeTranspose newDim decl n x p).1 = some b1
      else (Head.transpose (mergeTranspose newDim decl n x p).1 (popRank rank (mergeTranspose newDim decl n x p).2)).val w l ρ y = some (some b1) := by
  simp only [Head.val] at h
  obtain ⟨b, hx, h'⟩ := Option.bind_eq_some_iff.1 h
  have hv : b2 = Buf.transpose p b := by
    split at h'
    · simp only [Option.some.injEq] at h'; exact h'.symm
    · cases h'
  subst hv
  obtain ⟨b0, k1, k2⟩ := mergeTranspose_view hD n x p b hx
  generalize mergeTranspose newDim decl n x p = m at *
  have e : Buf.transpose (popRank rank m.2) b0 = Buf.transpose m.2 b0 := by
    cases rank with
    | none => rfl
    | some r => obtain rfl := hr r b0 rfl k1; exact popRank_transpose b0 m.2
  split
  · rename_i hn
    cases rank with
    | none => cases hn
    | some r =>
      obtain rfl := hr r b0 rfl k1
      refine ⟨b0, ?_, k1⟩
      rw [← noop_transpose_partial b0 _ hn (hT _ b0 k1), e]
      exact k2
  · refine ⟨Buf.transpose m.2 b0, k2, ?_⟩
    rw [← e]
    have : transposeOk y m.1 (popRank rank m.2) b0 = true := by simp [transposeOk, hy]
    simp only [Head.val, k1, Option.bind_some, this, if_true]
    rfl

end Slinky.VW
