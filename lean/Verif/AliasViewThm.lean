import Verif.AliasView
import Mathlib.Algebra.BigOperators.Group.Finset.Basic
import Mathlib.Data.List.Nodup

/-!
# An alias of a view is an alias of the buffer

See `AliasView.lean` for the code and the specification.
-/

namespace Slinky.AV

open Finset

theorem stepB_comm (p : Option Int) (d e : Dim) (x y : Int) : stepB (stepB p d x) e y = stepB (stepB p e y) d x := by
  cases p with
  | none => rfl
  | some q =>
    by_cases h1 : d.contains x = true <;> by_cases h2 : e.contains y = true <;> simp [stepB, h1, h2]
    omega

theorem bufferAt_some (p : Option Int) (d : Dim) (ds : List Dim) (x : Int) (xs : List (Option Int)) :
    bufferAt p (d :: ds) (some x :: xs) = bufferAt (stepB p d x) ds xs := rfl

theorem bufferAt_nil (p : Option Int) (ds : List Dim) : bufferAt p ds [] = p := by cases ds <;> rfl

theorem bufferAt_nil_dims (p : Option Int) (xs : List (Option Int)) : bufferAt p [] xs = p := by cases xs <;> rfl

theorem sliceB_nil (p : Option Int) (es : List (Option Int)) : sliceB p [] es = (p, []) := by
  match es with
  | [] => rfl
  | none :: _ => rfl
  | some _ :: _ => rfl

/-- Slices of different dimensions may be made in any order. -/
theorem sliceB_step : ∀ (es : List (Option Int)) (ds : List Dim) (p : Option Int) (d : Dim) (x : Int),
    sliceB (stepB p d x) ds es = (stepB (sliceB p ds es).1 d x, (sliceB p ds es).2)
  | [], ds, p, d, x => by cases ds <;> rfl
  | none :: es, [], p, d, x => rfl
  | some _ :: es, [], p, d, x => rfl
  | none :: es, e :: ds, p, d, x => by simp only [sliceB, sliceB_step es ds p d x]
  | some y :: es, e :: ds, p, d, x => by
    simp only [sliceB]
    rw [stepB_comm p d e x y]
    exact sliceB_step es ds (stepB p e y) d x

theorem sliceB_undef : ∀ (es : List (Option Int)) (ds : List Dim) (p : Option Int), (∀ e ∈ es, e = none) → (sliceB p ds es).1 = p
  | [], ds, p, _ => by cases ds <;> rfl
  | none :: es, [], p, _ => rfl
  | none :: es, e :: ds, p, h => sliceB_undef es ds p fun e he => h e (by simp [he])
  | some y :: es, ds, p, h => by cases h (some y) (by simp)

/-- What the loop does after the dimensions that it has seen. -/
def merge : List (Option Int) → List (Option Int) → List (Option Int)
  | [], ats => ats
  | some x :: es, ats => some x :: merge es ats
  | none :: es, a :: ats => a :: merge es ats
  | none :: _, [] => []

theorem insertIdx_append {α : Type} (pre ats : List α) (x : α) : (pre ++ ats).insertIdx pre.length x = pre ++ x :: ats := by
  induction pre with
  | nil => rfl
  | cons a pre ih => simp [ih]

theorem insertAt_short : ∀ (es : List (Option Int)) (d : Nat) (pre r : List (Option Int)), pre.length < d → insertAt d es pre = some r →
    (∀ e ∈ es, e = none) ∧ r = pre
  | [], d, pre, r, _, h => ⟨by simp, by simpa [insertAt, eq_comm] using h⟩
  | none :: es, d, pre, r, hd, h => by
    obtain ⟨h1, h2⟩ := insertAt_short es (d + 1) pre r (by omega) h
    exact ⟨by simpa using h1, h2⟩
  | some x :: es, d, pre, r, hd, h => by
    rw [insertAt, if_neg (by omega)] at h; cases h

/-- Nothing is inserted behind the end. -/
def Valid : List (Option Int) → List (Option Int) → Prop
  | [], _ => True
  | some _ :: es, ats => Valid es ats
  | none :: es, _ :: ats => Valid es ats
  | none :: es, [] => ∀ e ∈ es, e = none

theorem insertAt_merge : ∀ (es : List (Option Int)) (pre ats r : List (Option Int)), insertAt pre.length es (pre ++ ats) = some r →
    r = pre ++ merge es ats ∧ Valid es ats
  | [], pre, ats, r, h => ⟨by simpa [insertAt, merge, eq_comm] using h, trivial⟩
  | some x :: es, pre, ats, r, h => by
    rw [insertAt, if_pos (by simp), insertIdx_append] at h
    have := insertAt_merge es (pre ++ [some x]) ats r (by simpa using h)
    exact ⟨by simpa [merge] using this.1, this.2⟩
  | none :: es, pre, [], r, h => by
    simp only [insertAt, List.append_nil] at h
    obtain ⟨h1, h2⟩ := insertAt_short es (pre.length + 1) pre r (by omega) h
    exact ⟨by simp [merge, h2], h1⟩
  | none :: es, pre, a :: ats, r, h => by
    rw [insertAt] at h
    have := insertAt_merge es (pre ++ [a]) ats r (by simpa using h)
    exact ⟨by simpa [merge] using this.1, this.2⟩

theorem merge_bufferAt : ∀ (es ats : List (Option Int)) (ds : List Dim) (p : Option Int), Valid es ats →
    bufferAt p ds (merge es ats) = bufferAt (sliceB p ds es).1 (sliceB p ds es).2 ats
  | es, ats, [], p, _ => by rw [sliceB_nil]; simp only [bufferAt_nil_dims]
  | [], ats, d :: ds, p, _ => rfl
  | some x :: es, ats, d :: ds, p, h => merge_bufferAt es ats ds (stepB p d x) h
  | none :: es, [], d :: ds, p, h => by
    have h' : (sliceB p ds es).1 = p := sliceB_undef es ds p h
    simp only [merge, bufferAt_nil, sliceB, h']
  | none :: es, none :: ats, d :: ds, p, h => merge_bufferAt es ats ds p h
  | none :: es, some a :: ats, d :: ds, p, h => by
    have := merge_bufferAt es ats ds (stepB p d a) h
    simp only [merge, sliceB, bufferAt_some]
    rw [this, sliceB_step]

/-- C69. An alias that starts at `ats` in a slice of a buffer is an alias that starts at the new indices in the buffer: they are the same address. -/
theorem slice_address {es ats ats' : List (Option Int)} (h : insertAt 0 es ats = some ats') (p : Option Int) (ds : List Dim) :
    bufferAt p ds ats' = bufferAt (sliceB p ds es).1 (sliceB p ds es).2 ats := by
  obtain ⟨rfl, hv⟩ := insertAt_merge es [] ats ats' h
  exact merge_bufferAt es ats ds p hv

/-- An alias that has an index for every dimension of the slice (the indices of the slice are those of a buffer of that rank) can be changed. -/
theorem insertAt_defined : ∀ (es : List (Option Int)) (d : Nat) (ats : List (Option Int)), d + (es.countP (· = none)) ≤ ats.length →
    (insertAt d es ats).isSome = true
  | [], _, _, _ => rfl
  | none :: es, d, ats, h => by
    simp only [List.countP_cons, decide_true, if_true] at h
    exact insertAt_defined es (d + 1) ats (by omega)
  | some x :: es, d, ats, h => by
    simp only [List.countP_cons, reduceCtorEq, decide_false, Bool.false_eq_true, if_false] at h
    rw [insertAt, if_pos (by omega)]
    refine insertAt_defined es (d + 1) _ ?_
    rw [List.length_insertIdx_of_le_length (by omega)]; omega

/-- C69. The dimension of the slice that an element of `permutation` stands for is the dimension of the buffer that the new one stands for. -/
theorem slice_perm : ∀ (es : List (Option Int)) (pre ds : List Dim) (p : Option Int) (k k' : Nat), insertPerm pre.length es k = some k' →
    (pre ++ ds)[k']? = (pre ++ (sliceB p ds es).2)[k]? ∨ (ds.length < es.length ∧ (pre ++ ds).length ≤ k' ∧ (pre ++ (sliceB p ds es).2).length ≤ k)
  | [], pre, ds, p, k, k', h => by
    simp only [insertPerm, Option.some.injEq] at h; subst h
    left; cases ds <;> rfl
  | e :: es, pre, [], p, k, k', h => by
    rw [sliceB_nil]
    have hle : ∀ (es : List (Option Int)) (d k k' : Nat), insertPerm d es k = some k' → k ≤ k' ∧ (k < d → k' = k) := by
      intro es
      induction es with
      | nil => intro d k k' h; simp only [insertPerm, Option.some.injEq] at h; subst h; exact ⟨le_refl _, fun _ => rfl⟩
      | cons e es ih =>
        intro d k k' h
        cases e with
        | none => obtain ⟨h1, h2⟩ := ih (d + 1) k k' h; exact ⟨h1, fun hk => h2 (by omega)⟩
        | some x =>
          simp only [insertPerm, Option.bind_eq_some_iff] at h
          obtain ⟨j, hj, h⟩ := h
          obtain ⟨h1, h2⟩ := ih (d + 1) j k' h
          unfold bump at hj
          split at hj
          · split at hj
            · cases hj
            · cases hj; exact ⟨by omega, fun hk => by omega⟩
          · cases hj; exact ⟨h1, fun hk => h2 (by omega)⟩
    obtain ⟨h1, h2⟩ := hle _ _ _ _ h
    by_cases hk : k < pre.length
    · left; rw [h2 hk]
    · right; simp only [List.append_nil, List.length_nil, List.length_cons]; omega
  | none :: es, pre, d :: ds, p, k, k', h => by
    have := slice_perm es (pre ++ [d]) ds p k k' (by simpa [insertPerm] using h)
    simp only [sliceB]
    simp only [List.append_assoc, List.singleton_append, List.length_append, List.length_cons] at this ⊢
    rcases this with h1 | h1
    · exact .inl h1
    · right; omega
  | some x :: es, pre, d :: ds, p, k, k', h => by
    simp only [insertPerm, Option.bind_eq_some_iff] at h
    obtain ⟨j, hj, h⟩ := h
    have := slice_perm es (pre ++ [d]) ds (stepB p d x) j k' (by simpa using h)
    simp only [sliceB]
    have hget : (pre ++ [d] ++ (sliceB (stepB p d x) ds es).2)[j]? = (pre ++ (sliceB (stepB p d x) ds es).2)[k]? ∧ (k < pre.length ∧ j = k ∨ j = k + 1) := by
      unfold bump at hj
      split at hj
      · next hk =>
        split at hj
        · cases hj
        · cases hj
          refine ⟨?_, .inr rfl⟩
          rw [List.getElem?_append_right (by simp; omega), List.getElem?_append_right hk]
          congr 1; simp
      · next hk =>
        cases hj
        refine ⟨?_, .inl ⟨by omega, rfl⟩⟩
        rw [List.append_assoc, List.getElem?_append_left (by omega), List.getElem?_append_left (by omega)]
    simp only [List.append_assoc, List.singleton_append, List.length_append, List.length_cons] at this hget ⊢
    rcases this with h1 | h1
    · exact .inl (h1.trans hget.1)
    · right; obtain ⟨_, h2⟩ := hget; omega

/-- C69. The same for all slices (also of dimensions that the buffer does not have): both are the same dimension, or neither is a dimension. -/
theorem slice_perm_all {es : List (Option Int)} {k k' : Nat} (h : insertPerm 0 es k = some k') (p : Option Int) (ds : List Dim) :
    ds[k']? = (sliceB p ds es).2[k]? := by
  rcases slice_perm es [] ds p k k' h with h1 | ⟨_, h2, h3⟩
  · exact h1
  · simp only [List.nil_append] at h2 h3
    rw [List.getElem?_eq_none h2, List.getElem?_eq_none h3]

/-! ## Transposes -/

/-- One more index that may be undefined. -/
def stepO (p : Option Int) (d : Dim) (a : Option Int) : Option Int := match a with
  | some x => stepB p d x
  | none => p

theorem bufferAt_cons (p : Option Int) (d : Dim) (ds : List Dim) (a : Option Int) (xs : List (Option Int)) :
    bufferAt p (d :: ds) (a :: xs) = bufferAt (stepO p d a) ds xs := by cases a <;> rfl

theorem stepO_comm (p : Option Int) (d e : Dim) (a b : Option Int) : stepO (stepO p d a) e b = stepO (stepO p e b) d a := by
  cases a <;> cases b <;> first | rfl | exact stepB_comm _ _ _ _ _

theorem bufferAt_step : ∀ (ds : List Dim) (xs : List (Option Int)) (p : Option Int) (d : Dim) (a : Option Int),
    bufferAt (stepO p d a) ds xs = stepO (bufferAt p ds xs) d a
  | [], xs, p, d, a => by simp only [bufferAt_nil_dims]
  | e :: ds, [], p, d, a => rfl
  | e :: ds, b :: xs, p, d, a => by
    rw [bufferAt_cons, bufferAt_cons, stepO_comm, bufferAt_step ds xs]

theorem stepO_broadcast (p : Option Int) {d : Dim} (h : d.isBroadcast = true) (a : Option Int) : stepO p d a = p := by
  simp only [Dim.isBroadcast, decide_eq_true_eq] at h
  cases a with
  | none => rfl
  | some x => cases p with
    | none => rfl
    | some q => simp [stepO, stepB, Dim.contains, Dim.containsI, Dim.flatOffset, h.2.2]

theorem bufferAt_broadcast : ∀ (ds : List Dim) (xs : List (Option Int)) (p : Option Int), (∀ d ∈ ds, d.isBroadcast = true) → bufferAt p ds xs = p
  | [], xs, p, _ => bufferAt_nil_dims p xs
  | d :: ds, [], p, _ => rfl
  | d :: ds, a :: xs, p, h => by
    rw [bufferAt_cons, stepO_broadcast p (h d (by simp)), bufferAt_broadcast ds xs p fun e he => h e (by simp [he])]

theorem bufferAt_undef : ∀ (ds : List Dim) (n : Nat) (p : Option Int), bufferAt p ds (List.replicate n none) = p
  | [], n, p => bufferAt_nil_dims p _
  | d :: ds, 0, p => rfl
  | d :: ds, n + 1, p => bufferAt_undef ds n p

theorem bufferAt_set : ∀ (ds : List Dim) (xs : List (Option Int)) (k : Nat) (p : Option Int) (a : Option Int), xs[k]? = some none →
    bufferAt p ds (xs.set k a) = stepO (bufferAt p ds xs) ((ds[k]?).getD Dim.broadcast) a
  | [], xs, k, p, a, _ => by
    rw [bufferAt_nil_dims, bufferAt_nil_dims, List.getElem?_nil, Option.getD_none, stepO_broadcast _ (by decide)]
  | d :: ds, [], k, p, a, h => by simp at h
  | d :: ds, x :: xs, 0, p, a, h => by
    simp only [List.getElem?_cons_zero, Option.some.injEq] at h; subst h
    rw [List.set_cons_zero, bufferAt_cons, bufferAt_step]; rfl
  | d :: ds, x :: xs, k + 1, p, a, h => by
    rw [List.set_cons_succ, bufferAt_cons, bufferAt_cons, bufferAt_set ds xs k _ a (by simpa using h)]
    rfl

theorem transAt_bufferAt (b : Buf) : ∀ (ps : List Nat) (ats new r : List (Option Int)) (q : Option Int), ps.Nodup → (∀ k ∈ ps, k < new.length → new[k]? = some none) →
    transAt ps ats new = some r → bufferAt q b.dims r = bufferAt (bufferAt q (ps.map b.dim) ats) b.dims new
  | [], ats, new, r, q, _, _, h => by
    simp only [transAt, Option.some.injEq] at h; subst h
    rw [List.map_nil, bufferAt_nil_dims]
  | p :: ps, [], new, r, q, _, _, h => by
    simp only [transAt, Option.some.injEq] at h; subst h
    rfl
  | p :: ps, a :: ats, new, r, q, hn, hp, h => by
    rw [transAt] at h
    split at h
    swap
    · cases h
    next hl =>
    rw [List.nodup_cons] at hn
    have := transAt_bufferAt b ps ats (new.set p a) r q hn.2 (fun k hk hl' => by
      have hne : p ≠ k := fun e => hn.1 (e ▸ hk)
      rw [List.getElem?_set_ne hne]
      exact hp k (by simp [hk]) (by simpa using hl')) h
    rw [this, bufferAt_set _ _ _ _ _ (hp p (by simp) hl), List.map_cons, bufferAt_cons, bufferAt_step, bufferAt_step]
    rfl

theorem trim_bufferAt : ∀ (ds : List Dim) (xs : List (Option Int)) (p : Option Int), bufferAt p (ds.take (trimRank ds)) xs = bufferAt p ds xs
  | [], xs, p => by simp [trimRank]
  | d :: ds, xs, p => by
    unfold trimRank
    have ih := trim_bufferAt ds
    split
    · next h0 =>
      have ih' : ∀ xs p, bufferAt p ds xs = p := fun xs p => by rw [← ih xs p, h0, List.take_zero, bufferAt_nil_dims]
      split
      · next hb =>
        cases xs with
        | nil => rfl
        | cons a xs => rw [List.take_zero, bufferAt_nil_dims, bufferAt_cons, ih', stepO_broadcast p hb]
      · cases xs with
        | nil => rfl
        | cons a xs => simp only [List.take_succ_cons, List.take_zero, bufferAt_cons, bufferAt_nil_dims, ih']
    · cases xs with
      | nil => rfl
      | cons a xs =>
        rename_i n0 h0
        rw [List.take_succ_cons, bufferAt_cons, bufferAt_cons, show n0 + 1 = trimRank ds from h0.symm, ih]

/-- C69. An alias that starts at `ats` in a transpose of a buffer is an alias that starts at the new indices in the buffer. Condition: no dimension of the buffer
is in two dimensions of the transpose. -/
theorem transpose_address_partial {ps : List Nat} {ats ats' : List (Option Int)} (h : transposeAt ps ats = some ats') (hn : ps.Nodup) (b : Buf) :
    bufferAt b.base b.dims ats' = bufferAt (VW.Buf.transpose ps b).base (VW.Buf.transpose ps b).dims ats := by
  show _ = bufferAt b.base ((ps.map b.dim).take (trimRank (ps.map b.dim))) ats
  rw [trim_bufferAt, transAt_bufferAt b ps ats _ ats' b.base hn (fun k _ hk => by
    rw [List.length_replicate] at hk; simp [hk]) h, bufferAt_undef]

/-- C69. The dimension of the transpose that an element of `permutation` stands for is the dimension of the buffer that the new one stands for. -/
theorem transpose_perm {ps : List Nat} {k : Nat} (h : k < ps.length) (b : Buf) : (ps.map b.dim)[k]? = some (b.dim (transPerm ps k)) ∧
    (ps.length ≤ newDim → transPerm ps newDim = newDim) := by
  refine ⟨?_, fun hn => ?_⟩
  · simp [transPerm, h]
  · rw [transPerm, if_neg (by omega)]

/-- The indices can be moved if the transpose has as many dimensions as the buffer (every dimension of the buffer is in the transpose). -/
theorem transposeAt_defined {ps : List Nat} (hp : ∀ k ∈ ps, k < ps.length) (ats : List (Option Int)) : (transposeAt ps ats).isSome = true := by
  have key : ∀ (qs : List Nat) (ats new : List (Option Int)), (∀ k ∈ qs, k < new.length) → (transAt qs ats new).isSome = true := by
    intro qs
    induction qs with
    | nil => intro ats new _; rfl
    | cons q qs ih =>
      intro ats new h
      cases ats with
      | nil => rfl
      | cons a ats =>
        rw [transAt, if_pos (h q (by simp))]
        exact ih ats _ fun k hk => by simpa using h k (by simp [hk])
  exact key ps ats _ fun k hk => by simpa using hp k hk

/-! ## Examples -/

/-- A buffer. -/
def exB : Buf := ⟨some 1000, 1, [⟨0, 9, 1, -1⟩, ⟨0, 9, 10, -1⟩, ⟨0, 9, 100, -1⟩]⟩

theorem ex_slice : insertAt 0 [some 5, none, some 7] [some 3] = some [some 5, some 3, some 7] ∧ insertPerm 0 [some 5, none, some 7] 0 = some 1 ∧
    bufferAt exB.base exB.dims [some 5, some 3, some 7] = some 1735 := by decide +kernel

theorem ex_transpose : transposeAt [2, 0, 1] [some 1, some 2, some 3] = some [some 2, some 3, some 1] ∧
    bufferAt exB.base exB.dims [some 2, some 3, some 1] = some 1132 ∧ [2, 0, 1].Nodup := by decide +kernel

/-- C69, refuted outside the condition: if a transpose has fewer dimensions than the buffer, the code writes behind the end of the vector of the new indices. -/
theorem transpose_counterexample : transposeAt [1] [some 3] = none ∧ (VW.Buf.transpose [1] exB).dims = [⟨0, 9, 10, -1⟩] := by decide +kernel

/-- C69, refuted outside the condition: if a dimension of the buffer is in two dimensions of the transpose, the last index is taken, not the sum of both. -/
theorem twice_counterexample : transposeAt [0, 0] [some 3, some 4] = some [some 4, none] ∧ bufferAt exB.base exB.dims [some 4, none] = some 1004 ∧
    bufferAt (VW.Buf.transpose [0, 0] exB).base (VW.Buf.transpose [0, 0] exB).dims [some 3, some 4] = some 1007 := by decide +kernel

/-- C69, refuted: a dimension of the alias that is a broadcast has no dimension of the view (`new_dim`, the biggest `int`), and a slice increments that, too. -/
theorem new_dim_counterexample : insertPerm 0 [some 5] newDim = none := by decide +kernel

/-- `new_dim` is kept only if nothing is sliced. -/
theorem new_dim_kept {es : List (Option Int)} (h : ∀ e ∈ es, e = none) (d : Nat) : insertPerm d es newDim = some newDim := by
  induction es generalizing d with
  | nil => rfl
  | cons e es ih =>
    have := h e (by simp); subst this
    exact ih (fun e he => h e (by simp [he])) (d + 1)

end Slinky.AV
