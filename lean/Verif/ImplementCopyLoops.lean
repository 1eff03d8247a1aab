import Verif.ImplementCopy
import Verif.Sem
import Verif.BufferProps
import Mathlib.Tactic.Linarith

/-!
# `implement_copy`: the loops

The body of the loops that `implement_copy` makes is run once for each value of the indices that have loops, with the slice of `dst` at those indices.
-/

namespace Slinky

/-- The indices of a buffer, of the values of the indices that have loops and the others. -/
def weave : List (Option Int) → List Int → List Int
  | [], is => is
  | some i :: vs, is => i :: weave vs is
  | none :: vs, i :: is => i :: weave vs is
  | none :: _, [] => []

/-- The environment with the values of the indices that have loops. -/
def SEnv.bindSome (ρ : SEnv) : List Nat → List (Option Int) → SEnv
  | x :: xs, some i :: vs => (ρ.bindSome xs vs).set x (.int i)
  | _ :: xs, none :: vs => ρ.bindSome xs vs
  | _, _ => ρ

/-- The integers from `a`, `n` of them. -/
def intsFrom (a : Int) : Nat → List Int
  | 0 => []
  | n + 1 => a :: intsFrom (a + 1) n

theorem mem_intsFrom {a i : Int} : ∀ {n : Nat}, i ∈ intsFrom a n ↔ a ≤ i ∧ i < a + n
  | 0 => by simp [intsFrom]
  | n + 1 => by
    simp only [intsFrom, List.mem_cons, mem_intsFrom]
    push_cast
    constructor
    · rintro (rfl | h) <;> omega
    · intro h; omega

/-- The values of the indices that have loops and the slices of `dst`, in the order of the loops; `d` is the number of the first index. -/
def copyStates : List Bool → Nat → Buf → List (List (Option Int) × Buf)
  | [], _, b => [([], b)]
  | true :: ps, d, b => (copyStates ps (d + 1) b).map fun s => (none :: s.1, s.2)
  | false :: ps, d, b => (copyStates ps (d + 1) b).flatMap fun s =>
      (intsFrom (s.2.dim d).min ((s.2.dim d).max + 1 - (s.2.dim d).min).toNat).map fun i => (some i :: s.1, s.2.slice d i)

/-- Run a sequence that stops at the first error. -/
def runSeq {α : Type} (f : α → List Ev → Option (Int × List Ev)) : List α → List Ev → Option (Int × List Ev)
  | [], l => some (0, l)
  | a :: as, l => match f a l with
    | none => none
    | some (r, l') => if r ≠ 0 then some (r, l') else runSeq f as l'

theorem runSeq_append {α : Type} (f : α → List Ev → Option (Int × List Ev)) : ∀ (as bs : List α) (l : List Ev),
    runSeq f (as ++ bs) l = match runSeq f as l with
      | none => none
      | some (r, l') => if r ≠ 0 then some (r, l') else runSeq f bs l'
  | [], bs, l => by simp [runSeq]
  | a :: as, bs, l => by
    simp only [List.cons_append, runSeq]
    split
    · rfl
    · next r l' _ =>
      by_cases hr : r ≠ 0
      · rw [if_pos hr, if_pos hr]; simp [hr]
      · rw [if_neg hr, if_neg hr]; exact runSeq_append f as bs l'

theorem runSeq_flatMap {α β : Type} (f : β → List Ev → Option (Int × List Ev)) (g : α → List β) : ∀ (as : List α) (l : List Ev),
    runSeq f (as.flatMap g) l = runSeq (fun a l => runSeq f (g a) l) as l
  | [], l => rfl
  | a :: as, l => by
    rw [List.flatMap_cons, runSeq_append]
    simp only [runSeq]
    split
    · rfl
    · next r l' _ =>
      by_cases hr : r ≠ 0
      · rw [if_pos hr, if_pos hr]
      · rw [if_neg hr, if_neg hr]; exact runSeq_flatMap f g as l'

theorem runSeq_map {α β : Type} (f : β → List Ev → Option (Int × List Ev)) (g : α → β) : ∀ (as : List α) (l : List Ev),
    runSeq f (as.map g) l = runSeq (fun a l => f (g a) l) as l
  | [], l => rfl
  | a :: as, l => by
    simp only [List.map_cons, runSeq]
    split
    · rfl
    · next r l' _ =>
      by_cases hr : r ≠ 0
      · rw [if_pos hr, if_pos hr]
      · rw [if_neg hr, if_neg hr]; exact runSeq_map f g as l'

theorem runSeq_mono {α : Type} {f g : α → List Ev → Option (Int × List Ev)} : ∀ {as : List α} {l : List Ev} {p : Int × List Ev},
    (∀ a ∈ as, ∀ l p, f a l = some p → g a l = some p) → runSeq f as l = some p → runSeq g as l = some p
  | [], l, p, _, h => h
  | a :: as, l, p, hfg, h => by
    simp only [runSeq] at h ⊢
    split at h
    · cases h
    · next r l' hf =>
      rw [hfg a (by simp) l _ hf]
      simp only
      split at h
      · next hr => rw [if_pos hr]; exact h
      · next hr => rw [if_neg hr]; exact runSeq_mono (fun a ha => hfg a (by simp [ha])) h

/-- A serial loop with step 1 is a sequence. -/
theorem serialS_seq {f : Int → List Ev → Option (Int × List Ev)} {mn mx : Int} : ∀ (fuel : Nat) (i : Int) (l : List Ev) (p : Int × List Ev), mn ≤ i →
    serialS f mn mx 1 fuel i l = some p → runSeq f (intsFrom i (mx + 1 - i).toNat) l = some p
  | 0, i, l, p, _, h => by simp [serialS] at h
  | fuel + 1, i, l, p, hi, h => by
    simp only [serialS] at h
    split at h
    · next hb =>
      obtain ⟨n, hn⟩ : ∃ n, (mx + 1 - i).toNat = n + 1 := ⟨(mx - i).toNat, by omega⟩
      rw [hn, intsFrom, runSeq]
      split at h
      · cases h
      · next r l' hf =>
        rw [hf]
        simp only
        split at h
        · next hr => rw [if_pos hr]; exact h
        · next hr =>
          rw [if_neg hr]
          split at h
          · cases h
          · next j hj =>
            have : i + 1 = j := by
              unfold chk at hj
              split at hj
              · cases hj; rfl
              · cases hj
            subst this
            have := serialS_seq fuel (i + 1) l' p (by omega) h
            rwa [show (mx + 1 - (i + 1)).toNat = n by omega] at this
    · next hb =>
      have : (mx + 1 - i).toNat = 0 := by omega
      rw [this, intsFrom, runSeq]
      exact h

theorem copyStates_rank : ∀ {ps : List Bool} {d : Nat} {b : Buf} {s : List (Option Int) × Buf}, s ∈ copyStates ps d b → d + ps.length ≤ b.rank →
    s.1.length = ps.length ∧ s.1.map Option.isNone = ps ∧ s.2.elem = b.elem ∧ d + (ps.filter (· = true)).length + (b.rank - (d + ps.length)) = s.2.rank
  | [], d, b, s, h, hr => by
    simp only [copyStates, List.mem_singleton] at h
    subst h
    simp at hr ⊢
    omega
  | true :: ps, d, b, s, h, hr => by
    simp only [copyStates, List.mem_map] at h
    obtain ⟨s', h, rfl⟩ := h
    simp only [List.length_cons] at hr
    obtain ⟨h1, h2, h3, h4⟩ := copyStates_rank h (by omega)
    refine ⟨by simp [h1], by simp [h2], h3, ?_⟩
    simp only [List.filter_cons, decide_true, if_true, List.length_cons] at h4 ⊢
    omega
  | false :: ps, d, b, s, h, hr => by
    simp only [copyStates, List.mem_flatMap, List.mem_map] at h
    obtain ⟨s', h, i, hi, rfl⟩ := h
    simp only [List.length_cons] at hr
    obtain ⟨h1, h2, h3, h4⟩ := copyStates_rank h (by omega)
    have h5 := slice_rank s'.2 d i (by omega)
    refine ⟨by simp [h1], by simp [h2], h5.2.trans h3, ?_⟩
    simp only [List.filter_cons, List.length_cons] at h4 ⊢
    simp only [Bool.false_eq_true, decide_false, if_false]
    omega

/-- The indices of an element of the slice, in `b`. -/
def mergeIdx : List (Option Int) → Nat → List Int → List Int
  | [], _, is => is
  | some i :: vs, d, is => mergeIdx vs (d + 1) (is.insertIdx d i)
  | none :: vs, d, is => mergeIdx vs (d + 1) is

theorem mergeIdx_eq : ∀ (vs : List (Option Int)) (d : Nat) (is : List Int), d + (vs.filter Option.isNone).length ≤ is.length →
    mergeIdx vs d is = is.take d ++ weave vs (is.drop d)
  | [], d, is, _ => by simp [mergeIdx, weave]
  | some i :: vs, d, is, h => by
    simp only [List.filter_cons, Option.isNone_some, Bool.false_eq_true, if_false] at h
    have hd : d ≤ is.length := by omega
    rw [mergeIdx, mergeIdx_eq vs _ _ (by rw [List.length_insertIdx_of_le_length hd]; omega), weave]
    have e : is.insertIdx d i = is.take d ++ i :: is.drop d := by
      clear h
      induction is generalizing d with
      | nil => simp at hd; subst hd; rfl
      | cons a is ih =>
        cases d with
        | zero => rfl
        | succ d => simp only [List.insertIdx_succ_cons, List.take_succ_cons, List.drop_succ_cons, List.cons_append, ih d (by simpa using hd)]
    rw [e]
    have l : (is.take d).length = d := by simp [hd]
    rw [List.take_append, List.drop_append, l]
    simp [List.take_of_length_le, List.drop_of_length_le]
  | none :: vs, d, is, h => by
    simp only [List.filter_cons, Option.isNone_none, if_true, List.length_cons] at h
    rw [mergeIdx, mergeIdx_eq vs _ _ (by omega)]
    have hd : d < is.length := by omega
    rw [List.drop_eq_getElem_cons hd, weave, ← List.take_append_getElem hd, List.append_assoc, List.singleton_append]

/-- The elements of the slices are elements of `b`. -/
theorem copyStates_elem : ∀ {ps : List Bool} {d : Nat} {b : Buf} {s : List (Option Int) × Buf}, s ∈ copyStates ps d b → d + ps.length ≤ b.rank →
    ∀ is : List Int, s.2.InBounds is → b.InBounds (mergeIdx s.1 d is) ∧ s.2.address is = b.address (mergeIdx s.1 d is)
  | [], d, b, s, h, hr, is, hi => by
    simp only [copyStates, List.mem_singleton] at h
    subst h
    exact ⟨hi, rfl⟩
  | true :: ps, d, b, s, h, hr, is, hi => by
    simp only [copyStates, List.mem_map] at h
    obtain ⟨s', h, rfl⟩ := h
    simp only [List.length_cons] at hr
    exact copyStates_elem h (by omega) is hi
  | false :: ps, d, b, s, h, hr, is, hi => by
    simp only [copyStates, List.mem_flatMap, List.mem_map] at h
    obtain ⟨s', h, i, hi', rfl⟩ := h
    simp only [List.length_cons] at hr
    obtain ⟨-, -, -, h4⟩ := copyStates_rank h (by omega)
    have hlt : d < s'.2.rank := by omega
    have h5 := slice_rank s'.2 d i hlt
    rw [mem_intsFrom] at hi'
    have hx : (s'.2.dim d).min ≤ i ∧ i ≤ (s'.2.dim d).max := by omega
    have hl : d ≤ is.length := by
      have := InB.length hi
      unfold Buf.rank at h5 hlt
      simp only at this
      omega
    have hi2 := (slice_inBounds s'.2 d i is hlt hx hl).1 hi
    obtain ⟨k1, k2⟩ := copyStates_elem h (by omega) _ hi2
    exact ⟨k1, (slice_address s'.2 d i is hlt hx hl).trans k2⟩

/-- Every element of `b` is an element of a slice. -/
theorem copyStates_cover : ∀ {ps : List Bool} {d : Nat} {b : Buf}, d + ps.length ≤ b.rank → ∀ js : List Int, b.InBounds js →
    ∃ s ∈ copyStates ps d b, ∃ is : List Int, s.2.InBounds is ∧ mergeIdx s.1 d is = js
  | [], d, b, hr, js, hj => ⟨([], b), by simp [copyStates], js, hj, rfl⟩
  | true :: ps, d, b, hr, js, hj => by
    simp only [List.length_cons] at hr
    obtain ⟨s, hs, is, h1, h2⟩ := copyStates_cover (ps := ps) (d := d + 1) (by omega) js hj
    exact ⟨(none :: s.1, s.2), by simp only [copyStates, List.mem_map]; exact ⟨s, hs, rfl⟩, is, h1, h2⟩
  | false :: ps, d, b, hr, js, hj => by
    simp only [List.length_cons] at hr
    obtain ⟨s, hs, is, h1, h2⟩ := copyStates_cover (ps := ps) (d := d + 1) (by omega) js hj
    obtain ⟨-, -, -, h4⟩ := copyStates_rank hs (by omega)
    have hlt : d < s.2.rank := by omega
    have hlen : is.length = s.2.rank := InB.length h1
    obtain ⟨i, hi, hx⟩ := InB.get h1 (dim_eq s.2 d hlt)
    have hdl : d < is.length := by omega
    have he : (is.eraseIdx d).insertIdx d i = is := by
      have : i = is[d] := by rw [List.getElem?_eq_getElem hdl] at hi; exact (Option.some.inj hi).symm
      subst this
      exact List.insertIdx_eraseIdx_getElem hdl
    refine ⟨(some i :: s.1, s.2.slice d i), ?_, is.eraseIdx d, ?_, ?_⟩
    · simp only [copyStates, List.mem_flatMap, List.mem_map]
      exact ⟨s, hs, i, mem_intsFrom.2 (by omega), rfl⟩
    · refine (slice_inBounds s.2 d i _ hlt hx ?_).2 (by rw [he]; exact h1)
      rw [List.length_eraseIdx]; split <;> omega
    · rw [mergeIdx, he, h2]

/-- The environment of the body. -/
def copyEnv (ρ : SEnv) (fresh : Nat) (xs : List Nat) (s : List (Option Int) × Buf) : SEnv := (ρ.bindSome xs s.1).set fresh (.buf s.2)

/-- The loops are a sequence. -/
theorem copyLoops_seq {w : World} {fresh : Nat} {ρ : SEnv} : ∀ (xs : List Nat) (ps : List Bool) (d : Nat) (s : Stmt) (b : Buf) (l : List Ev) (p : Int × List Ev),
    xs.length = ps.length → fresh ∉ xs → d + ps.length ≤ b.rank →
    sem w false (copyLoops fresh xs ps d s) (ρ.set fresh (.buf b)) l = some p →
    runSeq (fun a l => sem w false s (copyEnv ρ fresh xs a) l) (copyStates ps d b) l = some p
  | [], [], d, s, b, l, p, _, _, _, h => by
    simp only [copyLoops] at h
    simp only [copyStates, runSeq]
    have : copyEnv ρ fresh [] ([], b) = ρ.set fresh (.buf b) := rfl
    rw [this, h]
    obtain ⟨r, l'⟩ := p
    simp only
    split
    · rfl
    · next hr => simp only [ne_eq, not_not] at hr; rw [hr]
  | x :: xs, q :: ps, d, s, b, l, p, hl, hf, hr, h => by
    simp only [List.mem_cons, not_or] at hf
    simp only [List.length_cons] at hr
    simp only [copyLoops] at h
    have ih := copyLoops_seq xs ps (d + 1) _ b l p (by simpa using hl) hf.2 (by omega) h
    cases q with
    | true =>
      simp only [if_true] at ih
      simp only [copyStates, runSeq_map]
      exact ih
    | false =>
      simp only [Bool.false_eq_true, if_false] at ih
      simp only [copyStates, runSeq_flatMap, runSeq_map]
      refine runSeq_mono (fun a ha l p hp => ?_) ih
      obtain ⟨-, -, -, h4⟩ := copyStates_rank ha (by omega)
      have hlt : d < a.2.rank := by omega
      have hb : (copyEnv ρ fresh xs a) fresh = .buf a.2 := by simp [copyEnv, SEnv.set]
      have hmin : evalI w l (copyEnv ρ fresh xs a) (bufMin fresh d) = some (a.2.dim d).min := by
        simp [evalI, evalS, bufMin, hb, Obj.ofBuf, Obj.field, Val.int?, Obj.buf]
      have hmax : evalI w l (copyEnv ρ fresh xs a) (bufMax fresh d) = some (a.2.dim d).max := by
        simp [evalI, evalS, bufMax, hb, Obj.ofBuf, Obj.field, Val.int?, Obj.buf]
      have h1 : evalI w l (copyEnv ρ fresh xs a) (.const 1) = some 1 := by simp [evalI, evalS, Val.int?]
      simp only [sem, h1, Option.bind_eq_bind, Option.bind_some, evalIvS, bufBounds, hmin, hmax, Interval.isPoint, Bool.and_false, Bool.false_eq_true, if_false,
        evalDefS, Expr.defined, if_true] at hp
      simp only [show ¬ ((1 : Int) = 0) by decide, show ¬ ((1 : Int) > 1) by decide, if_false] at hp
      have := serialS_seq _ _ _ _ le_rfl hp
      refine runSeq_mono (fun i hi l p hp => ?_) this
      have he1 : (((copyEnv ρ fresh xs a).set x (.int i)).buf? fresh) = some a.2 := by
        simp [SEnv.buf?, SEnv.set, hf.1, hb, Val.buf?]
      rw [he1, Option.bind_some, if_neg (by omega)] at hp
      have he2 : ((copyEnv ρ fresh xs a).set x (.int i)).set fresh (.buf (a.2.slice d i)) = copyEnv ρ fresh (x :: xs) (some i :: a.1, a.2.slice d i) := by
        funext z
        simp only [copyEnv, SEnv.bindSome, SEnv.set]
        by_cases hz : z = fresh <;> by_cases hz' : z = x <;> simp [hz, hz', Ne.symm hf.1]
      cases hbase : a.2.base with
      | none =>
        rw [hbase] at hp
        simp only at hp
        have : a.2.slice d i = a.2.sliceDim d := by
          rw [Buf.slice, if_neg (by omega), hbase]
          cases ha2 : a.2 with
          | mk base elem dims => rw [ha2] at hbase; simp only at hbase; subst hbase; rfl
        rw [← this, he2] at hp
        exact hp
      | some q =>
        rw [hbase] at hp
        simp only at hp
        have hix : evalI w l ((copyEnv ρ fresh xs a).set x (.int i)) (.var x .none 0) = some i := by
          simp [evalI, evalS, SEnv.set, Val.int?]
        rw [hix, Option.bind_some, he2] at hp
        exact hp
  | [], _ :: _, _, _, _, _, _, hl, _, _, _ => by simp at hl
  | _ :: _, [], _, _, _, _, _, hl, _, _, _ => by simp at hl

end Slinky
