import Verif.ConstMerge

/-!
# C66: merging equal constants. Theorems
-/

namespace Slinky.CM

open Slinky FE

variable {m : Copy.Mem}

/-- `n` bytes are equal. -/
def BytesEq (m : Copy.Mem) (n : Int) (p q : Int) : Prop := ∀ k : Nat, k < n → m (p + k) = m (q + k)

theorem memEq_some {n p q : Int} : ∃ r, memEq m n (some p) (some q) = some r ∧ (r = true ↔ BytesEq m n p q) := by
  refine ⟨_, rfl, ?_⟩
  simp only [List.all_eq_true, List.mem_range, beq_iff_eq, BytesEq]
  constructor
  · intro h k hk; exact h k (by omega)
  · intro h k hk; exact h k (by omega)

/-- The pointers of a call are not null. -/
def NonNull (c : Call) : Prop := ∃ p q, c.1 = [some p, some q]

theorem cmpSlices_false {e : Int} : ∀ cs : List Call, cmpSlices m e cs false = some false
  | [] => rfl
  | c :: cs => by simp [cmpSlices, cmpSlices_false cs]

theorem cmpSlices_spec {e : Int} : ∀ cs : List Call, (∀ c ∈ cs, NonNull c) →
    ∃ r, cmpSlices m e cs true = some r ∧ (r = true ↔ ∀ c ∈ cs, ∀ p q, c.1 = [some p, some q] → BytesEq m (c.2 * e) p q)
  | [], _ => ⟨true, rfl, by simp⟩
  | c :: cs, h => by
    obtain ⟨p, q, hc⟩ := h c (by simp)
    obtain ⟨r, h1, h2⟩ := memEq_some (m := m) (n := c.2 * e) (p := p) (q := q)
    obtain ⟨r', h3, h4⟩ := cmpSlices_spec cs fun c h' => h c (by simp [h'])
    simp only [cmpSlices, if_true, hc, h1, Option.bind_some]
    cases r with
    | true =>
      refine ⟨r', h3, h4.trans ?_⟩
      constructor
      · intro h c' hc' p' q' he
        rcases List.mem_cons.1 hc' with rfl | hc'
        · rw [hc] at he
          simp only [List.cons.injEq, Option.some.injEq, and_true] at he
          rw [← he.1, ← he.2]; exact h2.1 rfl
        · exact h c' hc' p' q' he
      · intro h c' hc'; exact h c' (by simp [hc'])
    | false =>
      refine ⟨false, cmpSlices_false cs, ?_⟩
      simp only [Bool.false_eq_true, false_iff]
      intro h
      have := h2.2 (h c (by simp) p q hc)
      simp at this

/-- The elements of a slice. -/
theorem slice_bytes {e : Int} (he : 0 ≤ e) {n : Int} {p q : Int} :
    BytesEq m (n * e) p q ↔ ∀ s : Nat, s < n.toNat → BytesEq m e (p + s * e) (q + s * e) := by
  constructor
  · intro h s hs k hk
    obtain ⟨e', rfl⟩ := Int.eq_ofNat_of_zero_le he
    have := h (s * e' + k) (by
      have h1 : ((s : Int) + 1) * e' ≤ n * e' := Int.mul_le_mul_of_nonneg_right (by omega) he
      push_cast
      rw [add_mul] at h1
      omega)
    push_cast at this
    rw [← add_assoc, ← add_assoc] at this
    exact this
  · intro h k hk
    rcases he.eq_or_lt with rfl | he
    · simp at hk; omega
    · obtain ⟨e', rfl⟩ := Int.eq_ofNat_of_zero_le he.le
      have he' : 0 < e' := by omega
      have h1 : k / e' < n.toNat := by
        rw [Nat.div_lt_iff_lt_mul he']
        have : (k : Int) < (n.toNat : Int) * e' := by
          by_cases hn : 0 ≤ n
          · rw [Int.toNat_of_nonneg hn]; exact hk
          · exfalso
            have : n * (e' : Int) ≤ 0 := Int.mul_nonpos_of_nonpos_of_nonneg (by omega) (by omega)
            omega
        exact_mod_cast this
      have h2 := h (k / e') h1 (k % e') (by exact_mod_cast Nat.mod_lt k he')
      have h3 : ((k / e' : Nat) : Int) * e' + ((k % e' : Nat) : Int) = k := by
        have := Nat.div_add_mod k e'
        rw [Nat.mul_comm] at this
        exact_mod_cast this
      rw [add_assoc, add_assoc, h3] at h2
      exact h2

theorem at_eq {a b : Buf} (hd : a.dims = b.dims) {is : List Int} (h : a.InBounds is) : b.at is = b.address is := by
  have hl := InB.length h
  rw [Buf.at, show b.rank - is.length = 0 by simp [Buf.rank, ← hd, hl], List.replicate_zero, List.append_nil, Buf.view]
  have : b.contains is = true := by
    have : ∀ (ds : List Dim) (is : List Int), InB ds is → Buf.containsL ds is = true := by
      intro ds
      induction ds with
      | nil => intro is h; cases is <;> simp [Buf.containsL]
      | cons d ds ih =>
        intro is h
        cases is with
        | nil => rfl
        | cons i is =>
          simp only [InB] at h
          simp only [Buf.containsL, Dim.contains, Dim.containsI, Bool.and_eq_true, Bool.or_eq_true, decide_eq_true_eq]
          exact ⟨.inr ⟨h.1.1, h.1.2⟩, ih _ h.2⟩
    rw [Buf.contains, ← hd]; exact this _ _ h
  rw [if_pos this]

/-- C66: constants are found to be equal if and only if they have the same value; nothing else happens. -/
theorem buffersEqual_partial {a b : Buf} (ha : Const a) (hb : Const b) : ∃ r, buffersEqual m a b = some r ∧ (r = true ↔ SameConst m a b) := by
  unfold buffersEqual
  by_cases h1 : a.rank = b.rank
  · by_cases h2 : a.elem = b.elem
    · by_cases h3 : a.dims = b.dims
      · rw [if_neg (by simpa using h1), if_neg (by simpa using h2), if_neg (by simpa using h3)]
        have hv : OkBufs ⟨a, [b]⟩ := by
          intro c hc d hd
          simp only [Bufs.all, List.mem_cons, List.not_mem_nil, or_false] at hc
          rcases hc with rfl | rfl
          · exact ha.dims d hd
          · exact hb.dims d hd
        obtain ⟨⟨idxs, _, hm, hp⟩, hn⟩ := forEachContiguousSlice_once_partial ⟨a, [b]⟩ hv ha.one
        obtain ⟨pa, hpa⟩ := Option.isSome_iff_exists.1 ha.base
        obtain ⟨pb, hpb⟩ := Option.isSome_iff_exists.1 hb.base
        have hat : ∀ is ∈ idxs, [a.at is, b.at is] = [some (pa + Buf.offset a.dims is), some (pb + Buf.offset b.dims is)] := by
          intro is his
          have hi := (hm is).1 his
          rw [at_eq rfl hi, at_eq h3 hi]
          simp [Buf.address, hpa, hpb]
        -- the pointers of the elements
        have hmem : ∀ x, x ∈ (forEachContiguousSlice ⟨a, [b]⟩).flatMap (sliceElements [a.elem, b.elem]) ↔ ∃ is ∈ idxs, [a.at is, b.at is] = x := by
          intro x
          have := hp.mem_iff (a := x)
          simpa [Bufs.all, eq_comm] using this
        have hlen : ∀ c ∈ forEachContiguousSlice ⟨a, [b]⟩, c.1.length = 2 := by
          intro c hc
          have := (run_length hv true (Bufs.maxRank ⟨a, [b]⟩) 1 _ 1 (fits_bases _) le_rfl le_rfl c hc).1.len
          simpa [Bufs.all] using this
        have hnn : ∀ c ∈ forEachContiguousSlice ⟨a, [b]⟩, NonNull c := by
          intro c hc
          have hl := hlen c hc
          obtain ⟨ps, n⟩ := c
          simp only at hl
          obtain ⟨p, q, rfl⟩ := List.length_eq_two.1 hl
          have h1' : 1 ≤ n := hn _ hc
          have hx : List.zipWith (fun (e : Int) (p : Option Int) => p.map (· + ((0 : Nat) : Int) * e)) [a.elem, b.elem] [p, q] ∈
              (forEachContiguousSlice ⟨a, [b]⟩).flatMap (sliceElements [a.elem, b.elem]) := by
            refine List.mem_flatMap.2 ⟨_, hc, ?_⟩
            exact List.mem_map.2 ⟨0, List.mem_range.2 (by omega), rfl⟩
          obtain ⟨is, his, hx⟩ := (hmem _).1 hx
          rw [hat is his] at hx
          cases p with
          | none => simp at hx
          | some p =>
            cases q with
            | none => simp at hx
            | some q => exact ⟨p, q, rfl⟩
        obtain ⟨r, hr, hr2⟩ := cmpSlices_spec (m := m) (e := a.elem) _ hnn
        refine ⟨r, hr, hr2.trans ?_⟩
        constructor
        · intro h
          refine ⟨h2, h3, fun is hi => ?_⟩
          have his := (hm is).2 hi
          have hx := (hmem _).2 ⟨is, his, rfl⟩
          obtain ⟨c, hc, hx⟩ := List.mem_flatMap.1 hx
          obtain ⟨s, hs, hx⟩ := List.mem_map.1 hx
          obtain ⟨p, q, hpq⟩ := hnn c hc
          rw [hpq, hat is his] at hx
          simp only [List.zipWith_cons_cons, Option.map_some, List.zipWith_nil_left, List.cons.injEq, Option.some.injEq, and_true] at hx
          refine ⟨pa + Buf.offset a.dims is, pb + Buf.offset b.dims is, by simp [Buf.address, hpa], by simp [Buf.address, hpb], ?_⟩
          rw [← hx.1, ← hx.2, ← h2]
          exact (slice_bytes ha.elem).1 (h c hc p q hpq) s (List.mem_range.1 hs)
        · intro h c hc p q hpq
          refine (slice_bytes ha.elem).2 fun s hs => ?_
          have hx : [some (p + s * a.elem), some (q + s * b.elem)] ∈ (forEachContiguousSlice ⟨a, [b]⟩).flatMap (sliceElements [a.elem, b.elem]) := by
            refine List.mem_flatMap.2 ⟨c, hc, List.mem_map.2 ⟨s, List.mem_range.2 hs, ?_⟩⟩
            rw [hpq]; rfl
          obtain ⟨is, his, hx⟩ := (hmem _).1 hx
          rw [hat is his] at hx
          simp only [List.cons.injEq, Option.some.injEq, and_true] at hx
          obtain ⟨p', q', h5, h6, h7⟩ := h.value is ((hm is).1 his)
          simp only [Buf.address, hpa, hpb, Option.map_some, Option.some.injEq] at h5 h6
          rw [show (s : Int) * a.elem = s * b.elem by rw [h2]] at hx ⊢
          rw [← hx.1, ← hx.2, h5, h6]
          exact h7
      · refine ⟨false, by rw [if_neg (by simpa using h1), if_neg (by simpa using h2), if_pos h3], ?_⟩
        simp only [Bool.false_eq_true, false_iff]
        exact fun h => h3 h.dims
    · refine ⟨false, by rw [if_neg (by simpa using h1), if_pos h2], ?_⟩
      simp only [Bool.false_eq_true, false_iff]
      exact fun h => h2 h.elem
  · refine ⟨false, by rw [if_pos h1], ?_⟩
    simp only [Bool.false_eq_true, false_iff]
    exact fun h => h1 (by simp [Buf.rank, h.dims])

theorem SameConst.refl {a : Buf} (h : Const a) : SameConst m a a := by
  refine ⟨rfl, rfl, fun is _ => ?_⟩
  obtain ⟨p, hp⟩ := Option.isSome_iff_exists.1 h.base
  exact ⟨p + Buf.offset a.dims is, p + Buf.offset a.dims is, by simp [Buf.address, hp], by simp [Buf.address, hp], fun _ _ => rfl⟩

/-- The parent, if there is one, is a constant with the same value; and if the constant is small there is a parent if there is such a constant. -/
theorem findParent_spec {heap : Nat → Buf} {known : Nat → Option Nat} {c : Nat} (hc : Const (heap c)) (hk : ∀ i p, known i = some p → Const (heap p)) : ∀ n i : Nat,
    ∃ r, findParent m heap known c n i = some r ∧ (∀ j, r = some j → ∃ p, known j = some p ∧ SameConst m (heap p) (heap c)) ∧
      (r = none → (heap c).sizeBytes < 256 → ∀ j p, i ≤ j → j < i + n → known j = some p → ¬ SameConst m (heap p) (heap c))
  | 0, i => ⟨none, rfl, (by simp), fun _ _ j p h1 h2 => by omega⟩
  | n + 1, i => by
    obtain ⟨r, h1, h2, h3⟩ := findParent_spec hc hk n (i + 1)
    simp only [findParent]
    cases hi : known i with
    | none =>
      refine ⟨r, h1, h2, fun hr hs j p hj1 hj2 hj => ?_⟩
      rcases hj1.eq_or_lt with rfl | hlt
      · rw [hi] at hj; cases hj
      · exact h3 hr hs j p hlt (by omega) hj
    | some p =>
      simp only
      split
      · rename_i hpc
        subst hpc
        refine ⟨some i, rfl, fun j hj => ?_, fun h => by cases h⟩
        injection hj with hj; subst hj
        exact ⟨p, hi, .refl hc⟩
      · split
        · obtain ⟨e, h4, h5⟩ := buffersEqual_partial (m := m) (hk i p hi) hc
          rw [h4]
          simp only [Option.bind_some]
          cases e with
          | true =>
            refine ⟨some i, rfl, fun j hj => ?_, fun h => by cases h⟩
            injection hj with hj; subst hj
            exact ⟨p, hi, h5.1 rfl⟩
          | false =>
            refine ⟨r, h1, h2, fun hr hs j p' hj1 hj2 hj => ?_⟩
            rcases hj1.eq_or_lt with rfl | hlt
            · rw [hi] at hj
              injection hj with hj; subst hj
              intro hsc
              have := h5.2 hsc
              cases this
            · exact h3 hr hs j p' hlt (by omega) hj
        · rename_i hs
          exact ⟨r, h1, h2, fun _ hs' => absurd hs' hs⟩

/-- What is known is true. -/
def Tracks (heap : Nat → Buf) (known : Nat → Option Nat) (ρ : Nat → Buf) : Prop := ∀ i p, known i = some p → ρ i = heap p

theorem tracks_step {heap : Nat → Buf} {known : Nat → Option Nat} {ρ : Nat → Buf} (h : Tracks heap known ρ) {d : Decl} (hd : d.Ok known) :
    Tracks heap (track known d) (declare heap ρ d) := by
  intro i p hi
  cases d with
  | const x c =>
    simp only [track, declare, Function.update_apply] at hi ⊢
    split at hi
    · injection hi with hi; subst hi; rename_i hx; simp [hx]
    · rename_i hx; simp [hx, h i p hi]
  | crop x src d mn mx =>
    simp only [track, declare, Function.update_apply] at hi ⊢
    split at hi
    · simp only [Decl.Ok] at hd; rw [hd] at hi; cases hi
    · rename_i hx; simp [hx, h i p hi]
  | slice x src d v =>
    simp only [track, declare, Function.update_apply] at hi ⊢
    split at hi
    · simp only [Decl.Ok] at hd; rw [hd] at hi; cases hi
    · rename_i hx; simp [hx, h i p hi]
  | other x b =>
    simp only [track, declare, Function.update_apply] at hi ⊢
    split at hi
    · cases hi
    · rename_i hx; simp [hx, h i p hi]

theorem tracks_all {heap : Nat → Buf} : ∀ (ds : List Decl) {known : Nat → Option Nat} {ρ : Nat → Buf}, Tracks heap known ρ → AllOk known ds →
    Tracks heap (ds.foldl track known) (ds.foldl (declare heap) ρ)
  | [], _, _, h, _ => h
  | d :: ds, _, _, h, hd => tracks_all ds (tracks_step h hd.1) hd.2

/-- C66: inside any declarations, if constants are not cropped or sliced, a constant that is replaced by a symbol is replaced by a buffer with the same value; and a
constant of which there is a small copy is replaced. No null pointer is read. -/
theorem merge_partial {heap : Nat → Buf} (ds : List Decl) (ρ : Nat → Buf) (hd : AllOk (fun _ => none) ds) (hh : ∀ c, Const (heap c)) (n c : Nat) :
    ∃ r, findParent m heap (ds.foldl track fun _ => none) c n 0 = some r ∧
      (∀ j, r = some j → SameConst m (ds.foldl (declare heap) ρ j) (heap c)) ∧
      (r = none → (heap c).sizeBytes < 256 → ∀ j p, j < n → ds.foldl track (fun _ => none) j = some p → ¬ SameConst m (heap p) (heap c)) := by
  have ht := tracks_all (heap := heap) ds (known := fun _ => none) (ρ := ρ) (fun _ _ h => by cases h) hd
  obtain ⟨r, h1, h2, h3⟩ := findParent_spec (m := m) (hh c) (known := ds.foldl track fun _ => none) (fun _ p _ => hh p) n 0
  refine ⟨r, h1, fun j hj => ?_, fun hr hs j p hj => h3 hr hs j p (Nat.zero_le _) (by omega)⟩
  obtain ⟨p, hp, hs⟩ := h2 j hj
  rw [ht j p hp]
  exact hs

end Slinky.CM
