import Verif.SlideFoldMain

/-!
# C45: several dimensions

`slide_and_fold_buffer` handles the dimensions one after the other: every dimension is handled like a single one (`slideDims_each`), and at most one
dimension gets a fold with overlap in a loop (`slideDims_one_overlap`): with two of them, what slides out of the one dimension would still be needed in the other.
-/

namespace Slinky

/-- `l'` is the same loop as `l` up to where it begins and if it is data parallel. -/
def SlideLoop.Same (l l' : SlideLoop) : Prop := l'.sym = l.sym ∧ l'.origMin = l.origMin ∧ l'.step = l.step ∧ l'.loopId = l.loopId

theorem slideDim_loop (S : SlideCfg) (loop : SlideLoop) (b : Interval) (fold : FoldInfo) (did : Bool) : loop.Same (S.slideDim loop b fold did).loop := by
  unfold SlideCfg.slideDim
  dsimp only
  split
  · exact ⟨rfl, rfl, rfl, rfl⟩
  split
  · exact ⟨rfl, rfl, rfl, rfl⟩
  split
  · split <;> exact ⟨rfl, rfl, rfl, rfl⟩
  split
  · split <;> exact ⟨rfl, rfl, rfl, rfl⟩
  · exact ⟨rfl, rfl, rfl, rfl⟩

theorem slideDims_nil (S : SlideCfg) (loop : SlideLoop) (folds : List FoldInfo) (did : Bool) : S.slideDims loop [] folds did = (loop, [], folds) := by
  rw [SlideCfg.slideDims]

theorem getD_tail {α} (l : List α) (d : α) (j : Nat) : l.tail.getD j d = l.getD (j + 1) d := by
  cases l <;> simp

theorem headD_getD {α} (l : List α) (d : α) : l.headD d = l.getD 0 d := by
  cases l <;> simp

theorem slideDims_cons (S : SlideCfg) (loop : SlideLoop) (b : Interval) (bs : List Interval) (folds : List FoldInfo) (did : Bool) :
    ∃ r, r = S.slideDim loop b (folds.getD 0 {}) did ∧ (S.slideDims loop (b :: bs) folds did).1 = (S.slideDims r.loop bs folds.tail r.did).1 ∧
      (S.slideDims loop (b :: bs) folds did).2.1 = r.bounds :: (S.slideDims r.loop bs folds.tail r.did).2.1 ∧
      (S.slideDims loop (b :: bs) folds did).2.2.getD 0 {} = r.fold ∧
      ∀ j, (S.slideDims loop (b :: bs) folds did).2.2.getD (j + 1) {} = (S.slideDims r.loop bs folds.tail r.did).2.2.getD j {} := by
  refine ⟨_, rfl, ?_, ?_, ?_, ?_⟩
  · rw [SlideCfg.slideDims, headD_getD]
  · rw [SlideCfg.slideDims, headD_getD]
  · rw [SlideCfg.slideDims, headD_getD]
    dsimp only
    split
    · next h =>
      simp only [Bool.and_eq_true, decide_eq_true_eq] at h
      rw [h.1.2]; rfl
    · rfl
  · intro j
    rw [SlideCfg.slideDims, headD_getD]
    dsimp only
    split
    · next h =>
      simp only [Bool.and_eq_true, List.isEmpty_iff] at h
      rw [h.2]; rfl
    · simp

/-- C45: every dimension is handled like a single one, in the loop as the dimensions before it left it. -/
theorem slideDims_each (S : SlideCfg) : ∀ (bs : List Interval) (loop : SlideLoop) (folds : List FoldInfo) (did : Bool),
    (S.slideDims loop bs folds did).2.1.length = bs.length ∧ loop.Same (S.slideDims loop bs folds did).1 ∧
    ∀ (j : Nat) (b : Interval), bs[j]? = some b → ∃ (l : SlideLoop) (d : Bool), loop.Same l ∧
      (S.slideDims loop bs folds did).2.1[j]? = some (S.slideDim l b (folds.getD j {}) d).bounds ∧
      (S.slideDims loop bs folds did).2.2.getD j {} = (S.slideDim l b (folds.getD j {}) d).fold := by
  intro bs
  induction bs with
  | nil => intro loop folds did; rw [slideDims_nil]; exact ⟨rfl, ⟨rfl, rfl, rfl, rfl⟩, fun j b h => by simp at h⟩
  | cons b bs ih =>
    intro loop folds did
    obtain ⟨r, hr, h1, h2, h3, h4⟩ := slideDims_cons S loop b bs folds did
    obtain ⟨i1, i2, i3⟩ := ih r.loop folds.tail r.did
    have hl : loop.Same r.loop := by rw [hr]; exact slideDim_loop ..
    refine ⟨by rw [h2]; simp [i1], by rw [h1]; exact ⟨i2.1.trans hl.1, i2.2.1.trans hl.2.1, i2.2.2.1.trans hl.2.2.1, i2.2.2.2.trans hl.2.2.2⟩, ?_⟩
    intro j b' hj
    cases j with
    | zero =>
      simp only [List.getElem?_cons_zero, Option.some.injEq] at hj
      subst hj
      exact ⟨loop, did, ⟨rfl, rfl, rfl, rfl⟩, by rw [h2, ← hr]; simp, by rw [h3, ← hr]⟩
    | succ j =>
      simp only [List.getElem?_cons_succ] at hj
      obtain ⟨l, d, k1, k2, k3⟩ := i3 j b' hj
      rw [getD_tail] at k2 k3
      exact ⟨l, d, ⟨k1.1.trans hl.1, k1.2.1.trans hl.2.1, k1.2.2.1.trans hl.2.2.1, k1.2.2.2.trans hl.2.2.2⟩, by rw [h2]; simpa using k2, by rw [h4]; exact k3⟩

theorem slideFold_did (S : SlideCfg) (loop : SlideLoop) (cur : Interval) (newMin : Expr) (fold : FoldInfo) (did : Bool) :
    ((S.slideFold loop cur newMin fold did).1 = fold ∧ (S.slideFold loop cur newMin fold did).2 = did) ∨
    (did = false ∧ (S.slideFold loop cur newMin fold did).2 = true) := by
  unfold SlideCfg.slideFold
  cases did with
  | true => exact .inl ⟨rfl, rfl⟩
  | false =>
    dsimp only
    simp only [Bool.false_eq_true, if_false]
    split
    · exact .inr ⟨trivial, rfl⟩
    · exact .inl ⟨rfl, rfl⟩

/-- What a dimension does to the flag. -/
theorem slideDim_did (S : SlideCfg) (loop : SlideLoop) (b : Interval) (fold : FoldInfo) (did : Bool) :
    ((S.slideDim loop b fold did).fold = fold ∧ (S.slideDim loop b fold did).did = did) ∨
    ((S.slideDim loop b fold did).fold.factor = (S.slideDim loop b fold did).fold.overlap ∧ (S.slideDim loop b fold did).did = did) ∨
    (did = false ∧ (S.slideDim loop b fold did).did = true) := by
  unfold SlideCfg.slideDim
  dsimp only
  split
  · exact .inl ⟨rfl, rfl⟩
  split
  · exact .inl ⟨rfl, rfl⟩
  split
  · split
    · exact .inr (.inl ⟨rfl, rfl⟩)
    · exact .inl ⟨rfl, rfl⟩
  split
  · have h := slideFold_did S loop (S.simpI b) (S.simp (mkBin .add (prevBounds loop (S.simpI b)).max (.const 1))) fold did
    split
    · rcases h with h | h
      · exact .inl h
      · exact .inr (.inr h)
    · rcases h with h | h
      · exact .inl h
      · exact .inr (.inr h)
  · exact .inl ⟨rfl, rfl⟩

/-- C45: at most one dimension gets a fold with overlap; none if there is one already (`did`). -/
theorem slideDims_one_overlap (S : SlideCfg) : ∀ (bs : List Interval) (loop : SlideLoop) (folds : List FoldInfo) (did : Bool) (folds' : List FoldInfo),
    folds' = (S.slideDims loop bs folds did).2.2 →
    ∀ j, folds'.getD j {} ≠ folds.getD j {} → (folds'.getD j {}).factor ≠ (folds'.getD j {}).overlap →
      did = false ∧ ∀ j', folds'.getD j' {} ≠ folds.getD j' {} → (folds'.getD j' {}).factor ≠ (folds'.getD j' {}).overlap → j' = j := by
  intro bs
  induction bs with
  | nil => intro loop folds did folds' h; rw [slideDims_nil] at h; subst h; intro j hj; exact absurd rfl hj
  | cons b bs ih =>
    intro loop folds did folds' h
    subst h
    obtain ⟨r, hr, h1, h2, h3, h4⟩ := slideDims_cons S loop b bs folds did
    have hd := slideDim_did S loop b (folds.getD 0 {}) did
    rw [← hr] at hd
    have ih' := ih r.loop folds.tail r.did _ rfl
    have tail : ∀ j, (S.slideDims loop (b :: bs) folds did).2.2.getD (j + 1) {} ≠ folds.getD (j + 1) {} →
        ((S.slideDims loop (b :: bs) folds did).2.2.getD (j + 1) {}).factor ≠ ((S.slideDims loop (b :: bs) folds did).2.2.getD (j + 1) {}).overlap →
        r.did = false ∧ ∀ j', (S.slideDims loop (b :: bs) folds did).2.2.getD (j' + 1) {} ≠ folds.getD (j' + 1) {} →
          ((S.slideDims loop (b :: bs) folds did).2.2.getD (j' + 1) {}).factor ≠ ((S.slideDims loop (b :: bs) folds did).2.2.getD (j' + 1) {}).overlap → j' = j := by
      intro j g1 g2
      rw [h4, ← getD_tail] at g1
      rw [h4] at g2
      obtain ⟨k1, k2⟩ := ih' j g1 g2
      refine ⟨k1, fun j' g1' g2' => ?_⟩
      rw [h4, ← getD_tail] at g1'
      rw [h4] at g2'
      exact k2 j' g1' g2'
    have head : (S.slideDims loop (b :: bs) folds did).2.2.getD 0 {} ≠ folds.getD 0 {} →
        ((S.slideDims loop (b :: bs) folds did).2.2.getD 0 {}).factor ≠ ((S.slideDims loop (b :: bs) folds did).2.2.getD 0 {}).overlap → did = false ∧ r.did = true := by
      intro g1 g2
      rw [h3] at g1 g2
      rcases hd with ⟨h, -⟩ | ⟨h, -⟩ | h
      · exact absurd h g1
      · exact absurd h g2
      · exact h
    have hmono : r.did = false → did = false := by
      intro h
      rcases hd with ⟨-, h'⟩ | ⟨-, h'⟩ | ⟨-, h'⟩
      · rw [← h', h]
      · rw [← h', h]
      · rw [h] at h'; cases h'
    intro j g1 g2
    cases j with
    | zero =>
      obtain ⟨k1, k2⟩ := head g1 g2
      refine ⟨k1, fun j' g1' g2' => ?_⟩
      cases j' with
      | zero => rfl
      | succ j' =>
        have := (tail j' g1' g2').1
        rw [k2] at this; cases this
    | succ j =>
      obtain ⟨k1, k2⟩ := tail j g1 g2
      refine ⟨hmono k1, fun j' g1' g2' => ?_⟩
      cases j' with
      | zero =>
        have := (head g1' g2').2
        rw [k1] at this; cases this
      | succ j' => rw [k2 j' g1' g2']

/-- C45: a buffer that is not produced in the body, or has no bounds, and everything outside of a loop is left as it is. -/
theorem slideAndFoldBuffer_other (S : SlideCfg) (output : Nat) (body : Stmt) (loop : Option SlideLoop) (bounds : Option (List Interval)) (folds : Option (List FoldInfo))
    (h : loop = none ∨ bounds = none ∨ producedBy output body = false) : S.slideAndFoldBuffer output body loop bounds folds = (loop, bounds, folds) := by
  unfold SlideCfg.slideAndFoldBuffer
  rcases h with h | h | h
  · subst h; rfl
  · subst h; cases loop <;> rfl
  · cases loop <;> cases bounds <;> simp [h]

/-- C45: an existing fold with overlap excludes another one. -/
theorem slideAndFoldBuffer_one_overlap (S : SlideCfg) (output : Nat) (body : Stmt) (loop : SlideLoop) (bounds : List Interval) (folds : List FoldInfo)
    {i : FoldInfo} (hi : i ∈ folds) (hfin : isFinite i.factor = true) (hov : matchE i.factor i.overlap = false) {folds' : List FoldInfo}
    (h : (S.slideAndFoldBuffer output body (some loop) (some bounds) (some folds)).2.2 = some folds') (j : Nat) (hj : folds'.getD j {} ≠ folds.getD j {}) :
    (folds'.getD j {}).factor = (folds'.getD j {}).overlap := by
  unfold SlideCfg.slideAndFoldBuffer at h
  simp only [Option.getD_some, Option.isNone_some, Bool.false_and] at h
  have hd : didOverlappedFold folds = true := by
    unfold didOverlappedFold
    exact List.any_eq_true.2 ⟨i, hi, by simp [hfin, hov]⟩
  split at h
  · cases h; exact absurd rfl hj
  · simp only [Bool.false_eq_true, if_false, Option.some.injEq] at h
    by_contra hne
    have := (slideDims_one_overlap S bounds loop folds (didOverlappedFold folds) folds' h.symm j hj hne).1
    rw [hd] at this; cases this

/-- C45: a dimension that is folded is left as it is. -/
theorem slideDim_folded (S : SlideCfg) (loop : SlideLoop) (b : Interval) (fold : FoldInfo) (did : Bool) (h : isFinite fold.factor = true) :
    S.slideDim loop b fold did = ⟨loop, b, fold, did⟩ := by
  unfold SlideCfg.slideDim
  rw [if_pos h]

theorem foldFactor_indep (S : SlideCfg) (loop : SlideLoop) (e : Expr) (h : (S.foldFactor loop e).defined = true) :
    isFinite (S.foldFactor loop e) = true ∧ anyDep (dependsOn (S.foldFactor loop e) loop.sym) = false := by
  unfold SlideCfg.foldFactor at h ⊢
  dsimp only at h ⊢
  split
  · next hc => simpa using hc
  · next hc => rw [if_neg hc] at h; simp [Expr.defined] at h

/-- C45: the fold factor is the same in all iterations of the loop. -/
theorem slideDim_factor_const (S : SlideCfg) (loop : SlideLoop) (b : Interval) (fold : FoldInfo) (did : Bool) (hne : (S.slideDim loop b fold did).fold ≠ fold) :
    isFinite (S.slideDim loop b fold did).fold.factor = true ∧ (S.slideDim loop b fold did).fold.loopId = loop.loopId ∧
    ∀ (m : Mem) (ρ : Env) (v v' : Int), (S.slideDim loop b fold did).fold.factor.BufOK →
      eval m (ρ.set loop.sym v) (S.slideDim loop b fold did).fold.factor = eval m (ρ.set loop.sym v') (S.slideDim loop b fold did).fold.factor := by
  have key : ∀ e, (S.slideDim loop b fold did).fold.factor = S.foldFactor loop e → (S.foldFactor loop e).defined = true → (S.slideDim loop b fold did).fold.loopId = loop.loopId →
      isFinite (S.slideDim loop b fold did).fold.factor = true ∧ (S.slideDim loop b fold did).fold.loopId = loop.loopId ∧
    ∀ (m : Mem) (ρ : Env) (v v' : Int), (S.slideDim loop b fold did).fold.factor.BufOK →
      eval m (ρ.set loop.sym v) (S.slideDim loop b fold did).fold.factor = eval m (ρ.set loop.sym v') (S.slideDim loop b fold did).fold.factor := by
    intro e he hd hl
    rw [he]
    have := foldFactor_indep S loop e hd
    exact ⟨this.1, hl, fun m ρ v v' hb => dependsOn_sound m _ hb loop.sym this.2 ρ v v'⟩
  have hs : ∀ cur newMin, (S.slideFold loop cur newMin fold did).1 = fold ∨ ∃ e, (S.slideFold loop cur newMin fold did).1.factor = S.foldFactor loop e ∧
      (S.foldFactor loop e).defined = true ∧ (S.slideFold loop cur newMin fold did).1.loopId = loop.loopId := by
    intro cur newMin
    unfold SlideCfg.slideFold
    split
    · exact .inl rfl
    · dsimp only
      split
      · next hd => exact .inr ⟨_, rfl, hd, rfl⟩
      · exact .inl rfl
  have hc : (S.slideDim loop b fold did).fold = fold ∨ (∃ e, (S.slideDim loop b fold did).fold.factor = S.foldFactor loop e ∧ (S.foldFactor loop e).defined = true ∧
      (S.slideDim loop b fold did).fold.loopId = loop.loopId) := by
    unfold SlideCfg.slideDim
    dsimp only
    split
    · exact .inl rfl
    split
    · exact .inl rfl
    split
    · split
      · next hd => exact .inr ⟨_, rfl, hd, rfl⟩
      · exact .inl rfl
    split
    · have := hs (S.simpI b) (S.simp (mkBin .add (prevBounds loop (S.simpI b)).max (.const 1)))
      split <;> exact this
    · exact .inl rfl
  rcases hc with h | ⟨e, h1, h2, h3⟩
  · exact absurd h hne
  · exact key e h1 h2 h3

end Slinky
