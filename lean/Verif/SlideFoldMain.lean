import Verif.SlideFoldThm

/-!
# C45: the main theorems
-/

namespace Slinky

section
variable {m : Mem} {S : SlideCfg} {loop : SlideLoop} {b : Interval}

theorem whereTrue_found {cond guess : Expr} {x : Nat} (h : isNegInf (S.whereTrueUpperBound cond x guess) = false) :
    ∃ ix : Nat, ix < 10 ∧ S.prove (substitute cond x (mkBin .sub guess (.const ix))) = true ∧
      S.whereTrueUpperBound cond x guess = S.simp (mkBin .sub guess (.const ix)) := by
  unfold SlideCfg.whereTrueUpperBound at h ⊢
  split at h
  · next ix hf => exact ⟨ix, by simpa using List.mem_of_find?_eq_some hf, by simpa using List.find?_some hf, by simp [hf]⟩
  · simp [negInfE, isNegInf] at h

/-- The new min of the loop is early enough: what is new in the iteration `L'` begins at or before what is needed in the first iteration. -/
theorem newLoopMin_at (H : SlideOK m S) (I : SlideInput S loop b) {ρ : Env} {v : Int} (ha : S.Holds m (ρ.set loop.sym v))
    {L : Expr} (hL : L = S.whereTrueUpperBound (mkBin .le (S.newMin loop b) (substitute (S.simpI b).min loop.sym loop.min)) loop.sym loop.min)
    (hn : isNegInf L = false) (hfree : ¬ FreeIn loop.sym L) :
    loop.at m ρ (eval m ρ L) (S.newMin loop b) ≤ loop.at m ρ (eval m ρ loop.min) (S.simpI b).min := by
  obtain ⟨ix, hix, hp, he⟩ := whereTrue_found (hL ▸ hn)
  rw [← hL] at he
  have hg : (mkBin .sub loop.min (.const (ix : Nat))).ok = true := by simp [I.lmin.ok]
  -- the value of the new min
  have hv : eval m (ρ.set loop.sym v) (mkBin .sub loop.min (.const (ix : Nat))) = eval m ρ loop.min - ix := by
    rw [eval_mkBin, BinOp.denote]
    have := I.lmin.at m ρ v
    unfold SlideLoop.at at this
    rw [this]
    simp [eval]
  have hLv : eval m ρ L = eval m ρ loop.min - ix := by
    rw [← eval_set_not_free m L ρ loop.sym v hfree, he, H.simp_eval hg ha, hv]
  have hcm : (substitute (S.simpI b).min loop.sym loop.min).ok = true ∧ (substitute (S.simpI b).min loop.sym loop.min).Plain [loop.sym] := by
    obtain ⟨c1, -⟩ := H.simpI_ok I.min_ok I.max_ok
    have := substitute_ok (t := loop.sym) (ok_defined I.lmin.ok) I.lmin.ok I.lmin.wf (X := [loop.sym]) (by simp) I.lmin.plain I.min_plain
    exact ⟨this.1 c1, this.2⟩
  have hcp : (mkBin .le (S.newMin loop b) (substitute (S.simpI b).min loop.sym loop.min)).Plain [loop.sym] := plain_mkBin I.new_plain hcm.2
  have hok : (substitute (mkBin .le (S.newMin loop b) (substitute (S.simpI b).min loop.sym loop.min)) loop.sym (mkBin .sub loop.min (.const (ix : Nat)))).ok = true := by
    have hpl : (mkBin .sub loop.min (.const (ix : Nat))).Plain [loop.sym] := plain_mkBin I.lmin.plain (by simp [Expr.Plain])
    refine (substitute_ok (ok_defined hg) hg (wf_mkBin I.lmin.wf (wf_const ⟨by omega, by omega⟩)) (X := [loop.sym]) (by simp) hpl hcp).1 ?_
    simp [hcm.1, newMin_ok H I]
  have h := H.proved hok hp ha
  rw [substitute_plain m (ok_defined hg) (X := [loop.sym]) (by simp) hcp, hv, Env.set_set, eval_mkBin, BinOp.denote] at h
  rw [substitute_plain m (ok_defined I.lmin.ok) (X := [loop.sym]) (by simp) I.min_plain] at h
  have h1 : eval m (ρ.set loop.sym (eval m ρ loop.min - ix)) loop.min = eval m ρ loop.min := I.lmin.at m ρ _
  rw [h1, Env.set_set] at h
  unfold SlideLoop.at
  rw [hLv]
  by_contra hcon
  exact h (by simp [b2i, hcon])


/-! ### The loop after the pass

The loop now begins at the value of `r.loop.min`; its iteration number `q` has the value `L' + q * step`. The number of the first iteration of the
original loop is `first`. -/

/-- The facts about an iteration that the pass relies on: it simplified the bounds, it computed the first new index, the bounds increase, and not more than `ov` indices are new. -/
structure Settled (m : Mem) (ρ : Env) (S : SlideCfg) (loop : SlideLoop) (b : Interval) (ov : Int) (v : Int) : Prop where
  max : loop.at m ρ v (S.simpI b).max = loop.at m ρ v b.max
  new : loop.at m ρ v (S.newMin loop b) = loop.at m ρ (v - eval m ρ loop.step) (S.simpI b).max + 1
  mono : loop.at m ρ (v - eval m ρ loop.step) (S.simpI b).max ≤ loop.at m ρ v (S.simpI b).max
  ov : loop.at m ρ v (S.simpI b).max - loop.at m ρ (v - eval m ρ loop.step) (S.simpI b).max ≤ ov

/-- The iterations of the loop after the pass, `0` to `n`. What the pass assumes about the loop variable (its bounds and its alignment) is only true from the first iteration
of the original loop on: for the iterations that were added before, this must be assumed separately. -/
structure SlideRun (m : Mem) (ρ : Env) (S : SlideCfg) (loop : SlideLoop) (b : Interval) (r : SlideRes) (ov : Int) (first n : Nat) : Prop where
  step_pos : 0 < eval m ρ loop.step
  aligned : eval m ρ r.loop.min + first * eval m ρ loop.step = eval m ρ loop.min
  free : ¬ FreeIn loop.sym r.loop.min
  le : first ≤ n
  holds : ∀ q : Nat, first ≤ q → q ≤ n → S.Holds m (ρ.set loop.sym (eval m ρ r.loop.min + q * eval m ρ loop.step))
  warm : ∀ q : Nat, q < first → Settled m ρ S loop b ov (eval m ρ r.loop.min + q * eval m ρ loop.step)
  orig : eval m ρ loop.min ≤ ρ loop.origMin

/-- The value of the loop variable in iteration `q`. -/
def SlideRes.iter (r : SlideRes) (m : Mem) (ρ : Env) (q : Nat) : Int := eval m ρ r.loop.min + q * eval m ρ r.loop.step

theorem slideFold_cases (S : SlideCfg) (loop : SlideLoop) (cur : Interval) (newMin : Expr) (fold : FoldInfo) (did : Bool) :
    (S.slideFold loop cur newMin fold did).1 = fold ∨
    ((S.slideFold loop cur newMin fold did).1.factor = S.foldFactor loop (boundsOf S.cfg S.fuel cur.extent S.bounds S.align).max ∧
      (S.slideFold loop cur newMin fold did).1.overlap = simplify S.cfg S.fuel (constantUpperBound S.cfg.trust
          (boundsOf S.cfg S.fuel (mkBin .add (mkBin .sub cur.max newMin) (.const 1)) S.bounds S.align).max) S.bounds (fun _ => none)) := by
  unfold SlideCfg.slideFold
  split
  · exact .inl rfl
  · dsimp only
    split
    · exact .inr ⟨rfl, rfl⟩
    · exact .inl rfl

/-- What `slideDim` can decide. -/
theorem slideDim_cases (S : SlideCfg) (loop : SlideLoop) (b : Interval) (fold : FoldInfo) (did : Bool) :
    (S.slideDim loop b fold did).loop = loop ∧ (S.slideDim loop b fold did).bounds = b ∧ (S.slideDim loop b fold did).fold = fold ∨
    (S.slideDim loop b fold did).loop = loop ∧ (S.slideDim loop b fold did).bounds = b ∧
      S.prove ((prevBounds loop (S.simpI b)).inter (S.simpI b)).empty = true ∧
      (S.slideDim loop b fold did).fold.factor = S.foldFactor loop (boundsOf S.cfg S.fuel (S.simpI b).extent S.bounds (fun _ => none)).max ∧
      (S.slideDim loop b fold did).fold.overlap = (S.slideDim loop b fold did).fold.factor ∨
    S.prove (monotonicE (prevBounds loop (S.simpI b)) (S.simpI b)) = true ∧
      (S.slideDim loop b fold did).fold = (S.slideFold loop (S.simpI b) (S.newMin loop b) fold did).1 ∧
      (S.slideDim loop b fold did).bounds.max = b.max ∧
      ((S.slideDim loop b fold did).loop = { loop with dataParallel := false } ∧
          (S.slideDim loop b fold did).bounds.min = .select (mkBin .le (.v loop.sym) (.v loop.origMin)) (S.simpI b).min (S.newMin loop b) ∨
        isNegInf (S.slideDim loop b fold did).loop.min = false ∧
          (S.slideDim loop b fold did).loop.min =
            S.whereTrueUpperBound (mkBin .le (S.newMin loop b) (substitute (S.simpI b).min loop.sym loop.min)) loop.sym loop.min ∧
          (S.slideDim loop b fold did).loop.step = loop.step ∧ (S.slideDim loop b fold did).loop.sym = loop.sym ∧
          (S.slideDim loop b fold did).bounds.min = S.newMin loop b) := by
  unfold SlideCfg.slideDim
  split
  · exact .inl ⟨rfl, rfl, rfl⟩
  split
  · exact .inl ⟨rfl, rfl, rfl⟩
  dsimp only
  split
  · next hp =>
    split
    · exact .inr (.inl ⟨rfl, rfl, hp, rfl, rfl⟩)
    · exact .inl ⟨rfl, rfl, rfl⟩
  split
  · next hp =>
    refine .inr (.inr ?_)
    split
    · exact ⟨hp, rfl, rfl, .inl ⟨rfl, rfl⟩⟩
    · next hn => exact ⟨hp, rfl, rfl, .inr ⟨by simpa using hn, rfl, rfl, rfl, rfl⟩⟩
  · exact .inl ⟨rfl, rfl, rfl⟩


/-- The bounds of the extent, and of how much is new, are constants. -/
structure FoldKnown (S : SlideCfg) (loop : SlideLoop) (b : Interval) : Prop where
  extent : BoundKnown S (S.simpI b).extent S.align
  extent' : BoundKnown S (S.simpI b).extent (fun _ => none)
  new : BoundKnown S (mkBin .add (mkBin .sub (S.simpI b).max (S.newMin loop b)) (.const 1)) S.align

/-- From the first iteration of the original loop on, the pass is right about the iteration. -/
theorem settled_of_holds (H : SlideOK m S) (I : SlideInput S loop b) {ρ : Env} {v : Int} (ha : S.Holds m (ρ.set loop.sym v))
    (hp : S.prove (monotonicE (prevBounds loop (S.simpI b)) (S.simpI b)) = true) {ov : Int}
    (hov : loop.at m ρ v (S.simpI b).max - loop.at m ρ (v - eval m ρ loop.step) (S.simpI b).max ≤ ov) : Settled m ρ S loop b ov v :=
  ⟨(H.simpI_eval I.wf I.min_ok I.max_ok ha).1, newMin_at H I ha, (monotonic_at H I ha hp).2, hov⟩

theorem ext_ok (H : SlideOK m S) (I : SlideInput S loop b) : (S.simpI b).extent.ok = true := by
  obtain ⟨c1, c2⟩ := H.simpI_ok I.min_ok I.max_ok
  simp [Interval.extent, c1, c2]

theorem ext_at (ρ : Env) (i : Interval) : eval m ρ i.extent = eval m ρ i.max - eval m ρ i.min + 1 := by
  simp [Interval.extent, eval_mkBin, BinOp.denote, eval]

theorem iter_pred (L s : Int) (q : Nat) : L + ((q + 1 : Nat) : Int) * s - s = L + (q : Int) * s := by push_cast; ring

/-- What is needed in an iteration is in the bounds that the pass computed. -/
theorem need_in_cur (H : SlideOK m S) (I : SlideInput S loop b) {ρ : Env} {v : Int} (ha : S.Holds m (ρ.set loop.sym v)) {i : Int}
    (h1 : loop.at m ρ v b.min ≤ i) (h2 : i ≤ loop.at m ρ v b.max) : loop.at m ρ v (S.simpI b).min ≤ i := by
  rcases (H.simpI_eval I.wf I.min_ok I.max_ok ha).2 with h | ⟨h, h'⟩
  · unfold SlideLoop.at at h1 ⊢; omega
  · unfold SlideLoop.at at h1 h2; omega

/-- The two ways to begin. -/
theorem slide_begin (H : SlideOK m S) (I : SlideInput S loop b) {ρ : Env} {r : SlideRes} {ov : Int} {first n : Nat} (R : SlideRun m ρ S loop b r ov first n)
    (hcase : (r.loop = { loop with dataParallel := false } ∧
          r.bounds.min = .select (mkBin .le (.v loop.sym) (.v loop.origMin)) (S.simpI b).min (S.newMin loop b) ∨
        isNegInf r.loop.min = false ∧
          r.loop.min = S.whereTrueUpperBound (mkBin .le (S.newMin loop b) (substitute (S.simpI b).min loop.sym loop.min)) loop.sym loop.min ∧
          r.loop.step = loop.step ∧ r.loop.sym = loop.sym ∧ r.bounds.min = S.newMin loop b)) :
    ∃ c : Nat, (∀ q : Nat, c < q → q ≤ n → loop.at m ρ (eval m ρ r.loop.min + q * eval m ρ loop.step) r.bounds.min =
          loop.at m ρ (eval m ρ r.loop.min + q * eval m ρ loop.step) (S.newMin loop b)) ∧
      ((c = 0 ∧ loop.at m ρ (eval m ρ r.loop.min + (0 : Nat) * eval m ρ loop.step) r.bounds.min ≤
          loop.at m ρ (eval m ρ r.loop.min + first * eval m ρ loop.step) (S.simpI b).min) ∨
        (first = 0 ∧ c ≤ n ∧ ∀ q : Nat, q ≤ c → loop.at m ρ (eval m ρ r.loop.min + q * eval m ρ loop.step) r.bounds.min =
          loop.at m ρ (eval m ρ r.loop.min + q * eval m ρ loop.step) (S.simpI b).min)) := by
  have hs := R.step_pos
  rcases hcase with ⟨h1, h2⟩ | ⟨h1, h2, -, -, h3⟩
  · have hL : eval m ρ r.loop.min = eval m ρ loop.min := by rw [h1]
    have hfirst : first = 0 := by
      have := R.aligned
      rw [hL] at this
      have h0 : (first : Int) * eval m ρ loop.step = 0 := by omega
      rcases mul_eq_zero.1 h0 with h | h
      · exact_mod_cast h
      · omega
    have hsel : ∀ v, loop.at m ρ v r.bounds.min = if v ≤ ρ loop.origMin then loop.at m ρ v (S.simpI b).min else loop.at m ρ v (S.newMin loop b) := by
      intro v
      rw [h2]
      unfold SlideLoop.at
      simp only [eval, eval_mkBin, BinOp.denote, Expr.v, Env.set_same, Env.set_other _ I.orig]
      by_cases hv : v ≤ ρ loop.origMin <;> simp [b2i, hv]
    -- the last iteration in which everything is computed
    obtain ⟨c, hc1, hc2⟩ : ∃ c : Nat, c ≤ n ∧ ∀ q : Nat, q ≤ n → (q ≤ c ↔ eval m ρ r.loop.min + q * eval m ρ loop.step ≤ ρ loop.origMin) := by
      have hO := R.orig
      clear R hsel
      rw [hL]
      generalize eval m ρ loop.min = L at hO
      generalize eval m ρ loop.step = s at hs
      generalize ρ loop.origMin = O at hO
      clear h1 h2 hL
      induction n with
      | zero => exact ⟨0, le_refl _, fun q hq => by
          obtain rfl : q = 0 := by omega
          simpa using hO⟩
      | succ n ih =>
        obtain ⟨c, h1, h2⟩ := ih
        by_cases hn : L + ((n + 1 : Nat) : Int) * s ≤ O
        · refine ⟨n + 1, le_refl _, fun q hq => ⟨fun _ => ?_, fun _ => hq⟩⟩
          have : (q : Int) * s ≤ ((n + 1 : Nat) : Int) * s := mul_le_mul_of_nonneg_right (by exact_mod_cast hq) hs.le
          omega
        · refine ⟨c, by omega, fun q hq => ?_⟩
          by_cases hqn : q = n + 1
          · subst hqn
            exact ⟨fun h => by omega, fun h => absurd h hn⟩
          · exact h2 q (by omega)
    refine ⟨c, fun q hq hqn => ?_, .inr ⟨hfirst, hc1, fun q hq => ?_⟩⟩
    · rw [hsel, if_neg]
      intro h
      have := (hc2 q hqn).2 h
      omega
    · rw [hsel, if_pos ((hc2 q (by omega)).1 hq)]
  · refine ⟨0, fun q _ _ => by rw [h3], .inl ⟨rfl, ?_⟩⟩
    have := newLoopMin_at H I (R.holds first (le_refl _) R.le) h2 h1 R.free
    rw [h3, R.aligned]
    simpa using this

/-- C45 (partial): **sliding windows and storage folding**. After the pass, an index that is needed in an iteration is in its slot of the folded buffer, whenever the
iteration runs: if the producer has completed this iteration, and is less than `W` iterations ahead (`W` is the number of workers of the loop, which is 1 for a serial loop).

`b` are the bounds of the dimension before the pass, which contain what is needed. `r` is the decision. The loop has the iterations `0, ..., n` after the pass;
`p` is an iteration of the original loop. The producer has completed `k` iterations, and `running` says if it is in the middle of another one.
The fold factor after the pass is `f + (W - 1) * ov` (`fold_resolved`).

Partial: the bounds are free of lets, and the assumptions about iterations that are added before the first one must be true (`SlideRun`), what is produced in one iteration must fit
(`hfit`) and, if the loop is pipelined, a fold without overlap must not skip anything (`htile`); see the counterexamples. -/
theorem slide_and_fold_sound_partial (H : SlideOK m S) (I : SlideInput S loop b) (hk : FoldKnown S loop b) {fold : FoldInfo} {did : Bool}
    (hfin : isFinite fold.factor = false) {ρ : Env} {r : SlideRes} (hr : r = S.slideDim loop b fold did)
    {f ov : Int} (hf : r.fold.factor = .const f) (ho : r.fold.overlap = .const ov) (hov0 : 0 ≤ ov)
    {first n : Nat} (R : SlideRun m ρ S loop b r ov first n) {W : Int}
    (hfit : ∀ q : Nat, q ≤ n → loop.at m ρ (r.iter m ρ q) r.bounds.max - loop.at m ρ (r.iter m ρ q) r.bounds.min < f + (W - 1) * ov)
    (htile : W ≠ 1 → r.bounds = b → ∀ q : Nat, q < n → loop.at m ρ (r.iter m ρ (q + 1)) b.min = loop.at m ρ (r.iter m ρ q) b.max + 1 ∧
      loop.at m ρ (r.iter m ρ q) b.max ≤ loop.at m ρ (r.iter m ρ (q + 1)) b.max)
    {k p : Nat} {running : Bool} {st : SlotStore}
    (hprod : Producing (f + (W - 1) * ov) (fun q => loop.at m ρ (r.iter m ρ q) r.bounds.min) (fun q => loop.at m ρ (r.iter m ρ q) r.bounds.max) k running st)
    (hp : first ≤ p) (hpk : p < k) (hkn : k ≤ n + 1) (hrun : running = true → k ≤ n) (hW : (k : Int) + (if running then 1 else 0) ≤ p + W)
    {i : Int} (h1 : loop.at m ρ (r.iter m ρ p) b.min ≤ i) (h2 : i ≤ loop.at m ρ (r.iter m ρ p) b.max) :
    st (i % (f + (W - 1) * ov)) = some i := by
  have hcase := slideDim_cases S loop b fold did
  rw [← hr] at hcase
  have hext : ∀ {q : Nat}, first ≤ q → q ≤ n → S.Holds m (ρ.set loop.sym (eval m ρ r.loop.min + q * eval m ρ loop.step)) := fun h h' => R.holds _ h h'
  rcases hcase with ⟨-, -, h⟩ | ⟨hl, hb, -, hff, hoo⟩ | ⟨hmono, hfold, hmax, hbeg⟩
  · -- nothing was folded
    rw [h] at hf
    rw [hf] at hfin
    simp [isFinite] at hfin
  · -- no overlap
    have hov : ov = f := by rw [hoo, hf] at ho; cases ho; rfl
    subst hov
    have hit : ∀ q, r.iter m ρ q = eval m ρ loop.min + q * eval m ρ loop.step := fun q => by rw [SlideRes.iter, hl]
    have hfirst : first = 0 := by
      have := R.aligned
      rw [hl] at this
      have h0 : (first : Int) * eval m ρ loop.step = 0 := by omega
      rcases mul_eq_zero.1 h0 with h | h
      · exact_mod_cast h
      · have := R.step_pos; omega
    refine disjoint_window (m := fun q => loop.at m ρ (r.iter m ρ q) b.min) (M := fun q => loop.at m ρ (r.iter m ρ q) b.max) (n := n)
      (fun q _ => by rw [hb]) (fun q _ => by rw [hb]) (fun q hq hne => ?_) (fun hw => htile hw hb) hprod hpk hkn hrun hW h1 h2
    have hh := hext (q := q) (by omega) hq
    rw [hl, ← hit] at hh
    have := H.foldFactor_sound (ext_ok H I) hk.extent' hh ⟨hh.bounds, fun _ _ h => by cases h⟩ (hff ▸ hf)
    rw [ext_at] at this
    have e1 := (H.simpI_eval I.wf I.min_ok I.max_ok hh)
    unfold SlideLoop.at at hne ⊢
    omega
  · -- sliding
    rcases slideFold_cases S loop (S.simpI b) (S.newMin loop b) fold did with h | ⟨hff, hoo⟩
    · rw [hfold, h] at hf
      rw [hf] at hfin
      simp [isFinite] at hfin
    rw [← hfold] at hff hoo
    have hstep : r.loop.step = loop.step := by
      rcases hbeg with ⟨h, -⟩ | ⟨-, -, h, -⟩
      · rw [h]
      · exact h
    have hit : ∀ q, r.iter m ρ q = eval m ρ r.loop.min + q * eval m ρ loop.step := fun q => by rw [SlideRes.iter, hstep]
    -- the facts, for all iterations
    have hset : ∀ q : Nat, q ≤ n → Settled m ρ S loop b ov (r.iter m ρ q) := by
      intro q hq
      rw [hit]
      by_cases hqf : q < first
      · exact R.warm q hqf
      · have hh := hext (q := q) (by omega) hq
        refine settled_of_holds H I hh hmono ?_
        have h3 := H.overlap_sound (by simp [(H.simpI_ok I.min_ok I.max_ok).2, newMin_ok H I]) hk.new hh (hoo ▸ ho)
        have h4 := newMin_at H I hh
        unfold SlideLoop.at at h4 ⊢
        simp only [eval_mkBin, BinOp.denote, eval] at h3
        rw [h4] at h3
        omega
    obtain ⟨c, hc1, hc2⟩ := slide_begin H I R hbeg
    have hM : ∀ q, q ≤ n → loop.at m ρ (r.iter m ρ q) (S.simpI b).max = loop.at m ρ (r.iter m ρ q) b.max := fun q hq => (hset q hq).max
    have hpred : ∀ q : Nat, r.iter m ρ (q + 1) - eval m ρ loop.step = r.iter m ρ q := fun q => by rw [hit, hit]; exact iter_pred _ _ _
    have hhp := hext (q := p) hp (by omega)
    rw [← hit] at hhp
    refine sliding_window (m := fun q => loop.at m ρ (r.iter m ρ q) (S.simpI b).min) (M := fun q => loop.at m ρ (r.iter m ρ q) (S.simpI b).max) (c := c) (b := first) (n := n)
      (fun q hq => ?_) (fun q hq hqn => ?_) ?_ (fun q hq => ?_) (fun q hqf hq => ?_) (fun q hqf hq => ?_) (fun q hq => ?_) hov0 (fun q hq => ?_)
      hprod hp hpk hkn hrun hW (need_in_cur H I hhp h1 h2) (by rw [hM p (by omega)]; exact h2)
    · rw [hmax, hM q hq]
    · have := hc1 q hq hqn
      rw [← hit] at this
      rw [this, (hset q hqn).new]
      obtain ⟨q', rfl⟩ : ∃ q', q = q' + 1 := ⟨q - 1, by omega⟩
      rw [hpred]
      rfl
    · rcases hc2 with ⟨h, h'⟩ | ⟨h, h', h''⟩
      · rw [← hit, ← hit] at h'
        exact .inl ⟨h, h'⟩
      · exact .inr ⟨h, h', fun q hq => by have := h'' q hq; rw [← hit] at this; exact this⟩
    · have := (hset (q + 1) (by omega)).mono
      rw [hpred] at this
      exact this
    · have hh := hext (q := q + 1) (by omega) (by omega)
      rw [← hit] at hh
      have := (monotonic_at H I hh hmono).1
      rw [hpred] at this
      exact this
    · have hh := hext (q := q) hqf hq
      rw [← hit] at hh
      have := H.foldFactor_sound (ext_ok H I) hk.extent hh hh (hff ▸ hf)
      rw [ext_at] at this
      exact this
    · have := (hset (q + 1) (by omega)).ov
      rw [hpred] at this
      exact this
    · rw [hM q hq, ← hmax]
      exact hfit q hq


/-- C45 (partial): sliding never loses anything: what is needed in an iteration was produced in this iteration or in an earlier one. -/
theorem slide_covers_partial (H : SlideOK m S) (I : SlideInput S loop b) {fold : FoldInfo} {did : Bool}
    {ρ : Env} {r : SlideRes} (hr : r = S.slideDim loop b fold did) {ov : Int} {first n : Nat} (R : SlideRun m ρ S loop b r ov first n)
    {p : Nat} (hp : first ≤ p) (hpn : p ≤ n) {i : Int} (h1 : loop.at m ρ (r.iter m ρ p) b.min ≤ i) (h2 : i ≤ loop.at m ρ (r.iter m ρ p) b.max) :
    ∃ q, q ≤ p ∧ loop.at m ρ (r.iter m ρ q) r.bounds.min ≤ i ∧ i ≤ loop.at m ρ (r.iter m ρ q) r.bounds.max := by
  have hcase := slideDim_cases S loop b fold did
  rw [← hr] at hcase
  rcases hcase with ⟨-, h, -⟩ | ⟨-, h, -⟩ | ⟨hmono, -, hmax, hbeg⟩
  · exact ⟨p, le_refl _, by rw [h]; exact ⟨h1, h2⟩⟩
  · exact ⟨p, le_refl _, by rw [h]; exact ⟨h1, h2⟩⟩
  have hstep : r.loop.step = loop.step := by
    rcases hbeg with ⟨h, -⟩ | ⟨-, -, h, -⟩
    · rw [h]
    · exact h
  have hit : ∀ q, r.iter m ρ q = eval m ρ r.loop.min + q * eval m ρ loop.step := fun q => by rw [SlideRes.iter, hstep]
  have hset : ∀ q : Nat, q ≤ n → loop.at m ρ (r.iter m ρ q) (S.simpI b).max = loop.at m ρ (r.iter m ρ q) b.max ∧
      loop.at m ρ (r.iter m ρ q) (S.newMin loop b) = loop.at m ρ (r.iter m ρ q - eval m ρ loop.step) (S.simpI b).max + 1 := by
    intro q hq
    rw [hit]
    by_cases hqf : q < first
    · exact ⟨(R.warm q hqf).max, (R.warm q hqf).new⟩
    · have hh := R.holds q (by omega) hq
      exact ⟨(H.simpI_eval I.wf I.min_ok I.max_ok hh).1, newMin_at H I hh⟩
  obtain ⟨c, hc1, hc2⟩ := slide_begin H I R hbeg
  have hpred : ∀ q : Nat, r.iter m ρ (q + 1) - eval m ρ loop.step = r.iter m ρ q := fun q => by rw [hit, hit]; exact iter_pred _ _ _
  have hmm : ∀ q, first ≤ q → q < n → loop.at m ρ (r.iter m ρ q) (S.simpI b).min ≤ loop.at m ρ (r.iter m ρ (q + 1)) (S.simpI b).min := by
    intro q hqf hq
    have hh := R.holds (q + 1) (by omega) (by omega)
    rw [← hit] at hh
    have := (monotonic_at H I hh hmono).1
    rwa [hpred] at this
  have hhp := R.holds p hp hpn
  rw [← hit] at hhp
  have h1' := need_in_cur H I hhp h1 h2
  by_cases hcp : c ≤ p
  · obtain ⟨q, hcq, hqp, hq2, hq3⟩ := first_at (M := fun q => loop.at m ρ (r.iter m ρ q) b.max) hcp h2
    refine ⟨q, hqp, ?_, by rw [hmax]; exact hq2⟩
    by_cases hq : c < q
    · have := hc1 q hq (by omega)
      rw [← hit] at this
      rw [this, (hset q (by omega)).2]
      have h3 := hq3 hq
      obtain ⟨q', rfl⟩ : ∃ q', q = q' + 1 := ⟨q - 1, by omega⟩
      rw [hpred, (hset q' (by omega)).1]
      have h4 : loop.at m ρ (r.iter m ρ q') b.max < i := by simpa using h3
      omega
    · obtain rfl : q = c := by omega
      rcases hc2 with ⟨h, h'⟩ | ⟨h, h', h''⟩
      · rw [← hit, ← hit] at h'
        subst h
        have := mono_chain hmm (le_refl _) hp hpn
        omega
      · have h3 := h'' q (le_refl _)
        rw [← hit] at h3
        have := mono_chain hmm (q := q) (by omega) hqp hpn
        omega
  · rcases hc2 with ⟨h, -⟩ | ⟨-, -, h''⟩
    · omega
    · refine ⟨p, le_refl _, ?_, by rw [hmax]; exact h2⟩
      have h3 := h'' p (by omega)
      rw [← hit] at h3
      omega

/-- C45: the fold factor at the end of the loop: with `W` workers it is `f + (W - 1) * ov`, or the dimension is not folded (in a data parallel loop). -/
theorem fold_resolved (H : SlideOK m S) {workers : Nat} {i : FoldInfo} {f ov : Int} (hf : i.factor = .const f) (ho : i.overlap = .const ov) (hl : i.loopId = loop.loopId)
    {dp : Bool} {W : Int} (hp : (S.scaleFold loop workers i).factor.Plain [workers]) (hb : (S.scaleFold loop workers i).factor.BufOK) (ρ : Env) :
    ((S.resolveFold dp workers (.const W) (S.scaleFold loop workers i)).factor = .undef ∧ dp = true) ∨
    eval m ρ (S.resolveFold dp workers (.const W) (S.scaleFold loop workers i)).factor = f + (W - 1) * ov := by
  have hval : ∀ ρ : Env, eval m ρ (S.scaleFold loop workers i).factor = f + (ρ workers - 1) * ov := by
    intro ρ
    unfold SlideCfg.scaleFold
    have hd : anyDep (dependsOn i.factor loop.sym) = false := by rw [hf]; simp [dependsOn, depsE, anyDep]
    rw [if_neg (by simp [hl, hf, isFinite]; simpa [hf] using hd)]
    dsimp only
    have ha : Assumed m ρ (fun _ => none) (fun _ => none) := ⟨fun _ _ h => by simp at h, fun _ _ h => by simp at h⟩
    rw [H.simplify_eval (by simp [hf, ho, Expr.ok, Expr.v]) ha]
    simp [eval_mkBin, BinOp.denote, eval, hf, ho, Expr.v]
  unfold SlideCfg.resolveFold
  split
  · next hd =>
    right
    have h1 := dependsOn_sound m _ hb workers (by simpa using hd) ρ W (ρ workers)
    rw [Env.set_self] at h1
    rw [← h1, hval]
    simp
  · split
    · next h => exact .inl ⟨rfl, by simp at h; exact h.1⟩
    · right
      dsimp only
      rw [substitute_plain m rfl (X := [workers]) (by simp) hp, hval]
      simp [eval]

end

end Slinky
