import Verif.SlideFoldMain

/-!
# C45: examples and counterexamples
-/

namespace Slinky

/-! ### A stencil: the hypotheses can be met -/

/-- the loop variable -/
def sfV : Expr := .v 0
/-- the loop `for (v = 0; ...; ++v)`; its original min is the variable 5 -/
def sfLoop : SlideLoop := ⟨0, 5, .const 0, .const 1, true, 0⟩
/-- The loop variable is between 0 and 9. -/
def sfBounds : Nat → Option Interval := fun x => if x = 0 then some ⟨.const 0, .const 9, false⟩ else none
def sfS : SlideCfg := ⟨safeCfg noHost, 8, sfBounds, noAlign⟩
/-- A stencil with three points. -/
def sfB : Interval := ⟨mkBin .sub sfV (.const 1), mkBin .add sfV (.const 1), false⟩
/-- The decision: the loop begins two iterations earlier, only one index is computed in an iteration, and the fold factor is 3. -/
def sfR : SlideRes := ⟨{ sfLoop with min := .const (-2), dataParallel := false }, ⟨.bin .add sfV (.const 1), .bin .add sfV (.const 1), false⟩,
  ⟨.const 3, .const 1, 0⟩, true⟩

theorem sfR_eq : sfS.slideDim sfLoop sfB {} false = sfR := by decide +kernel

theorem memNoHost_ok : BufMem memNoHost := by
  constructor <;> first | (constructor <;> (intros; rfl)) | (intros; first | rfl | exact le_refl _)

theorem sfOK : SlideOK memNoHost sfS := ⟨memNoHost_ok, fun ρ => safeCfg_ok memNoHost ρ memNoHost_ok.toBufferAtMin⟩

theorem sfSimp : sfS.simpI sfB = ⟨.bin .add sfV (.const (-1)), .bin .add sfV (.const 1), false⟩ := by decide +kernel
theorem sfNew : sfS.newMin sfLoop sfB = .bin .add sfV (.const 1) := by decide +kernel

theorem sfOutside (c : Int) (h : InRange 64 c) : (Expr.const c).Outside 0 :=
  ⟨rfl, h, by simp [Expr.Plain], by simp [FreeIn]⟩

theorem sfInput : SlideInput sfS sfLoop sfB where
  wf := fun h => by cases h
  min_ok := by decide
  max_ok := by decide
  min_plain := by rw [sfSimp]; simp [Expr.Plain, sfV, Expr.v]
  max_plain := by rw [sfSimp]; simp [Expr.Plain, sfV, Expr.v]
  new_plain := by rw [sfNew]; simp [Expr.Plain, sfV, Expr.v]
  step := sfOutside 1 (by decide)
  lmin := sfOutside 0 (by decide)
  orig := by decide

theorem sfKnown : FoldKnown sfS sfLoop sfB where
  extent := by unfold BoundKnown; decide +kernel
  extent' := by unfold BoundKnown; decide +kernel
  new := by unfold BoundKnown; decide +kernel

theorem sfHolds (ρ : Env) (v : Int) (h : 0 ≤ v ∧ v ≤ 9) : sfS.Holds memNoHost (ρ.set sfLoop.sym v) := by
  refine ⟨fun x i hi => ?_, fun x a ha => by simp [sfS, noAlign] at ha⟩
  simp only [sfS, sfBounds] at hi
  split at hi
  · next hx =>
    subst hx
    cases hi
    exact ⟨(fun h => by cases h), ⟨by decide, fun _ => by simp [eval, sfLoop, h.1]⟩, ⟨by decide, fun _ => by simp [eval, sfLoop, h.2]⟩⟩
  · cases hi

theorem sfRun (ρ : Env) (h5 : ρ 5 = 0) : SlideRun memNoHost ρ sfS sfLoop sfB sfR 1 2 11 where
  step_pos := by simp [sfLoop, eval]
  aligned := by simp [sfLoop, sfR, eval]
  free := by simp [sfR, FreeIn]
  le := by decide
  holds q h1 h2 := by
    apply sfHolds
    simp only [sfR, sfLoop, eval]
    omega
  warm q hq := by
    have h1 : ∀ v, sfLoop.at memNoHost ρ v (sfS.simpI sfB).max = v + 1 := fun v => by rw [sfSimp]; simp [SlideLoop.at, eval, sfV, Expr.v, BinOp.denote, sfLoop]
    refine ⟨?_, ?_, ?_, ?_⟩
    · rw [h1]; simp [SlideLoop.at, eval, sfB, sfV, Expr.v, BinOp.denote, sfLoop, eval_mkBin]
    · rw [h1, sfNew]; simp [SlideLoop.at, eval, sfV, Expr.v, BinOp.denote, sfLoop]
    · rw [h1, h1]; simp [sfLoop, eval]
    · rw [h1, h1]; simp [sfLoop, eval]
  orig := by simp [sfLoop, eval, h5]

/-- The theorem for the stencil, in a pipelined loop with `W` workers: in iteration `v` the consumer finds the indices `v - 1` to `v + 1` in a buffer that is folded
by `3 + (W - 1) * 1`, if the producer of the indices `u + 1` has completed the iterations `-2, ..., k - 3`. -/
theorem slide_example {W : Int} (hW1 : 1 ≤ W) {k p : Nat} {st : SlotStore} (hst : Produced (3 + (W - 1) * 1) (fun q => (q : Int) - 2 + 1) (fun q => (q : Int) - 2 + 1) k st)
    (hp : 2 ≤ p) (hpk : p < k) (hk : k ≤ 12) (hW : (k : Int) ≤ p + W) {i : Int} (h1 : (p : Int) - 2 - 1 ≤ i) (h2 : i ≤ (p : Int) - 2 + 1) :
    st (i % (3 + (W - 1) * 1)) = some i := by
  have hit : ∀ q : Nat, sfR.iter memNoHost (fun _ => 0) q = q - 2 := fun q => by simp [SlideRes.iter, sfR, sfLoop, eval]; omega
  have hlo : ∀ q : Nat, sfLoop.at memNoHost (fun _ => 0) (sfR.iter memNoHost (fun _ => 0) q) sfR.bounds.min = (q : Int) - 2 + 1 := fun q => by
    rw [hit]; simp [SlideLoop.at, sfR, eval, sfV, Expr.v, BinOp.denote, sfLoop]
  have hhi : ∀ q : Nat, sfLoop.at memNoHost (fun _ => 0) (sfR.iter memNoHost (fun _ => 0) q) sfR.bounds.max = (q : Int) - 2 + 1 := fun q => by
    rw [hit]; simp [SlideLoop.at, sfR, eval, sfV, Expr.v, BinOp.denote, sfLoop]
  refine slide_and_fold_sound_partial (loop := sfLoop) (b := sfB) (fold := {}) (did := false) (ρ := fun _ => 0) (n := 11) (first := 2) (k := k) (p := p) (running := false)
    sfOK sfInput sfKnown rfl sfR_eq.symm rfl rfl (by decide) (sfRun _ rfl) ?_ ?_ ?_ hp hpk hk (by simp) (by simpa using hW) ?_ ?_
  · intro q _
    rw [hlo, hhi]
    omega
  · intro _ h
    exact absurd h (by decide)
  · simp only [hlo, hhi]
    exact ⟨st, [], hst, rfl, fun _ => rfl, by simp⟩
  · rw [hit]; simpa [SlideLoop.at, sfB, eval, sfV, Expr.v, BinOp.denote, sfLoop, eval_mkBin] using h1
  · rw [hit]; simpa [SlideLoop.at, sfB, eval, sfV, Expr.v, BinOp.denote, sfLoop, eval_mkBin] using h2

/-- The fold factor of the stencil: 2 more than the number of workers. -/
theorem fold_example : (sfS.scaleFold sfLoop 7 sfR.fold).factor = .bin .add (.v 7) (.const 2) ∧
    (sfS.resolveFold false 7 (.const 4) (sfS.scaleFold sfLoop 7 sfR.fold)).factor = .bin .add (.const 4) (.const 2) := by decide +kernel

/-! ### Counterexamples

For the C++ version of the simplifier. -/

/-- The bounds of the loop variable 0. -/
def sfRange (lo hi : Int) : Nat → Option Interval := fun x => if x = 0 then some ⟨.const lo, .const hi, false⟩ else none

/-- C45, counterexample: `where_true_upper_bound` (slide_and_fold_storage.cc:146-166) tries the iterations before the first one with a step of 1, whatever the step of the
loop is. If the loop `for (v = 0; v <= 8; v += 2)` needs the indices `v/2*2` to `v/2*2 + 2`, which are simplified to `v` to `v + 2` because `v` is even, then the new loop begins at -1:
now `v` is odd, and the index 1, that is needed in the iteration 1, is never produced. -/
theorem slide_misaligned_counterexample :
    ∃ (S : SlideCfg) (loop : SlideLoop) (b : Interval) (r : SlideRes) (ρ : Env), r = S.slideDim loop b {} false ∧
      (∀ q : Nat, q ≤ 4 → S.Holds memNoHost (ρ.set loop.sym (eval memNoHost ρ loop.min + q * eval memNoHost ρ loop.step))) ∧
      (∃ (p : Nat) (i : Int), eval memNoHost ρ loop.min ≤ r.iter memNoHost ρ p ∧
        loop.at memNoHost ρ (r.iter memNoHost ρ p) b.min ≤ i ∧ i ≤ loop.at memNoHost ρ (r.iter memNoHost ρ p) b.max ∧
        ∀ q : Nat, ¬ (loop.at memNoHost ρ (r.iter memNoHost ρ q) r.bounds.min ≤ i ∧ i ≤ loop.at memNoHost ρ (r.iter memNoHost ρ q) r.bounds.max)) := by
  let e : Expr := mkBin .mul (mkBin .div (.v 0) (.const 2)) (.const 2)
  let S : SlideCfg := ⟨cppCfg noHost, 8, sfRange 0 8, fun x => if x = 0 then some ⟨2, 0⟩ else none⟩
  let loop : SlideLoop := ⟨0, 5, .const 0, .const 2, true, 0⟩
  let b : Interval := ⟨e, mkBin .add e (.const 2), false⟩
  have hr : S.slideDim loop b {} false = ⟨{ loop with min := .const (-1), dataParallel := false }, ⟨.bin .add (.v 0) (.const 1), b.max, false⟩, ⟨.const 3, .const 2, 0⟩, true⟩ := by
    decide +kernel
  refine ⟨S, loop, b, _, fun _ => 0, hr.symm, fun q hq => ⟨fun x i hi => ?_, fun x a ha => ?_⟩, 1, 1, ?_, ?_, ?_, ?_⟩
  · simp only [S, sfRange] at hi
    split at hi
    · next hx =>
      subst hx
      cases hi
      refine ⟨(fun h => by cases h), ⟨by decide, fun _ => ?_⟩, ⟨by decide, fun _ => ?_⟩⟩ <;> simp [eval, loop]
      omega
    · cases hi
  · simp only [S] at ha
    split at ha
    · next hx =>
      subst hx
      cases ha
      exact ⟨q, by simp [loop, eval]; ring⟩
    · cases ha
  · simp [SlideRes.iter, loop, eval]
  · decide +kernel
  · decide +kernel
  · intro q h
    simp only [SlideRes.iter, SlideLoop.at, loop, eval, b, e, eval_mkBin, BinOp.denote, Expr.v, Env.set_same] at h
    have h2 : ediv (-1 + (q : Int) * 2) 2 = q - 1 := by
      unfold ediv
      omega
    rw [h2] at h
    omega

/-- C45, counterexample: the bounds are simplified with the bounds of the loop variable, but then the loop begins earlier. If the iteration `v` of the loop `for (v = 0; v <= 9; ++v)`
needs `v` to `v < 0 ? -100 : v + 1`, then nothing is produced in the new iteration -1, and the index 0 is never produced. -/
theorem slide_warm_up_counterexample :
    ∃ (S : SlideCfg) (loop : SlideLoop) (b : Interval) (r : SlideRes) (ρ : Env), r = S.slideDim loop b {} false ∧
      (∀ q : Nat, q ≤ 9 → S.Holds memNoHost (ρ.set loop.sym (eval memNoHost ρ loop.min + q * eval memNoHost ρ loop.step))) ∧
      eval memNoHost ρ r.loop.min + 1 * eval memNoHost ρ loop.step = eval memNoHost ρ loop.min ∧
      loop.at memNoHost ρ (r.iter memNoHost ρ 1) b.min ≤ 0 ∧ 0 ≤ loop.at memNoHost ρ (r.iter memNoHost ρ 1) b.max ∧
      ∀ q : Nat, ¬ (loop.at memNoHost ρ (r.iter memNoHost ρ q) r.bounds.min ≤ 0 ∧ 0 ≤ loop.at memNoHost ρ (r.iter memNoHost ρ q) r.bounds.max) := by
  let S : SlideCfg := ⟨cppCfg noHost, 8, sfRange 0 9, noAlign⟩
  let loop : SlideLoop := ⟨0, 5, .const 0, .const 1, true, 0⟩
  let b : Interval := ⟨.v 0, .select (.bin .lt (.v 0) (.const 0)) (.const (-100)) (.bin .add (.v 0) (.const 1)), false⟩
  have hr : S.slideDim loop b {} false = ⟨{ loop with min := .const (-1), dataParallel := false }, ⟨.bin .add (.v 0) (.const 1), b.max, false⟩, ⟨.const 2, .const 1, 0⟩, true⟩ := by
    decide +kernel
  refine ⟨S, loop, b, _, fun _ => 0, hr.symm, fun q hq => ⟨fun x i hi => ?_, fun x a ha => by simp [S, noAlign] at ha⟩, by decide +kernel, by decide +kernel, by decide +kernel, ?_⟩
  · simp only [S, sfRange] at hi
    split at hi
    · next hx =>
      subst hx
      cases hi
      refine ⟨(fun h => by cases h), ⟨by decide, fun _ => ?_⟩, ⟨by decide, fun _ => ?_⟩⟩ <;> simp [eval, loop]
      omega
    · cases hi
  · intro q h
    simp only [SlideRes.iter, SlideLoop.at, loop, eval, b, BinOp.denote, Expr.v, Env.set_same] at h
    obtain ⟨h1, h2⟩ := h
    obtain rfl : q = 0 := by omega
    simp [b2i] at h2

/-- The decision in `slide_gap_counterexample`. -/
def sfGapR : SlideRes :=
  ⟨⟨0, 5, .const 0, .const 1, false, 0⟩,
   ⟨.select (.bin .le (.v 0) (.v 5)) (.bin .max (.v 1) (.bin .mul (.v 0) (.const 3)))
      (.bin .add (.bin .max (.v 1) (.bin .add (.bin .mul (.v 0) (.const 3)) (.const (-3)))) (.const 1)),
    mkBin .max (mkBin .mul (.v 0) (.const 3)) (.v 1), false⟩,
   ⟨.const 1, .bin .add (.bin .max (.v 1) (.const 27)) (.const 3), 0⟩, true⟩

/-- C45, counterexample: sliding when the intervals can, but need not, overlap. The loop `for (v = 0; v <= 9; ++v)` needs only the index `max(3v, y)`, so the fold factor is 1; but after the pass
everything between the indices of two iterations is produced, three indices in one iteration, which do not fit. -/
theorem slide_gap_counterexample :
    ∃ (S : SlideCfg) (loop : SlideLoop) (b : Interval) (r : SlideRes) (ρ : Env) (f : Int) (st : SlotStore), r = S.slideDim loop b {} false ∧
      (∀ q : Nat, q ≤ 9 → S.Holds memNoHost (ρ.set loop.sym (r.iter memNoHost ρ q))) ∧ r.loop.min = loop.min ∧ r.fold.factor = .const f ∧
      Produced f (fun q => loop.at memNoHost ρ (r.iter memNoHost ρ q) r.bounds.min) (fun q => loop.at memNoHost ρ (r.iter memNoHost ρ q) r.bounds.max) 2 st ∧
      ∃ i, loop.at memNoHost ρ (r.iter memNoHost ρ 1) b.min ≤ i ∧ i ≤ loop.at memNoHost ρ (r.iter memNoHost ρ 1) b.max ∧ st (i % f) ≠ some i := by
  let S : SlideCfg := ⟨cppCfg noHost, 12, sfRange 0 9, noAlign⟩
  let loop : SlideLoop := ⟨0, 5, .const 0, .const 1, true, 0⟩
  let e : Expr := mkBin .max (mkBin .mul (.v 0) (.const 3)) (.v 1)
  let b : Interval := ⟨e, e, true⟩
  have hr : S.slideDim loop b {} false = sfGapR := by decide +kernel
  have hl : sfGapR.loop = { loop with dataParallel := false } := rfl
  have hit : ∀ q : Nat, sfGapR.iter memNoHost (fun _ => 0) q = q := fun q => by simp [SlideRes.iter, sfGapR, eval]
  refine ⟨S, loop, b, sfGapR, fun _ => 0, 1, SlotStore.writes 1 (SlotStore.writes 1 (fun _ => none) [0]) [3, 2, 1], hr.symm,
    fun q hq => ⟨fun x i hi => ?_, fun x a ha => by simp [S, noAlign] at ha⟩, rfl, rfl, .next _ (.next _ (.start _) ?_) ?_, 3, ?_, ?_, ?_⟩
  · rw [hit]
    simp only [S, sfRange] at hi
    split at hi
    · next hx =>
      subst hx
      cases hi
      refine ⟨(fun h => by cases h), ⟨by decide, fun _ => ?_⟩, ⟨by decide, fun _ => ?_⟩⟩ <;> simp [eval, loop]
      omega
    · cases hi
  · intro i
    have h1 : loop.at memNoHost (fun _ => 0) (sfGapR.iter memNoHost (fun _ => 0) 0) sfGapR.bounds.min = 0 := by rw [hit]; decide +kernel
    have h2 : loop.at memNoHost (fun _ => 0) (sfGapR.iter memNoHost (fun _ => 0) 0) sfGapR.bounds.max = 0 := by rw [hit]; decide +kernel
    simp only [h1, h2]
    simp; omega
  · intro i
    have h1 : loop.at memNoHost (fun _ => 0) (sfGapR.iter memNoHost (fun _ => 0) 1) sfGapR.bounds.min = 1 := by rw [hit]; decide +kernel
    have h2 : loop.at memNoHost (fun _ => 0) (sfGapR.iter memNoHost (fun _ => 0) 1) sfGapR.bounds.max = 3 := by rw [hit]; decide +kernel
    simp only [h1, h2]
    simp; omega
  · rw [hit]; decide +kernel
  · rw [hit]; decide +kernel
  · decide +kernel

/-- C45, counterexample: a fold without overlap in a pipelined loop. The iteration `v` needs only the index `3v`, so the fold factor is 1, and 3 with 3 workers; but all of these indices go to the slot 0. -/
theorem slide_pipelined_gap_counterexample :
    ∃ (S : SlideCfg) (loop : SlideLoop) (b : Interval) (r : SlideRes) (ρ : Env) (f ov : Int) (st : SlotStore), r = S.slideDim loop b {} false ∧
      (∀ q : Nat, q ≤ 9 → S.Holds memNoHost (ρ.set loop.sym (r.iter memNoHost ρ q))) ∧ r.loop = loop ∧ r.bounds = b ∧ r.fold.factor = .const f ∧ r.fold.overlap = .const ov ∧
      Produced (f + (3 - 1) * ov) (fun q => loop.at memNoHost ρ (r.iter memNoHost ρ q) r.bounds.min) (fun q => loop.at memNoHost ρ (r.iter memNoHost ρ q) r.bounds.max) 2 st ∧
      ∃ i, loop.at memNoHost ρ (r.iter memNoHost ρ 0) b.min ≤ i ∧ i ≤ loop.at memNoHost ρ (r.iter memNoHost ρ 0) b.max ∧ st (i % (f + (3 - 1) * ov)) ≠ some i := by
  let S : SlideCfg := ⟨cppCfg noHost, 8, sfRange 0 9, noAlign⟩
  let loop : SlideLoop := ⟨0, 5, .const 0, .const 1, true, 0⟩
  let e : Expr := .bin .mul (.v 0) (.const 3)
  let b : Interval := ⟨e, e, true⟩
  have hr : S.slideDim loop b {} false = ⟨loop, b, ⟨.const 1, .const 1, 0⟩, false⟩ := by decide +kernel
  refine ⟨S, loop, b, _, fun _ => 0, 1, 1, SlotStore.writes 3 (SlotStore.writes 3 (fun _ => none) [0]) [3], hr.symm,
    fun q hq => ⟨fun x i hi => ?_, fun x a ha => by simp [S, noAlign] at ha⟩, rfl, rfl, rfl, rfl, .next _ (.next _ (.start _) ?_) ?_, 0, by decide, by decide, by decide⟩
  · simp only [S, sfRange] at hi
    split at hi
    · next hx =>
      subst hx
      cases hi
      refine ⟨(fun h => by cases h), ⟨by decide, fun _ => ?_⟩, ⟨by decide, fun _ => ?_⟩⟩ <;> simp [eval, loop, SlideRes.iter]
      omega
    · cases hi
  · intro i
    have h1 : SlideLoop.at loop memNoHost (fun _ => 0) (SlideRes.iter ⟨loop, b, ⟨.const 1, .const 1, 0⟩, false⟩ memNoHost (fun _ => 0) 0) e = 0 := by decide
    simp only [b, h1]
    simp; omega
  · intro i
    have h1 : SlideLoop.at loop memNoHost (fun _ => 0) (SlideRes.iter ⟨loop, b, ⟨.const 1, .const 1, 0⟩, false⟩ memNoHost (fun _ => 0) 1) e = 3 := by decide
    simp only [b, h1]
    simp; omega

end Slinky
