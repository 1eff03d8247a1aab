import Verif.CropBoundsThm

/-!
# C53: the theorem for the guarded simplifier, examples, and the counterexamples
-/

namespace Slinky

namespace CB

instance (c : Interval) : Decidable (IvOK c) := by unfold IvOK; infer_instance
instance (m : Mem) (ρ : Env) (lo hi : Int) (c c' : Interval) : Decidable (SameCrop m ρ lo hi c c') := by unfold SameCrop; infer_instance

/-- C53, with the guarded simplifier of C17: the buffer that the evaluator makes with the simplified bounds is the same, or both have no elements. -/
theorem crop_bounds_safe_partial {m : Mem} (hm : BufMem m) (n : Nat) {ρ : Env} {s : SState} (hs : StateOK m ρ s) {b : Buf} {k : Nat} (hk : k < b.rank)
    {crop : Interval} {buf : Nat} {bmin bmax : Expr} (h1 : m.field (ρ buf) .min k = (b.dim k).min) (h2 : m.field (ρ buf) .max k = (b.dim k).max)
    (ho : IvOK crop) (hw : crop.WF) (t1 : Tells m ρ bmin (b.dim k).min) (t2 : Tells m ρ bmax (b.dim k).max)
    (s1 : spineOK .max (mutIv (mutateN (safeCfg m.call) n) s crop).min = true) (s2 : spineOK .min (mutIv (mutateN (safeCfg m.call) n) s crop).max = true)
    (ha : AddMinOK m ρ (cropMid (safeCfg m.call) (mutateN (safeCfg m.call) n) s crop buf k bmin bmax) buf k) {r : Interval}
    (hr : (mutateCrop (safeCfg m.call) (mutateN (safeCfg m.call) n) s crop buf k bmin bmax).1 = r) :
    b.crop k (cropArgs m ρ r (b.dim k)).1 (cropArgs m ρ r (b.dim k)).2 = b.crop k (cropArgs m ρ crop (b.dim k)).1 (cropArgs m ρ crop (b.dim k)).2 ∨
    ((b.crop k (cropArgs m ρ r (b.dim k)).1 (cropArgs m ρ r (b.dim k)).2).base = none ∧
      (b.crop k (cropArgs m ρ crop (b.dim k)).1 (cropArgs m ρ crop (b.dim k)).2).base = none) := by
  have hc : ∀ ρ, SimpCfgOK (safeCfg m.call) m ρ := fun ρ => safeCfg_ok m ρ hm.toBufferAtMin
  have := (crop_bounds_partial hc (mutateN_sound hm hc n) hs ho hw (by rw [h1]; exact t1) (by rw [h2]; exact t2) s1 s2 ha).1
  rw [hr, h1, h2] at this
  exact same_crop_buffer hk this

/-! ### Examples -/

/-- The simplifier of the examples. -/
abbrev exRec : Rec := mutateN (safeCfg mem2D.call) 8
/-- `x` is at most 0; nothing else is known. -/
def exState : SState := .init (fun v => if v = 1 then some (.bounds .undef (.const 0)) else none) noAlign
/-- `x = -10`, `y = 3`; the buffer 5 has the bounds [0, 9] and [5, 7]. -/
def exEnv : Env := fun v => if v = 1 then -10 else if v = 2 then 3 else 0

theorem exState_ok : StateOK mem2D exEnv exState :=
  Assumed.init ⟨fun x i h => by
    split at h <;> cases h
    next hx => subst hx; exact .bounds (undef_lo _) (hi_const (by decide)),
   fun x a h => by simp [noAlign] at h⟩

/-- `[max(buffer_min, min(buffer_max, y + 3) + 1), 7]` -/
def exCrop : Interval :=
  .bounds (mkBin .max (.var 5 .min 0) (mkBin .add (mkBin .min (.var 5 .max 0) (mkBin .add (.v 2) (.const 3))) (.const 1))) (.const 7)

/-- It becomes `[y + 4, 7]`. -/
theorem exCrop_simplified : (mutateCrop (safeCfg mem2D.call) exRec exState exCrop 5 0 (.var 5 .min 0) (.var 5 .max 0)).1 =
    .bounds (.bin .add (.v 2) (.const 4)) (.const 7) := by decide +kernel

/-- The hypotheses of `crop_bounds_partial` are true for it. -/
example : IvOK exCrop ∧ exCrop.WF ∧ Tells mem2D exEnv (.var 5 .min 0) (mem2D.field (exEnv 5) .min 0) ∧
    Tells mem2D exEnv (.var 5 .max 0) (mem2D.field (exEnv 5) .max 0) ∧
    spineOK .max (mutIv exRec exState exCrop).min = true ∧ spineOK .min (mutIv exRec exState exCrop).max = true ∧
    AddMinOK mem2D exEnv (cropMid (safeCfg mem2D.call) exRec exState exCrop 5 0 (.var 5 .min 0) (.var 5 .max 0)) 5 0 := by
  refine ⟨by decide, (fun h => by cases h), fun _ => ⟨rfl, rfl⟩, fun _ => ⟨rfl, rfl⟩, by decide +kernel, by decide +kernel, ?_⟩
  have h : addMinParts (cropMid (safeCfg mem2D.call) exRec exState exCrop 5 0 (.var 5 .min 0) (.var 5 .max 0)) 5 0 =
      some (.const 1, .var 5 .max 0, .bin .add (.v 2) (.const 3)) := by decide +kernel
  intro x u z hx
  rw [h] at hx
  simp only [Option.some.injEq, Prod.mk.injEq] at hx
  obtain ⟨rfl, rfl, rfl⟩ := hx
  left; decide

/-- A select which tests if the buffer is empty is removed. -/
example : (mutateCrop (safeCfg mem2D.call) exRec exState
    (.bounds (.select (mkBin .lt (.var 5 .max 0) (.var 5 .min 0)) (mkBin .add (.var 5 .max 0) (.const 1)) (.v 2)) (.const 7)) 5 0 .undef .undef) =
    (.bounds (.v 2) (.const 7), .bin .max (.var 5 .min 0) (.v 2), .bin .min (.var 5 .max 0) (.const 7)) := by decide +kernel

/-- A multiple of a bound that is redundant is removed: `x ≤ 0`, so the min `2 x` is nothing new if the buffer starts at 0. -/
example : (mutateCrop (safeCfg mem2D.call) exRec exState (.bounds (.undef) (mkBin .mul (.v 1) (.const 2))) 5 0 (.const 0) (.bin .mul (.v 1) (.const 2))).1 =
    ⟨.undef, .var 5 .max 0, false⟩ := by decide +kernel

/-! ### Counterexamples -/

/-- C53, counterexample: simplify.cc:2004-2014 divides a bound by a negative constant as if it was positive. `x / -2` where `x ≤ 0` is removed from the
bounds of a buffer that starts at 0: the crop `[5, 100]` of a buffer with bounds `[0, 9]` becomes `[0, 9]`. -/
theorem crop_negative_counterexample : ∃ (crop : Interval) (ρ : Env) (s : SState), StateOK mem2D ρ s ∧ IvOK crop ∧ crop.WF ∧
    Tells mem2D ρ (.const 0) (mem2D.field (ρ 5) .min 0) ∧ Tells mem2D ρ .undef (mem2D.field (ρ 5) .max 0) ∧
    AddMinOK mem2D ρ (cropMid (safeCfg mem2D.call) exRec s crop 5 0 (.const 0) .undef) 5 0 ∧
    cropLo mem2D ρ 0 crop = 5 ∧ cropHi mem2D ρ 9 crop = 9 ∧
    cropLo mem2D ρ 0 (mutateCrop (safeCfg mem2D.call) exRec s crop 5 0 (.const 0) .undef).1 = 0 ∧
    ¬ SameCrop mem2D ρ (mem2D.field (ρ 5) .min 0) (mem2D.field (ρ 5) .max 0) crop
      (mutateCrop (safeCfg mem2D.call) exRec s crop 5 0 (.const 0) .undef).1 := by
  have e : (mutateCrop (safeCfg mem2D.call) exRec exState (.bounds (.bin .div (.v 1) (.const (-2))) (.const 100)) 5 0 (.const 0) .undef).1 =
      .bounds (.var 5 .min 0) (.const 100) := by decide +kernel
  have h : addMinParts (cropMid (safeCfg mem2D.call) exRec exState (.bounds (.bin .div (.v 1) (.const (-2))) (.const 100)) 5 0 (.const 0) .undef) 5 0 =
      none := by decide +kernel
  refine ⟨.bounds (.bin .div (.v 1) (.const (-2))) (.const 100), exEnv, exState, exState_ok, by decide, (fun h => by cases h),
    fun _ => ⟨rfl, rfl⟩, (fun h => by cases h), ?_, by decide, by decide, by rw [e]; decide, by rw [e]; decide⟩
  intro x u z hx
  rw [h] at hx; cases hx

/-- C53, counterexample: simplify.cc:2092-2099 replaces a min `x + min(buffer_max, z)` by `x + z`, although `x` may be negative: the crop
`[min(buffer_max, 100) - 2, y]` of a buffer with bounds `[0, 9]`, where `y = 9`, which is `[7, 9]`, becomes empty. -/
theorem crop_add_min_counterexample : ∃ (crop : Interval) (ρ : Env) (s : SState), StateOK mem2D ρ s ∧ IvOK crop ∧ crop.WF ∧
    spineOK .max (mutIv exRec s crop).min = true ∧ spineOK .min (mutIv exRec s crop).max = true ∧
    cropLo mem2D ρ 0 crop = 7 ∧ cropHi mem2D ρ 9 crop = 9 ∧
    cropLo mem2D ρ 0 (mutateCrop (safeCfg mem2D.call) exRec s crop 5 0 .undef .undef).1 = 98 ∧
    ¬ SameCrop mem2D ρ (mem2D.field (ρ 5) .min 0) (mem2D.field (ρ 5) .max 0) crop
      (mutateCrop (safeCfg mem2D.call) exRec s crop 5 0 .undef .undef).1 := by
  have e : (mutateCrop (safeCfg mem2D.call) exRec (.init noBounds noAlign)
      (.bounds (.bin .add (.bin .min (.var 5 .max 0) (.const 100)) (.const (-2))) (.v 2)) 5 0 .undef .undef).1 =
      .bounds (.const 98) (.v 2) := by decide +kernel
  exact ⟨.bounds (.bin .add (.bin .min (.var 5 .max 0) (.const 100)) (.const (-2))) (.v 2), (fun v => if v = 2 then 9 else 0), .init noBounds noAlign,
    (assumed_nothing _ _).init, by decide, (fun h => by cases h), by decide +kernel, by decide +kernel, by decide, by decide, by rw [e]; decide,
    by rw [e]; decide⟩

end CB

end Slinky
