import Verif.AliasCopyThm
import Mathlib.Data.Fin.VecNotation

/-!
# Replacing an allocation by an alias of the other buffer of a copy: examples

Concrete copies that meet the conditions of the theorems of `AliasCopyThm.lean`, and copies for which the code is wrong outside of them.
-/

namespace Slinky.AC

/-! ## A transposed copy with offsets, and a broadcast -/

/-- `dst(x, y) = src(y + 1, x, 5)` -/
def tr : Fin 3 → Lin 2 := ![⟨some 1, 1, 1⟩, ⟨some 0, 1, 0⟩, ⟨none, 1, 5⟩]
/-- The source. -/
def trS : FBuf 3 := ⟨some 1000, ![⟨0, 9, 1, -1⟩, ⟨0, 9, 10, -1⟩, ⟨0, 9, 100, -1⟩]⟩
/-- The allocation of the destination. -/
def trD : Fin 2 → Dim := ![⟨2, 4, 0, -1⟩, ⟨3, 5, 0, -1⟩]

theorem ex_dst : (aliasDst tr trS trD).map (fun a => (a.base, a.dims 0, a.dims 1)) =
    some (some (1000 + 4 + 20 + 500), ⟨2, 4, 10, -1⟩, ⟨3, 5, 1, -1⟩) := by decide +kernel

theorem ex_dst_address {a : FBuf 2} (h : aliasDst tr trS trD = some a) {x : Fin 2 → Int} (hx : Within trD x) :
    a.address x = trS.address (srcIdx tr x) := by
  refine dst_address_partial h (fun s => ?_) (fun x hx s => ?_) (fun s d _ => .inl ?_) (fun s d _ => .inl ?_) hx
  · revert s; decide +kernel
  · have h0 := hx 0
    have h1 := hx 1
    simp only [trD, Matrix.cons_val_zero, Matrix.cons_val_one] at h0 h1
    match s with
    | 0 => simp [trS, srcIdx, tr]; omega
    | 1 => simp [trS, srcIdx, tr]; omega
    | 2 => simp [trS, srcIdx, tr]
  · exact (by decide +kernel : ∀ s, (tr s).scale = 1) s
  · exact (by decide +kernel : ∀ s, (trS.dims s).fold = Dim.unfolded) s

/-- `dst(x, y) = src(y)`: the first dimension of the destination is a broadcast. -/
def br : Fin 1 → Lin 2 := ![⟨some 1, 1, 0⟩]
/-- The source. -/
def brS : FBuf 1 := ⟨some 1000, ![⟨0, 9, 1, -1⟩]⟩

theorem ex_broadcast : (aliasDst br brS trD).map (fun a => (a.base, a.dims 0, a.dims 1)) = some (some 1003, ⟨2, 4, 0, -1⟩, ⟨3, 5, 1, -1⟩) := by decide +kernel

/-! ## A copy into a part of the destination -/

/-- `dst(x) = src(x - 3)` -/
def sh : Fin 1 → Lin 1 := ![⟨some 0, 1, -3⟩]
/-- The source. -/
def shS : Fin 1 → Dim := ![⟨-1, 4, 0, -1⟩]
/-- The destination. -/
def shD : Fin 1 → Dim := ![⟨3, 9, 1, -1⟩]

/-- The source starts before the destination: the destination is made bigger, if it may be. -/
theorem ex_src : (aliasSrcDims sh shS shD false).map (· 0) = some ⟨2, 9, 1, -1⟩ ∧ (aliasSrcDims sh shS shD true).isNone = true := by decide +kernel

theorem ex_src_address {E : Fin 1 → Dim} (h : aliasSrcDims sh shS shD false = some E) {dst : FBuf 1} (hdst : ∀ d, dst.dims d = E d) {x : Fin 1 → Int}
    (hx : ∀ s, (shS s).min ≤ srcIdx sh x s ∧ srcIdx sh x s ≤ (shS s).max) : (aliasSrc sh shS shD dst).address (srcIdx sh x) = dst.address x := by
  refine src_address_partial h hdst (.inr fun s d hs => ?_) (fun s d hs => .inl ?_) hx
  · exact (by decide +kernel : ∀ s d, (sh s).dim = some d → (shS s).max ≤ (shD d).max + (sh s).off) s d hs
  · exact (by decide +kernel : ∀ d, (shD d).fold = Dim.unfolded) d

/-! ## Outside of the conditions -/

/-- `dst(x) = src(2 * x)` -/
def sc : Fin 1 → Lin 1 := ![⟨some 0, 2, 0⟩]
/-- The source (an input, for example). -/
def scS : FBuf 1 := ⟨some 1000, ![⟨0, 20, 1, -1⟩]⟩
/-- The allocation of the destination: a part of what there is. -/
def scD : Fin 1 → Dim := ![⟨3, 5, 0, -1⟩]

/-- C68, refuted outside the condition: if an index is scaled, and the source has more elements before the first that is needed, the alias starts at the
wrong element: `dst(3)` should be `src(6)`, and is `src(3)`. (The scale is missing in `at - src_dim.bounds.min + buffer_min(op->dst, dst_d)`.) -/
theorem scale_counterexample : ((aliasDst sc scS scD).bind (·.address ![3])) = some (1000 + 3) ∧ scS.address (srcIdx sc ![3]) = some (1000 + 6) ∧
    (∀ x, Within scD x → ∀ s, (scS.dims s).min ≤ srcIdx sc x s ∧ srcIdx sc x s ≤ (scS.dims s).max) := by
  refine ⟨by decide +kernel, by decide +kernel, fun x hx s => ?_⟩
  have h0 := hx 0
  simp only [scD, Matrix.cons_val_zero] at h0
  match s with
  | 0 => simp [scS, srcIdx, sc]; omega

/-- `dst(x) = src(x)` -/
def idc : Fin 1 → Lin 1 := ![⟨some 0, 1, 0⟩]
/-- A source that is folded: 4 elements. -/
def foS : FBuf 1 := ⟨some 1000, ![⟨3, 6, 1, 4⟩]⟩
/-- The allocation of the destination. -/
def foD : Fin 1 → Dim := ![⟨3, 6, 0, -1⟩]

/-- C68, refuted outside the condition: if the source is folded, and the alias does not start at a multiple of the fold factor, the alias is another part of the
memory, that the source does not have: the source has the addresses 1000 to 1003. -/
theorem fold_counterexample : ((aliasDst idc foS foD).bind (·.address ![3])) = some (1000 + 6) ∧ foS.address (srcIdx idc ![3]) = some (1000 + 3) ∧
    ((aliasDst idc foS foD).bind (·.address ![6])) = some (1000 + 5) := by
  decide +kernel

/-- The destination is smaller than the source on both sides. -/
def grD : Fin 1 → Dim := ![⟨0, 9, 1, -1⟩]
/-- The source: something else needs more of it. -/
def grS : Fin 1 → Dim := ![⟨-1, 10, 0, -1⟩]

/-- C68, refuted outside the condition: if the source ends after the destination, the destination is not made big enough (the extent that is added is the extent of
the intersection): the source has an element at 10, but the destination that it is an alias of ends at 9. -/
theorem grow_counterexample : (aliasSrcDims idc grS grD false).map (· 0) = some ⟨-1, 9, 1, -1⟩ ∧
    (∀ s, (grS s).min ≤ srcIdx idc ![10] s ∧ srcIdx idc ![10] s ≤ (grS s).max) := by
  decide +kernel

end Slinky.AC
