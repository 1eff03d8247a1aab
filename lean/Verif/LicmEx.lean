import Verif.LicmThm
import Verif.RenameStmt

/-!
# C58: moving statements out of loops. Theorems, an example and counterexamples
-/

namespace Slinky.LI

open Slinky

variable {Loc Val : Type}

/-- C58: the loop after the statements that do not depend on it were moved out computes the same. For each element that the loop computes, and each
element that was right before, both programs end with the same value, and in the new program too, each element is computed before it is used.

Assumed: the loop has an iteration; each element of memory has one right value `T`, which all statements compute that compute it (from right values); no
statement uses what it or a later statement of the body computes; the loop computes each element before it uses it; and a statement whose crops were
removed does what it did in all iterations together (`Good`). `k0` is the value of the symbol of the loop outside of it. -/
theorem licm_partial (W : LWorld Loc Val) (E : Info) (x : Nat) (T : Loc → Val) (ks : List Int) (hne : ks ≠ []) (ss : List Stmt) (hg : Good W E x T ks ss)
    (hf : W.Forward ks ss) (m : Loc → Val) (hv : W.ProduceFirst (fun a => m a = T a) (iterations ks ss)) (k0 : Int) :
    W.ProduceFirst (fun a => m a = T a) (hoisted E x ss k0 ks) ∧
    ∀ a, (m a = T a ∨ ∃ s ∈ ss, ∃ k ∈ ks, W.writes s k a = true) → W.runs (hoisted E x ss k0 ks) m a = W.runs (iterations ks ss) m a := by
  obtain ⟨h1, h2⟩ := hoisted_pf hne (k0 := k0) hg hf hv
  refine ⟨h1, fun a ha => ?_⟩
  have ha' : m a = T a ∨ W.Written (iterations ks ss) a := ha.imp id written_iter.2
  rw [runs_right hv (fun _ h => h) (fun e he => (hg.right e.1 (mem_iterations.1 he).1).value e.2) a ha',
    runs_right h1 (fun _ h => h) (fun e he => (hoisted_right hg hf e he).value e.2) a (ha'.imp id (h2 a))]

/-- C58: no statement that is moved out of the loop depends on the loop variable, as far as the simplifier does not bring it back. -/
theorem licm_lifted (W : LWorld Loc Val) (E : Info) (x : Nat) (T : Loc → Val) (ks : List Int) (ss : List Stmt) (hg : Good W E x T ks ss)
    (hf : W.Forward ks ss) (hsimp : ∀ s, variant x s = false → variant x (E.simp s) = false) : ∀ p ∈ (licm E x ss).1, variant x p.1 = false := by
  intro p hp
  rcases (licm_inv (k0 := 0) hg hf).pair p hp with ⟨e, h⟩ | ⟨_, h, e⟩
  · rw [e]; exact h
  · rw [e]; exact hsimp _ h

/-- C58: each statement of the body is in the new program, in the loop or before it. -/
theorem licm_all (W : LWorld Loc Val) (E : Info) (x : Nat) (T : Loc → Val) (ks : List Int) (ss : List Stmt) (hg : Good W E x T ks ss)
    (hf : W.Forward ks ss) : ∀ s ∈ ss, s ∈ (licm E x ss).2 ∨ ∃ p ∈ (licm E x ss).1, p.2 = s ∧ (p.1 = s ∨ p.1 = E.simp (removeVar E x s)) := by
  intro s hs
  have hI := licm_inv (k0 := 0) hg hf
  refine (hI.all s hs).imp id fun h => ?_
  obtain ⟨p, hp, rfl⟩ := List.mem_map.1 h
  refine ⟨p, hp, rfl, ?_⟩
  rcases hI.pair p hp with ⟨e, _⟩ | ⟨_, _, e⟩
  · exact Or.inl e
  · exact Or.inr e

/-! ## An example

`loop x5 { crop x1 to [x5] { 0: -> x1 }; 1: x1 -> x2; crop x3 to [x5] { 2: x2 -> x3 } }`. The second statement does not depend on the loop. It needs what
the first statement computes in the first iteration, so the first statement is made to compute all of `x1`, and both are moved out of the loop. -/

/-- The first statement. -/
def exI : Stmt := .cropDim 10 1 0 (.point (.v 5)) (.call 0 [] [10] [])
/-- The first statement without the loop variable. -/
def exI' : Stmt := .cropDim 10 1 0 (.point .undef) (.call 0 [] [10] [])
/-- The second statement. -/
def exJ : Stmt := .call 1 [1] [2] []
/-- The third statement. -/
def exR : Stmt := .cropDim 11 3 0 (.point (.v 5)) (.call 2 [2] [11] [])
/-- The third statement without the loop variable. -/
def exR' : Stmt := .cropDim 11 3 0 (.point .undef) (.call 2 [2] [11] [])
/-- Nothing is an alias or folded. -/
def exE : Info := ⟨fun _ => none, 1, fun _ _ => false, id⟩

/-- A call, with the crop around it: its target, and the index of the loop if the crop has one. -/
def exKey : Stmt → Option Nat × Bool
  | .call t _ _ _ => (some t, false)
  | .cropDim _ _ _ b (.call t _ _ _) => (some t, b.min.defined)
  | _ => (none, false)

/-- What the statements use. Elements are a buffer and an index. -/
def exReads (s : Stmt) (_ : Int) (a : Nat × Int) : Bool :=
  match exKey s with
  | (some 1, _) => a == (1, 0)
  | (some 2, _) => a == (2, 0)
  | (some 3, _) => a == (4, 0)
  | (some 5, _) => a == (7, 0)
  | _ => false

/-- What the statements compute. -/
def exWrites (s : Stmt) (k : Int) (a : Nat × Int) : Bool :=
  match exKey s with
  | (some 0, true) => a == (1, k)
  | (some 0, false) => a.1 == 1 && decide (0 ≤ a.2) && decide (a.2 < 3)
  | (some 1, _) => a == (2, 0)
  | (some 2, true) => a == (3, k)
  | (some 2, false) => a.1 == 3 && decide (0 ≤ a.2) && decide (a.2 < 3)
  | (some 3, _) => a == (6, 0)
  | (some 4, _) => a == (4, 0)
  | (some 5, _) => a == (8, k)
  | (some 6, _) => a == (7, 0)
  | _ => false

/-- The values. -/
def exVal (s : Stmt) (_ : Int) (m : Nat × Int → Int) (a : Nat × Int) : Int :=
  match exKey s with
  | (some 0, _) => a.2 * a.2 + 7
  | (some 1, _) => m (1, 0) + 1
  | (some 2, _) => m (2, 0) + a.2
  | (some 3, _) => m (4, 0)
  | (some 4, _) => 7
  | (some 5, _) => m (7, 0)
  | (some 6, _) => 9
  | _ => 0

/-- The world of the example. -/
def exW : LWorld (Nat × Int) Int := ⟨exReads, exWrites, exVal, Prod.fst⟩

/-- The right values. -/
def exT (a : Nat × Int) : Int := if a.1 = 1 then a.2 * a.2 + 7 else if a.1 = 2 then 8 else 8 + a.2

theorem ex_right : ∀ s ∈ [exI, exI', exJ, exR, exR'], exW.Right exE 5 exT s := by
  intro s hs
  simp only [List.mem_cons, List.not_mem_nil, or_false] at hs
  rcases hs with rfl | rfl | rfl | rfl | rfl
  · refine ⟨fun k a h => by simp [exW, exReads, exKey, exI] at h, fun k a h => ⟨1, by decide +kernel, ?_⟩, fun k m hm a h => ?_, fun h => absurd h (by decide +kernel)⟩
    · simp [exW, exWrites, exKey, exI, Interval.point, Expr.v, Expr.defined] at h
      rw [h]; rfl
    · simp [exW, exWrites, exKey, exI, Interval.point, Expr.v, Expr.defined] at h
      rw [h]; rfl
  · refine ⟨fun k a h => by simp [exW, exReads, exKey, exI'] at h, fun k a h => ⟨1, by decide +kernel, ?_⟩, fun k m hm a h => ?_, fun _ k k' a => ⟨rfl, rfl⟩⟩
    · simp [exW, exWrites, exKey, exI', Interval.point, Expr.defined] at h
      exact h.1.1
    · simp [exW, exWrites, exKey, exI', Interval.point, Expr.defined] at h
      simp [exW, exVal, exKey, exI', exT, h.1.1]
  · refine ⟨fun k a h => ⟨1, by decide +kernel, ?_⟩, fun k a h => ⟨2, by decide +kernel, ?_⟩, fun k m hm a h => ?_, fun _ k k' a => ⟨rfl, rfl⟩⟩
    · simp [exW, exReads, exKey, exJ] at h
      rw [h]; rfl
    · simp [exW, exWrites, exKey, exJ] at h
      rw [h]; rfl
    · simp [exW, exWrites, exKey, exJ] at h
      have := hm (1, 0) rfl
      rw [h]
      simp [exW, exVal, exKey, exJ, this, exT]
  · refine ⟨fun k a h => ⟨2, by decide +kernel, ?_⟩, fun k a h => ⟨3, by decide +kernel, ?_⟩, fun k m hm a h => ?_, fun h => absurd h (by decide +kernel)⟩
    · simp [exW, exReads, exKey, exR] at h
      rw [h]; rfl
    · simp [exW, exWrites, exKey, exR, Interval.point, Expr.v, Expr.defined] at h
      rw [h]; rfl
    · simp [exW, exWrites, exKey, exR, Interval.point, Expr.v, Expr.defined] at h
      have := hm (2, 0) rfl
      rw [h]
      simp [exW, exVal, exKey, exR, this, exT]
  · refine ⟨fun k a h => ⟨2, by decide +kernel, ?_⟩, fun k a h => ⟨3, by decide +kernel, ?_⟩, fun k m hm a h => ?_, fun _ k k' a => ⟨rfl, rfl⟩⟩
    · simp [exW, exReads, exKey, exR'] at h
      rw [h]; rfl
    · simp [exW, exWrites, exKey, exR', Interval.point, Expr.defined] at h
      exact h.1.1
    · simp [exW, exWrites, exKey, exR', Interval.point, Expr.defined] at h
      have := hm (2, 0) rfl
      simp [exW, exVal, exKey, exR', this, exT, h.1.1]

/-- The result: two statements are moved, one without its crop. -/
theorem ex_licm : licm exE 5 [exI, exJ, exR] = ([(exI', exI), (exJ, exJ)], [exR]) := rfl

/-- The result, as a statement. -/
theorem ex_hoist : hoist exE 5 (.const 1) (.bounds (.const 0) (.const 2)) (.const 1) [exI, exJ, exR] =
    some (.block (.ofList [exI', exJ, .loop 5 (.const 1) (.bounds (.const 0) (.const 2)) (.const 1) exR])) := rfl

/-- If the loop variable cannot be removed (here it is also an argument of the call), the second statement is put back into the loop. -/
theorem ex_putback : licm exE 5 [.call 0 [] [1] [.v 5], exJ, exR] = ([], [.call 0 [] [1] [.v 5], exJ, exR]) := rfl

/-- A folded dimension is not uncropped. -/
theorem ex_folded : licm { exE with folded := fun _ _ => true } 5 [exI, exJ, exR] = ([], [exI, exJ, exR]) := rfl

/-- It is the buffer that is cropped whose fold factor matters. -/
theorem ex_folded_src : removeVar { exE with folded := fun y _ => y == 1 } 5 exI = exI ∧ removeVar { exE with folded := fun y _ => y == 10 } 5 exI = exI' :=
  ⟨rfl, rfl⟩

/-- An alias: the second statement reads `x9`, which is a crop of `x1`. -/
theorem ex_alias : licm { exE with src := fun y => if y = 9 then some 1 else none } 5 [exI, .call 1 [9] [2] []] =
    ([(exI', exI), (.call 1 [9] [2] [], .call 1 [9] [2] [])], []) := rfl

/-- The crops are found in all statements; only the bounds of crops are changed, and only of dimensions that are not folded (here dimension 1 of `x2` is). -/
theorem ex_nested : removeVar { exE with folded := fun y d => y == 2 && d == 1 } 5
    (.lets (.cons 20 (.v 5) .nil) (.loop 21 (.const 1) (.point (.v 5)) (.const 1) (.allocate 22 .heap (.const 4) [] (.makeBuffer 23 .undef .undef []
      (.constantBuffer 24 ⟨none, 4, []⟩ (.cloneBuffer 25 1 (.sliceBuffer 26 1 [.v 5] (.sliceDim 27 1 0 (.v 5) (.transpose 28 1 [0]
        (.async none exI (.block (.ofList [.check (.v 5), exI, .cropBuffer 29 2 [.bounds (.const 0) (.v 5), .point (.v 5)] (.call 0 [] [29] [.v 5])]))))))))))) false) =
    .lets (.cons 20 (.v 5) .nil) (.loop 21 (.const 1) (.point (.v 5)) (.const 1) (.allocate 22 .heap (.const 4) [] (.makeBuffer 23 .undef .undef []
      (.constantBuffer 24 ⟨none, 4, []⟩ (.cloneBuffer 25 1 (.sliceBuffer 26 1 [.v 5] (.sliceDim 27 1 0 (.v 5) (.transpose 28 1 [0]
        (.async none exI' (.block (.ofList [.check (.v 5), exI', .cropBuffer 29 2 [.bounds (.const 0) .undef, .point (.v 5)] (.call 0 [] [29] [.v 5])]))))))))))) false := rfl

theorem ex_good : Good exW exE 5 exT [0, 1, 2] [exI, exJ, exR] := by
  refine ⟨fun s hs => ex_right s (by simp only [List.mem_cons, List.not_mem_nil, or_false] at hs ⊢; tauto), fun s hs hv hr => ?_⟩
  simp only [List.mem_cons, List.not_mem_nil, or_false] at hs
  rcases hs with rfl | rfl | rfl
  · refine ⟨ex_right exI' (by simp), fun k0 => ⟨fun a => ?_, fun k hk a h => ?_⟩⟩
    · constructor
      · intro h; exact absurd h (by simp [exW, exReads, exKey, exE, exI, removeVar])
      · rintro ⟨k, _, h⟩; exact absurd h (by simp [exW, exReads, exKey, exI])
    · simp [exW, exWrites, exKey, exI, Interval.point, Expr.v, Expr.defined] at h
      rw [h]
      simp only [List.mem_cons, List.not_mem_nil, or_false] at hk
      rcases hk with rfl | rfl | rfl <;> rfl
  · exact absurd hv (by decide +kernel)
  · refine ⟨ex_right exR' (by simp), fun k0 => ⟨fun a => ?_, fun k hk a h => ?_⟩⟩
    · constructor
      · intro h; exact ⟨0, by simp, h⟩
      · rintro ⟨k, _, h⟩; exact h
    · simp [exW, exWrites, exKey, exR, Interval.point, Expr.v, Expr.defined] at h
      rw [h]
      simp only [List.mem_cons, List.not_mem_nil, or_false] at hk
      rcases hk with rfl | rfl | rfl <;> rfl

theorem ex_forward : exW.Forward [0, 1, 2] [exI, exJ, exR] := by
  have h : ∀ t s : Stmt, (∀ k k' a, exWrites t k a = true → exReads s k' a = true → False) → ¬ exW.Feeds [0, 1, 2] t s :=
    fun t s h ⟨k, _, k', _, a, h1, h2⟩ => h k k' a h1 h2
  refine ⟨fun t ht => h _ _ fun k k' a h1 h2 => ?_, fun t ht => h _ _ fun k k' a h1 h2 => ?_, fun t ht => h _ _ fun k k' a h1 h2 => ?_, trivial⟩
  · simp [exReads, exKey, exI] at h2
  · simp [exReads, exKey, exJ] at h2
    subst h2
    simp only [List.mem_cons, List.not_mem_nil, or_false] at ht
    rcases ht with rfl | rfl
    · exact absurd h1 (by simp [exWrites, exKey, exJ])
    · exact absurd h1 (by simp [exWrites, exKey, exR, Interval.point, Expr.v, Expr.defined])
  · simp [exReads, exKey, exR] at h2
    subst h2
    rcases List.mem_singleton.1 ht with rfl
    exact absurd h1 (by simp [exWrites, exKey, exR, Interval.point, Expr.v, Expr.defined])

theorem ex_pf : exW.ProduceFirst (fun a => (fun _ => 0 : Nat × Int → Int) a = exT a) (iterations [0, 1, 2] [exI, exJ, exR]) := by
  simp [iterations, LWorld.ProduceFirst, exW, exReads, exWrites, exKey, exI, exJ, exR, Interval.point, Expr.v, Expr.defined]

/-- The theorem applies, and the loop computes something: the last element of `x3` is 10. -/
theorem ex_applies : ∀ a, (0 = exT a ∨ ∃ s ∈ [exI, exJ, exR], ∃ k ∈ [0, 1, 2], exW.writes s k a = true) →
    exW.runs (hoisted exE 5 [exI, exJ, exR] 0 [0, 1, 2]) (fun _ => 0) a = exW.runs (iterations [0, 1, 2] [exI, exJ, exR]) (fun _ => 0) a :=
  (licm_partial exW exE 5 exT [0, 1, 2] (by simp) [exI, exJ, exR] ex_good ex_forward (fun _ => 0) ex_pf 0).2

theorem ex_value : exW.runs (iterations [0, 1, 2] [exI, exJ, exR]) (fun _ => 0) (3, 2) = 10 := by decide +kernel

/-! ## Counterexamples -/

/-- C58 needs a loop with an iteration: the statements that are moved out of a loop are run even if the loop has no iterations. Here `x2` is changed. -/
theorem licm_empty : exW.runs (hoisted exE 5 [exI, exJ, exR] 0 []) (fun _ => 0) (2, 0) ≠ exW.runs (iterations [] [exI, exJ, exR]) (fun _ => 0) (2, 0) := by
  decide +kernel

/-- C58 needs `Forward`: a statement that uses what a later statement computed in the iteration before is moved out of the loop, although the later
statement is not. Here `3: x4 -> x6; crop x4 to [x5] { 4: -> x4 }`. -/
theorem licm_carried :
    licm exE 5 [.call 3 [4] [6] [], .cropDim 12 4 0 (.point (.v 5)) (.call 4 [] [12] [])] =
      ([(.call 3 [4] [6] [], .call 3 [4] [6] [])], [.cropDim 12 4 0 (.point (.v 5)) (.call 4 [] [12] [])]) ∧
    exW.runs (hoisted exE 5 [.call 3 [4] [6] [], .cropDim 12 4 0 (.point (.v 5)) (.call 4 [] [12] [])] 0 [0, 1]) (fun _ => 0) (6, 0) = 0 ∧
    exW.runs (iterations [0, 1] [.call 3 [4] [6] [], .cropDim 12 4 0 (.point (.v 5)) (.call 4 [] [12] [])]) (fun _ => 0) (6, 0) = 7 :=
  ⟨rfl, by decide +kernel, by decide +kernel⟩

/-- C58 needs one right value for each element: only if the moved statement consumes what another statement produces is checked, not if it produces what
another statement consumes. Here `crop x8 to [x5] { 5: x7 -> x8 }; 6: -> x7`: the old value of `x7` is lost. -/
theorem licm_overwritten :
    licm exE 5 [.cropDim 13 8 0 (.point (.v 5)) (.call 5 [7] [13] []), .call 6 [] [7] []] =
      ([(.call 6 [] [7] [], .call 6 [] [7] [])], [.cropDim 13 8 0 (.point (.v 5)) (.call 5 [7] [13] [])]) ∧
    exW.runs (hoisted exE 5 [.cropDim 13 8 0 (.point (.v 5)) (.call 5 [7] [13] []), .call 6 [] [7] []] 0 [0, 1]) (fun _ => 0) (8, 0) = 9 ∧
    exW.runs (iterations [0, 1] [.cropDim 13 8 0 (.point (.v 5)) (.call 5 [7] [13] []), .call 6 [] [7] []]) (fun _ => 0) (8, 0) = 0 :=
  ⟨rfl, by decide +kernel, by decide +kernel⟩

end Slinky.LI
