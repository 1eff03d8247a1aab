import Verif.ImplementCopyMem
import Verif.DeshadowEx

/-! # C44: `implement_copy`, examples and counterexamples -/

namespace Slinky

/-- An environment: symbol 0 is `dst`, symbol 1 is `src`. -/
def icEnv (D S : Buf) : SEnv := fun x => if x = 0 then .buf D else if x = 1 then .buf S else .undef

/-- A world where the function that copies succeeds if it is given one of the lists of buffers. -/
def icW (good : List (List Buf)) : World := { dsW with call := fun _ _ os _ _ => if os ∈ good then 0 else 1 }

/-- The lower bound of constants and of sums and products of constants. -/
def icLb : Expr → Option Int
  | .const c => some c
  | .bin .add (.const a) (.const b) => some (a + b)
  | .bin .mul (.const a) (.const b) => some (a * b)
  | _ => none

theorem icSound (m : Mem) (X : List Nat) : SimpSound id icLb m X where
  simp := fun _ _ h => ⟨h, fun _ => rfl⟩
  lb := fun _ e v _ h env => by
    unfold icLb at h
    split at h <;> simp_all [eval, BinOp.denote]

/-! ### An example

`dst(x, y) = src(max(x, 1), y + 1)`. The index `x` needs a loop, the index `y` passes through. -/

/-- The source: indices from (0, 6) to (3, 8). -/
def icSrc : Buf := ⟨some 4096, 4, [⟨0, 3, 4, -1⟩, ⟨6, 8, 16, -1⟩]⟩

/-- The indices of `src`: `x` is symbol 2, `y` is symbol 3. -/
def icX : List Expr := [.bin .max (.var 2 .none 0) (.const 1), .bin .add (.var 3 .none 0) (.const 1)]

/-- The same, as a function of the indices of `dst`. -/
def icY : List Int → List Int
  | [x, y] => [max x 1, y + 1]
  | _ => []

theorem inRange64_of {b : Buf} (h : InRange 64 (b.rank : Int) ∧ InRange 64 b.elem ∧ InRange 64 b.sizeBytes)
    (hd : ∀ d ∈ Dim.broadcast :: b.dims, InRange 64 d.min ∧ InRange 64 d.max ∧ InRange 64 d.stride ∧ InRange 64 d.fold) : b.InRange64 := by
  intro f d
  have hb : b.dim d.toNat ∈ Dim.broadcast :: b.dims := by
    unfold Buf.dim
    by_cases hlt : d.toNat < b.dims.length
    · simp [hlt]
    · simp [List.getElem?_eq_none (not_lt.1 hlt)]
  obtain ⟨h1, h2, h3, h4⟩ := hd _ hb
  have e : (Obj.ofBuf b).buf = b := by simp [Obj.ofBuf, Obj.buf]
  cases f <;> simp only [Obj.field, e]
  · decide
  · exact h.1
  · exact h.2.1
  · exact h.2.2
  · exact h1
  · exact h2
  · exact h3
  · exact h4

theorem icEnv_range {D S : Buf} (hD : D.InRange64) (hS : S.InRange64) : (icEnv D S).InRange64 := by
  intro x
  unfold icEnv
  by_cases h0 : x = 0
  · simpa [h0] using hD
  · by_cases h1 : x = 1
    · simpa [h1] using hS
    · simp [h0, h1]

theorem icSrc_range : icSrc.InRange64 := inRange64_of (by decide +kernel) (by decide +kernel)
theorem dsBuf_range : dsBuf.InRange64 := inRange64_of (by decide +kernel) (by decide +kernel)

theorem dsBuf_inB {is : List Int} (h : dsBuf.InBounds is) : ∃ x y, is = [x, y] ∧ 0 ≤ x ∧ x ≤ 3 ∧ 5 ≤ y ∧ y ≤ 7 := by
  have h : InB dsBuf.dims is := h
  unfold dsBuf at h
  match is, h with
  | [x, y], h =>
    simp [InB] at h
    exact ⟨x, y, rfl, by omega, by omega, by omega, by omega⟩

/-- Only `y` passes through. -/
theorem icPass {d x k : Nat} {c : CopyDim} (hd : ([2, 3] : List Nat)[d]? = some x) (hc : copyStep id icLb 1 icX 0 [2, 3] x d = some (some k, c)) : d = 1 ∧ x = 3 ∧ k = 1 := by
  rcases d with _ | _ | d
  · simp only [List.getElem?_cons_zero, Option.some.injEq] at hd
    subst hd
    have : copyStep id icLb 1 icX 0 [2, 3] 2 0 = none := by rfl
    rw [this] at hc
    cases hc
  · simp only [List.getElem?_cons_succ, List.getElem?_cons_zero, Option.some.injEq] at hd
    subst hd
    have : (copyStep id icLb 1 icX 0 [2, 3] 3 1).map (·.1) = some (some 1) := by rfl
    rw [hc] at this
    simp only [Option.map_some, Option.some.injEq] at this
    exact ⟨rfl, rfl, this⟩
  · simp at hd

/-- The conditions hold for the example. -/
theorem icCond (good : List (List Buf)) (l : List Ev) : CopyCond (icW good) (fun _ _ => 0) id icLb l (icEnv dsBuf icSrc) 9 1 icX 0 [2, 3] icSrc dsBuf icY where
  h_host := fun _ _ _ => rfl
  h_range := icEnv_range dsBuf_range icSrc_range
  h_src := rfl
  h_dst := rfl
  h_fresh := rfl
  freshX := by decide
  freshS := by simp [icX, FreeIn]
  idx := by simp [icEnv]
  nodup := by decide
  rank := rfl
  exprs := by simp [icX, Expr.ok, Expr.WF, Expr.Plain, InRange]
  h_simp := icSound _ _
  unfolded := fun k => by
    unfold Buf.dim icSrc
    rcases k with _ | _ | k <;> simp [Dim.unfolded, Dim.broadcast]
  nonnull := by
    intro is h
    unfold Buf.view at h
    split at h
    · next hc =>
      match is, hc, h with
      | [], hc, h => simp [icSrc, Buf.address, Buf.offset] at h
      | [x], hc, h =>
        simp [icSrc, Buf.address, Buf.offset, Buf.contains, Buf.containsL, Dim.contains, Dim.containsI, Dim.flatOffset, Dim.unfolded] at h hc
        omega
      | x :: y :: is, hc, h =>
        simp [icSrc, Buf.address, Buf.offset, Buf.contains, Buf.containsL, Dim.contains, Dim.containsI, Dim.flatOffset, Dim.unfolded] at h hc
        omega
    · cases h
  val := by
    intro is h
    obtain ⟨x, y, rfl, h1, h2, h3, h4⟩ := dsBuf_inB h
    have c1 : chk 64 (y + 1) = some (y + 1) := by unfold chk; rw [if_pos]; unfold InRange; omega
    simp [icX, icY, evalI, evalS, SEnv.bindAll, SEnv.bindSome, SEnv.set, Val.int?, BinOp.machine, c1]
    split <;> omega
  sep := by
    rintro d x k e hd ⟨c, hc⟩ he
    obtain ⟨rfl, rfl, rfl⟩ := icPass hd hc
    cases he
    simp [FreeIn]
  inb := by
    rintro d x k e hd ⟨c, hc⟩ he hf
    obtain ⟨rfl, rfl, rfl⟩ := icPass hd hc
    cases he
    simp [FreeIn] at hf

/-- The calls: a loop over `x`; the view of `src` has one dimension, for `y`. -/
def icCalls : List (Buf × Buf) :=
  [(⟨some 4100, 4, [⟨5, 7, 16, -1⟩]⟩, ⟨some 1024, 4, [⟨5, 7, 16, -1⟩]⟩), (⟨some 4100, 4, [⟨5, 7, 16, -1⟩]⟩, ⟨some 1028, 4, [⟨5, 7, 16, -1⟩]⟩),
   (⟨some 4104, 4, [⟨5, 7, 16, -1⟩]⟩, ⟨some 1032, 4, [⟨5, 7, 16, -1⟩]⟩), (⟨some 4108, 4, [⟨5, 7, 16, -1⟩]⟩, ⟨some 1036, 4, [⟨5, 7, 16, -1⟩]⟩)]

/-- The statement succeeds: it makes the calls. -/
theorem icRun : sem (icW (icCalls.map fun c => [c.1, c.2])) false (implementCopy id icLb 9 7 1 icX 0 [2, 3] none) (icEnv dsBuf icSrc) [] =
    some (0, [.call 7 0, .call 7 0, .call 7 0, .call 7 0]) := by decide +kernel

/-- `implementCopy_sound_partial` applies. -/
example : ∃ calls, runSeq (copyCall (icW (icCalls.map fun c => [c.1, c.2])) 7 []) calls [] = some (0, [.call 7 0, .call 7 0, .call 7 0, .call 7 0]) ∧
    Implements calls icSrc dsBuf icY :=
  implementCopy_sound_partial (icCond _ []) (by simp) rfl icRun

/-! ### Counterexamples -/

theorem runSeq_calls {w : World} {t : Nat} {pads : List Buf} : ∀ {calls : List (Buf × Buf)} {l l' : List Ev}, runSeq (copyCall w t pads) calls l = some (0, l') →
    ∀ c ∈ calls, ∃ l, w.call t [] (c.1 :: c.2 :: pads) [] l = 0
  | [], _, _, _, _, hc => by simp at hc
  | c :: cs, l, l', h, c', hc' => by
    simp only [runSeq, copyCall] at h
    split at h
    · next hr => simp only [Option.some.injEq, Prod.mk.injEq] at h; exact absurd h.1 hr
    · next hr =>
      simp only [ne_eq, not_not] at hr
      rcases List.mem_cons.1 hc' with rfl | hc'
      · exact ⟨l, hr⟩
      · exact runSeq_calls h c' hc'

/-- If one of the calls that are possible is wrong for an element, and no other call has that element, the calls do not implement the copy. -/
theorem not_implements {good : List (Buf × Buf)} {t : Nat} {S D : Buf} {Y : List Int → List Int} {l l' : List Ev} {x : List Int} (hx : D.InBounds x)
    (hb : ∀ c ∈ good, ∀ is, c.2.InBounds is → c.2.address is = D.address x → c.1.view is = S.view (Y x) → False) :
    ¬ ∃ calls, runSeq (copyCall (icW (good.map fun c => [c.1, c.2])) t []) calls l = some (0, l') ∧ Implements calls S D Y := by
  rintro ⟨calls, h1, h2⟩
  obtain ⟨c, hc, is, k1, k2, k3⟩ := h2.cover x hx
  obtain ⟨l, h⟩ := runSeq_calls h1 c hc
  have : [c.1, c.2] ∈ good.map fun c => [c.1, c.2] := by
    by_contra hn
    simp [icW, hn] at h
  obtain ⟨c', hc', he⟩ := List.mem_map.1 this
  simp only [List.cons.injEq, and_true] at he
  obtain rfl : c' = c := Prod.ext he.1 he.2
  exact hb c' hc' is k1 k2 k3

/-! `dst(x, y) = src(x + y, y)`: the index `x` passes through, with `y` replaced by its minimum, but there is a loop over `y`. -/

/-- The destination: 2 x 2. -/
def shD : Buf := ⟨some 100, 1, [⟨0, 1, 1, -1⟩, ⟨0, 1, 2, -1⟩]⟩
/-- The source: 3 x 2. -/
def shS : Buf := ⟨some 200, 1, [⟨0, 2, 1, -1⟩, ⟨0, 1, 3, -1⟩]⟩
/-- The indices of the source. -/
def shX : List Expr := [.bin .add (.var 2 .none 0) (.var 3 .none 0), .var 3 .none 0]
/-- The calls: the second reads (0, 1) and (1, 1), not (1, 1) and (2, 1). -/
def shCalls : List (Buf × Buf) := [(⟨some 200, 1, [⟨0, 1, 1, -1⟩]⟩, ⟨some 100, 1, [⟨0, 1, 1, -1⟩]⟩), (⟨some 203, 1, [⟨0, 1, 1, -1⟩]⟩, ⟨some 102, 1, [⟨0, 1, 1, -1⟩]⟩)]

/-- Why `CopyCond.sep`: the copy succeeds, and it is wrong. -/
theorem shear_counterexample : sem (icW (shCalls.map fun c => [c.1, c.2])) false (implementCopy id icLb 9 7 1 shX 0 [2, 3] none) (icEnv shD shS) [] =
      some (0, [.call 7 0, .call 7 0]) ∧
    ¬ ∃ calls, runSeq (copyCall (icW (shCalls.map fun c => [c.1, c.2])) 7 []) calls [] = some (0, [.call 7 0, .call 7 0]) ∧
      Implements calls shS shD (fun x => match x with | [x, y] => [x + y, y] | _ => []) := by
  refine ⟨by decide +kernel, not_implements (x := [0, 1]) (by simp [Buf.InBounds, shD, InB]) ?_⟩
  intro c hc is h1 h2 h3
  simp only [shCalls, List.mem_cons, List.not_mem_nil, or_false] at hc
  rcases hc with rfl | rfl <;> (
    have h1 : InB [⟨0, 1, 1, -1⟩] is := h1
    match is, h1 with
    | [i], h1 =>
      simp [InB, shD, shS, Buf.address, Buf.view, Buf.contains, Buf.containsL, Buf.offset, Dim.flatOffset, Dim.contains, Dim.containsI, Dim.unfolded] at h1 h2 h3
      omega)

/-! `dst(x) = src(x)`, where `src` is folded: the view is at the minimum, and the offsets in a folded dimension are not relative to the minimum. -/

/-- The destination: 2 elements, from 1. -/
def foD : Buf := ⟨some 100, 1, [⟨1, 2, 1, -1⟩]⟩
/-- The source: the same indices, with a fold factor of 2. -/
def foS : Buf := ⟨some 200, 1, [⟨1, 2, 1, 2⟩]⟩
/-- The call: the element 1 of the view is at 202, not 201. -/
def foCalls : List (Buf × Buf) := [(⟨some 201, 1, [⟨1, 2, 1, 2⟩]⟩, ⟨some 100, 1, [⟨1, 2, 1, -1⟩]⟩)]

/-- Why `CopyCond.unfolded`: the copy succeeds, and it is wrong. -/
theorem folded_src_counterexample : sem (icW (foCalls.map fun c => [c.1, c.2])) false (implementCopy id icLb 9 7 1 [.var 2 .none 0] 0 [2] none) (icEnv foD foS) [] =
      some (0, [.call 7 0]) ∧
    ¬ ∃ calls, runSeq (copyCall (icW (foCalls.map fun c => [c.1, c.2])) 7 []) calls [] = some (0, [.call 7 0]) ∧ Implements calls foS foD id := by
  refine ⟨by decide +kernel, not_implements (x := [1]) (by simp [Buf.InBounds, foD, InB]) ?_⟩
  intro c hc is h1 h2 h3
  simp only [foCalls, List.mem_cons, List.not_mem_nil, or_false] at hc
  subst hc
  have h1 : InB [⟨1, 2, 1, -1⟩] is := h1
  match is, h1 with
  | [i], h1 =>
    simp [InB, foD, Buf.address, Buf.offset, Dim.flatOffset, Dim.unfolded] at h1 h2
    have hi : i = 1 := by omega
    subst hi
    revert h3
    decide +kernel

/-! `dst(x) = src(x + buffer_min(dst, 0))`, where some of the elements are not in `src`: the bounds of the view are the bounds of `dst`. -/

/-- The destination: elements 0 to 3. -/
def poD : Buf := ⟨some 100, 1, [⟨0, 3, 1, -1⟩]⟩
/-- The source: elements 0 and 1. -/
def poS : Buf := ⟨some 200, 1, [⟨0, 1, 1, -1⟩]⟩
/-- The call: the view of `src` has 4 elements, two of them are not elements of `src`. -/
def poCalls : List (Buf × Buf) := [(⟨some 200, 1, [⟨0, 3, 1, -1⟩]⟩, ⟨some 100, 1, [⟨0, 3, 1, -1⟩]⟩)]

/-- Why `CopyCond.inb`: the copy succeeds, and reads elements that are not in `src`. -/
theorem padded_offset_counterexample : sem (icW (poCalls.map fun c => [c.1, c.2])) false
      (implementCopy id icLb 9 7 1 [.bin .add (.var 2 .none 0) (.var 0 .min 0)] 0 [2] none) (icEnv poD poS) [] = some (0, [.call 7 0]) ∧
    ¬ ∃ calls, runSeq (copyCall (icW (poCalls.map fun c => [c.1, c.2])) 7 []) calls [] = some (0, [.call 7 0]) ∧
      Implements calls poS poD id := by
  refine ⟨by decide +kernel, not_implements (x := [2]) (by simp [Buf.InBounds, poD, InB]) ?_⟩
  intro c hc is h1 h2 h3
  simp only [poCalls, List.mem_cons, List.not_mem_nil, or_false] at hc
  subst hc
  have h1 : InB [⟨0, 3, 1, -1⟩] is := h1
  match is, h1 with
  | [i], h1 =>
    simp [InB, poD, Buf.address, Buf.offset, Dim.flatOffset, Dim.unfolded] at h1 h2
    have hi : i = 2 := by omega
    subst hi
    revert h3
    decide +kernel

/-! `dst(x) = src(select(x < 2, x, x + 1))`: the index `x` passes through, so there is no loop over it, but the condition of the `select` is in the parameters of
`make_buffer`. -/

/-- The source: elements 0 to 4. -/
def seS : Buf := ⟨some 200, 1, [⟨0, 4, 1, -1⟩]⟩
/-- The index of the source. -/
def seX : List Expr := [.select (.bin .lt (.var 2 .none 0) (.const 2)) (.var 2 .none 0) (.bin .add (.var 2 .none 0) (.const 1))]
/-- The call: the view of `src` is `src`. -/
def seCalls : List (Buf × Buf) := [(⟨some 200, 1, [⟨0, 4, 1, -1⟩]⟩, ⟨some 100, 1, [⟨0, 3, 1, -1⟩]⟩)]

/-- The statement that is made has a symbol that is not in scope: the evaluator has undefined behaviour, although every index of `src` has a value and is in bounds. -/
theorem select_index_counterexample :
    sem (icW (seCalls.map fun c => [c.1, c.2])) false (implementCopy id icLb 9 7 1 seX 0 [2] none) (icEnv poD seS) [] = none ∧
    ∀ x, poD.InBounds x → ∃ y, seX.mapM (evalI (icW (seCalls.map fun c => [c.1, c.2])) [] ((icEnv poD seS).bindAll [2] x)) = some y ∧ seS.InBounds y := by
  refine ⟨by decide +kernel, fun is h => ?_⟩
  have h : InB [⟨0, 3, 1, -1⟩] is := h
  match is, h with
  | [x], h =>
    simp only [InB, and_true] at h
    have c1 : chk 64 (x + 1) = some (x + 1) := by unfold chk; rw [if_pos]; unfold InRange; omega
    refine ⟨[if x < 2 then x else x + 1], ?_, ?_⟩
    · by_cases hx : x < 2 <;>
        simp [seX, evalI, evalS, SEnv.bindAll, SEnv.bindSome, SEnv.set, Val.int?, BinOp.machine, c1, hx]
    · simp only [Buf.InBounds, seS, InB, and_true]
      split <;> omega

/-- Why `CopyCond.idx`: if the name of the index is in scope, its value there is used. The copy succeeds, and it is wrong. -/
theorem shadowed_index_counterexample :
    sem (icW (seCalls.map fun c => [c.1, c.2])) false (implementCopy id icLb 9 7 1 seX 0 [2] none) ((icEnv poD seS).set 2 (.int 0)) [] = some (0, [.call 7 0]) ∧
    ¬ ∃ calls, runSeq (copyCall (icW (seCalls.map fun c => [c.1, c.2])) 7 []) calls [] = some (0, [.call 7 0]) ∧
      Implements calls seS poD (fun x => match x with | [x] => [if x < 2 then x else x + 1] | _ => []) := by
  refine ⟨by decide +kernel, not_implements (x := [2]) (by simp [Buf.InBounds, poD, InB]) ?_⟩
  intro c hc is h1 h2 h3
  simp only [seCalls, List.mem_cons, List.not_mem_nil, or_false] at hc
  subst hc
  have h1 : InB [⟨0, 3, 1, -1⟩] is := h1
  match is, h1 with
  | [i], h1 =>
    simp [InB, poD, Buf.address, Buf.offset, Dim.flatOffset, Dim.unfolded] at h1 h2
    have hi : i = 2 := by omega
    subst hi
    revert h3
    decide +kernel

end Slinky
