import Verif.SimplifierThm

/-!
# C17, C18: `simplify`, `bounds_of`, `prove_true`, `prove_false` and `attempt_to_prove` of expressions

The theorems hold for every amount of fuel, every expression, every environment in which the given bounds and alignments are
true, and every memory with buffers that fulfil `BufMem`. They are partial because they are about the guarded version of the
simplifier (`SimpCfgOK`, for example `safeCfg`); the counterexamples below show what goes wrong in the C++ (`cppCfg`) without
the guards. The intervals (simplify.cc:509-530, 2486-2510) are not modelled.
-/

namespace Slinky

/-! ### Specification -/

/-- The bounds and alignments that the user gives are true. -/
structure Assumed (m : Mem) (ρ : Env) (bounds : Nat → Option Interval) (align : Nat → Option MR) : Prop where
  bounds : ∀ x i, bounds x = some i → Encl m ρ i (ρ x)
  align : ∀ x a, align x = some a → MR.Mem (ρ x) a

section
variable {m : Mem} {cfg : SimpCfg} {bounds : Nat → Option Interval} {align : Nat → Option MR}

theorem Assumed.init {ρ : Env} (h : Assumed m ρ bounds align) : StateOK m ρ (.init bounds align) := by
  refine ⟨fun x i hi => ?_, fun x b hb => by simp [SState.init] at hb⟩
  simp only [SState.init] at hi
  have hu : ∀ v, v = SInfo.known (⟨.unbounded, {}, .undef⟩ : SInfo) → ¬ v.ok = true := by rintro v rfl; simp [Expr.ok]
  split at hi
  · cases hi
  · next b hb _ => cases hi; exact ⟨h.bounds x _ hb, MR.mem_default _, fun h => by simp [Expr.ok] at h⟩
  · next a _ ha => cases hi; exact ⟨Encl.unbounded _, h.align x _ ha, fun h => by simp [Expr.ok] at h⟩
  · next b a hb ha => cases hi; exact ⟨h.bounds x _ hb, h.align x _ ha, fun h => by simp [Expr.ok] at h⟩

/-- C17 (partial): simplification preserves the value of an expression, for all values of the variables for which the given
bounds and alignments are true. -/
theorem simplify_sound_partial (hm : BufMem m) (hc : ∀ ρ, SimpCfgOK cfg m ρ) (n : Nat) {e : Expr} (ho : e.ok = true) :
    (simplify cfg n e bounds align).ok = true ∧
      ∀ ρ, Assumed m ρ bounds align → eval m ρ (simplify cfg n e bounds align) = eval m ρ e := by
  have h := mutateN_sound hm hc n (.init bounds align) e ho
  exact ⟨h.1, fun ρ ha => (h.2 ρ ha.init).value⟩

/-- C17 (partial): the bounds of an expression contain its value. -/
theorem boundsOf_sound_partial (hm : BufMem m) (hc : ∀ ρ, SimpCfgOK cfg m ρ) (n : Nat) {e : Expr} (ho : e.ok = true) (ρ : Env)
    (ha : Assumed m ρ bounds align) : Encl m ρ (boundsOf cfg n e bounds align) (eval m ρ e) :=
  ((mutateN_sound hm hc n (.init bounds align) e ho).2 ρ ha.init).info.bounds

/-- C17 (partial): the alignment computed for an expression contains its value. -/
theorem alignment_sound_partial (hm : BufMem m) (hc : ∀ ρ, SimpCfgOK cfg m ρ) (n : Nat) {e : Expr} (ho : e.ok = true) (ρ : Env)
    (ha : Assumed m ρ bounds align) : MR.Mem (eval m ρ e) (mutateN cfg n (.init bounds align) e).2.align :=
  ((mutateN_sound hm hc n (.init bounds align) e ho).2 ρ ha.init).info.align

/-- C18 (partial): what `prove_true` says is true, is true. -/
theorem proveTrue_sound_partial (hm : BufMem m) (hc : ∀ ρ, SimpCfgOK cfg m ρ) (n : Nat) {e : Expr} (ho : e.ok = true)
    (hp : proveTrue cfg n e bounds align = true) (ρ : Env) (ha : Assumed m ρ bounds align) : eval m ρ e ≠ 0 :=
  proveTrueS_sound hc (mutateN_sound hm hc n) ho ha.init hp

/-- C18 (partial): what `prove_false` says is false, is false. -/
theorem proveFalse_sound_partial (hm : BufMem m) (hc : ∀ ρ, SimpCfgOK cfg m ρ) (n : Nat) {e : Expr} (ho : e.ok = true)
    (hp : proveFalse cfg n e bounds align = true) (ρ : Env) (ha : Assumed m ρ bounds align) : eval m ρ e = 0 :=
  proveFalseS_sound hc (mutateN_sound hm hc n) ho ha.init hp

/-- C18 (partial): `attempt_to_prove` is right if it has an answer. -/
theorem attemptToProve_sound_partial (hm : BufMem m) (hc : ∀ ρ, SimpCfgOK cfg m ρ) (n : Nat) {e : Expr} (ho : e.ok = true)
    {p : Bool} (hp : attemptToProve cfg n e bounds align = some p) (ρ : Env) (ha : Assumed m ρ bounds align) :
    eval m ρ e ≠ 0 ↔ p = true := by
  obtain ⟨h1, h2⟩ := whereTrue_sound hc (mutateN_sound hm hc n) ho ha.init
  rw [← attemptI_sound (hc ρ) h1 h2 hp]
  exact b2i_ne.symm

/-- C18 (partial): nothing is both proven true and proven false, unless the assumptions are contradictory. -/
theorem prove_consistent_partial (hm : BufMem m) (hc : ∀ ρ, SimpCfgOK cfg m ρ) (n k : Nat) {e : Expr} (ho : e.ok = true)
    (h1 : proveTrue cfg n e bounds align = true) (h2 : proveFalse cfg k e bounds align = true) (ρ : Env) :
    ¬ Assumed m ρ bounds align := fun ha =>
  proveTrue_sound_partial hm hc n ho h1 ρ ha (proveFalse_sound_partial hm hc k ho h2 ρ ha)

end

/-! ### The guarded version -/

section
variable {m : Mem} {bounds : Nat → Option Interval} {align : Nat → Option MR}

/-- C17: the guarded simplifier, without conditions about the guards. -/
theorem simplify_safe (hm : BufMem m) (n : Nat) {e : Expr} (ho : e.ok = true) (ρ : Env) (ha : Assumed m ρ bounds align) :
    eval m ρ (simplify (safeCfg m.call) n e bounds align) = eval m ρ e :=
  (simplify_sound_partial hm (fun ρ => safeCfg_ok m ρ hm.toBufferAtMin) n ho).2 ρ ha

/-- C18: the guarded prover, without conditions about the guards. -/
theorem proveTrue_safe (hm : BufMem m) (n : Nat) {e : Expr} (ho : e.ok = true)
    (hp : proveTrue (safeCfg m.call) n e bounds align = true) (ρ : Env) (ha : Assumed m ρ bounds align) : eval m ρ e ≠ 0 :=
  proveTrue_sound_partial hm (fun ρ => safeCfg_ok m ρ hm.toBufferAtMin) n ho hp ρ ha

end

/-! ### Memories with buffers -/

/-- A dimension in which an index equal to the min is the default: it is not empty and not folded, or it is a broadcast. -/
def Dim.MinIsDefault (d : Dim) : Prop := d.stride = 0 ∨ (d.fold = Dim.unfolded ∧ d.min ≤ d.max)

/-- The field of a buffer (evaluate.cc:54-91 `eval_buffer_field`); the size in bytes is not used here. -/
def Buf.field (b : Buf) (f : Field) (d : Int) : Int :=
  let dd := if 0 ≤ d then b.dim d.toNat else Dim.broadcast
  match f with
  | .rank => b.rank
  | .elemSize => b.elem
  | .min => dd.min
  | .max => dd.max
  | .stride => dd.stride
  | .foldFactor => dd.fold
  | _ => 0

/-- A memory with a buffer at every pointer. -/
def memOf (bufs : Int → Buf) : Mem :=
  ⟨fun p f d => (bufs p).field f d,
   fun f xs => match f, xs with
    | .bufferAt, some p :: xs => bufferAtLoop ((bufs p).base.getD 0) (bufs p).dims xs
    | _, _ => 0, 0⟩

theorem bufferAtLoop_index (x : Int) : ∀ (ds : List Dim) (r : Int) (xs ys : List (Option Int)),
    (∀ d, ds[xs.length]? = some d → d.contains x = true ∧ d.flatOffset x = 0) →
    bufferAtLoop r ds (xs ++ some x :: ys) = bufferAtLoop r ds (xs ++ none :: ys)
  | [], _, xs, ys, _ => by cases xs <;> simp [bufferAtLoop]
  | d :: ds, r, [], ys, h => by
    obtain ⟨h1, h2⟩ := h d (by simp)
    simp only [List.nil_append, bufferAtLoop, h1, h2]
    congr 1
    by_cases hr : r = 0 <;> simp [hr]
  | d :: ds, r, none :: xs, ys, h => by
    simp only [List.cons_append, bufferAtLoop]
    exact bufferAtLoop_index x ds r xs ys (fun d hd => h d (by simpa using hd))
  | d :: ds, r, some z :: xs, ys, h => by
    simp only [List.cons_append, bufferAtLoop]
    exact bufferAtLoop_index x ds _ xs ys (fun d hd => h d (by simpa using hd))

theorem bufferAtLoop_trail : ∀ (ds : List Dim) (r : Int) (xs : List (Option Int)),
    bufferAtLoop r ds (xs ++ [none]) = bufferAtLoop r ds xs
  | [], _, xs => by cases xs <;> simp [bufferAtLoop]
  | d :: ds, r, [] => by cases ds <;> simp [bufferAtLoop]
  | d :: ds, r, none :: xs => by simp only [List.cons_append, bufferAtLoop]; exact bufferAtLoop_trail ds r xs
  | d :: ds, r, some z :: xs => by simp only [List.cons_append, bufferAtLoop]; exact bufferAtLoop_trail ds _ xs

theorem bufferAtLoop_rank : ∀ (ds : List Dim) (r : Int) (xs ys : List (Option Int)), xs.length = ds.length →
    bufferAtLoop r ds (xs ++ ys) = bufferAtLoop r ds xs
  | [], _, xs, ys, h => by
    have : xs = [] := List.length_eq_zero_iff.1 h
    subst this; cases ys <;> simp [bufferAtLoop]
  | d :: ds, r, [], ys, h => by simp at h
  | d :: ds, r, none :: xs, ys, h => by
    simp only [List.cons_append, bufferAtLoop]; exact bufferAtLoop_rank ds r xs ys (by simpa using h)
  | d :: ds, r, some z :: xs, ys, h => by
    simp only [List.cons_append, bufferAtLoop]; exact bufferAtLoop_rank ds _ xs ys (by simpa using h)

/-- The hypothesis about the memory is true for memories with non-empty, unfolded buffers. -/
theorem memOf_ok {bufs : Int → Buf} (he : ∀ p, 0 ≤ (bufs p).elem) (hd : ∀ p, ∀ d ∈ (bufs p).dims, d.MinIsDefault) :
    BufMem (memOf bufs) where
  min p xs ys := by
    refine bufferAtLoop_index _ _ _ xs ys fun d h => ?_
    have hp := hd p d (List.mem_of_getElem? h)
    have e : (bufs p).dim xs.length = d := by simp [Buf.dim, h]
    simp only [memOf, Buf.field, Int.natCast_nonneg, if_true, Int.toNat_natCast, e]
    rcases hp with hp | ⟨hp, hle⟩
    · simp [Dim.contains, Dim.containsI, Dim.flatOffset, hp]
    · simp [Dim.contains, Dim.containsI, Dim.flatOffset, hp, hle]
  trail p xs := bufferAtLoop_trail _ _ xs
  rank_nonneg p d := by simp [memOf, Buf.field]
  rank_dim p d d' := rfl
  elem_nonneg p d := he p
  elem_dim p d d' := rfl
  beyond p f d hf hr := by
    have h0 : (0 : Int) ≤ (bufs p).rank := Int.natCast_nonneg _
    simp only [memOf, Buf.field] at hr ⊢
    have : (bufs p).dim d.toNat = Dim.broadcast := by
      have : (bufs p).dims[d.toNat]? = none := List.getElem?_eq_none (by unfold Buf.rank at hr; omega)
      simp [Buf.dim, this]
    cases f <;> simp [Field.ofDim] at hf <;> simp [Dim.broadcast, this] 
  atRank p xs ys h := bufferAtLoop_rank _ _ xs ys (by
    simp only [memOf, Buf.field, Buf.rank] at h; exact_mod_cast h)
  atBcast p xs x ys h := by
    refine bufferAtLoop_index _ _ _ xs ys fun d hd => ?_
    have e : (bufs p).dim xs.length = d := by simp [Buf.dim, hd]
    simp only [memOf, Buf.field, Int.natCast_nonneg, if_true, Int.toNat_natCast, e] at h
    simp [Dim.contains, Dim.containsI, Dim.flatOffset, h]

/-! ### Examples -/

/-- A memory with 2D buffers. -/
def mem2D : Mem := memOf fun p => ⟨some (1000 + p), 4, [⟨0, 9, 4, -1⟩, ⟨5, 7, 40, -1⟩]⟩

theorem mem2D_ok : BufMem mem2D := memOf_ok (fun _ => by simp) (fun p d h => by
  simp only [List.mem_cons, List.not_mem_nil, or_false] at h
  rcases h with rfl | rfl <;> simp [Dim.MinIsDefault, Dim.unfolded])

/-- `0 ≤ x ≤ 10`, and `x = 3 (mod 8)`. -/
def exBounds : Nat → Option Interval := fun x => if x = 0 then some (.bounds (.const 0) (.const 10)) else none
/-- See `exBounds`. -/
def exAlign : Nat → Option MR := fun x => if x = 0 then some ⟨8, 3⟩ else none

example : Assumed mem2D (fun _ => 3) exBounds exAlign :=
  ⟨fun x i h => by
    simp only [exBounds] at h; split at h <;> cases h
    exact .bounds (lo_const (by omega)) (hi_const (by omega)),
   fun x a h => by
    simp only [exAlign] at h; split at h <;> cases h
    simp [MR.Mem]⟩

example : simplify (safeCfg mem2D.call) 8 (.bin .mod (.bin .add (.v 0) (.const 1)) (.const 4)) exBounds exAlign = .const 0 := by
  decide +kernel
example : simplify (safeCfg mem2D.call) 8 (.bin .min (.v 0) (.bin .max (.v 1) (.const 12))) exBounds exAlign = .v 0 := by
  decide +kernel
example : proveTrue (safeCfg mem2D.call) 8 (.bin .lt (.v 0) (.const 11)) exBounds exAlign = true := by decide +kernel
example : proveFalse (safeCfg mem2D.call) 8 (.bin .eq (.bin .mul (.v 0) (.const 2)) (.const 30)) exBounds exAlign = true := by
  decide +kernel
example : simplify (safeCfg mem2D.call) 8 (.select (.bin .lt (.v 1) (.v 2)) (.bin .min (.v 1) (.v 2)) (.const 0)) exBounds exAlign =
    .select (.bin .lt (.v 1) (.v 2)) (.v 1) (.const 0) := by decide +kernel
example : simplify (safeCfg mem2D.call) 8 (.lets (.cons 5 (.const 4) .nil) (.bin .add (.v 1) (.v 5))) exBounds exAlign =
    .bin .add (.v 1) (.const 4) := by decide +kernel
example : boundsOf (safeCfg mem2D.call) 8 (.bin .mul (.v 0) (.const 3)) exBounds exAlign =
    ⟨.const 9, .const 9, true⟩ := by decide +kernel

/-! ### Counterexamples: what the guards are for -/

/-- Nothing is known. -/
def noBounds : Nat → Option Interval := fun _ => none
/-- Nothing is known. -/
def noAlign : Nat → Option MR := fun _ => none

theorem assumed_nothing (m : Mem) (ρ : Env) : Assumed m ρ noBounds noAlign :=
  ⟨fun _ _ h => by simp [noBounds] at h, fun _ _ h => by simp [noAlign] at h⟩

/-- C17, counterexample: simplify.cc:635-644 learns `x < 3` from `x < max(y, 3)`, and simplifies
`select(x < max(y, 3), x < 3, w)` to `select(x < max(y, 3), 1, w)`, which is different for x = 5, y = 9. -/
theorem simplify_less_max_counterexample : ∃ (e : Expr) (n : Nat) (ρ : Env), e.ok = true ∧
    eval memNoHost ρ (simplify (cppCfg noHost) n e noBounds noAlign) ≠ eval memNoHost ρ e := by
  refine ⟨.select (.bin .lt (.v 0) (.bin .max (.v 1) (.const 3))) (.bin .lt (.v 0) (.const 3)) (.v 2), 8,
    fun x => if x = 0 then 5 else 9, by decide, ?_⟩
  have h : simplify (cppCfg noHost) 8 (.select (.bin .lt (.v 0) (.bin .max (.v 1) (.const 3))) (.bin .lt (.v 0) (.const 3)) (.v 2))
      noBounds noAlign = .select (.bin .lt (.v 0) (.bin .max (.v 1) (.const 3))) (.const 1) (.v 2) := by decide +kernel
  rw [h]
  simp [eval, Expr.v, BinOp.denote, b2i]

/-- C17, counterexample: simplify.cc:680-697 remembers that a condition that is true is 1, even if it is not a boolean:
`select(x + y, x + y, w)` is simplified to `select(x + y, 1, w)`. -/
theorem simplify_nonbool_counterexample : ∃ (e : Expr) (n : Nat) (ρ : Env), e.ok = true ∧
    eval memNoHost ρ (simplify (cppCfg noHost) n e noBounds noAlign) ≠ eval memNoHost ρ e := by
  refine ⟨.select (.bin .add (.v 0) (.v 1)) (.bin .add (.v 0) (.v 1)) (.v 2), 8, fun _ => 1, by decide, ?_⟩
  have h : simplify (cppCfg noHost) 8 (.select (.bin .add (.v 0) (.v 1)) (.bin .add (.v 0) (.v 1)) (.v 2))
      noBounds noAlign = .select (.bin .add (.v 0) (.v 1)) (.const 1) (.v 2) := by decide +kernel
  rw [h]
  simp [eval, Expr.v, BinOp.denote]

/-- C17, counterexample: simplify.cc:1156-1158 drops the index 0 of `buffer_at` if the fold factor is known, even if it is
known that the dimension is not folded: `select(buffer_fold_factor(b, 0) == -1, buffer_at(b, 0), w)` is simplified to
`select(buffer_fold_factor(b, 0) == -1, buffer_at(b), w)`, which is different if the min is not 0. -/
theorem simplify_fold_zero_counterexample : ∃ (m : Mem) (e : Expr) (n : Nat) (ρ : Env), BufMem m ∧ e.ok = true ∧
    eval m ρ (simplify (cppCfg m.call) n e noBounds noAlign) ≠ eval m ρ e := by
  refine ⟨memOf fun _ => ⟨some 1000, 4, [⟨-2, 5, 4, -1⟩]⟩,
    .select (.bin .eq (.var 0 .foldFactor 0) (.const (-1))) (.call .bufferAt (.cons (.v 0) (.cons (.const 0) .nil))) (.v 1), 8,
    fun _ => 0, memOf_ok (fun _ => by simp) (fun p d h => by
      simp only [List.mem_cons, List.not_mem_nil, or_false] at h
      subst h; simp [Dim.MinIsDefault, Dim.unfolded]), by decide, ?_⟩
  decide +kernel

/-- C17, counterexample: simplify.cc:1250-1256 returns the bounds of the body of a let, which may mention the variables of
the let: the max of `let u = y*y in select(z < u, z, 0)` is computed with `u`, which has nothing to do with the value that `u`
has outside of the let. -/
theorem boundsOf_let_counterexample : ∃ (e : Expr) (n : Nat) (ρ : Env), e.ok = true ∧
    ¬ Encl memNoHost ρ (boundsOf (cppCfg noHost) n e noBounds noAlign) (eval memNoHost ρ e) := by
  refine ⟨.lets (.cons 0 (.bin .mul (.v 1) (.v 1)) .nil) (.select (.bin .lt (.v 2) (.v 0)) (.v 2) (.const 0)),
    8, fun x => if x = 2 then 50 else if x = 1 then 10 else 0, by decide, fun h => ?_⟩
  have h1 := h.hi.2 (by decide +kernel)
  revert h1
  decide +kernel

/-- C17, counterexample: the alignment of `x % y` is wrong if the alignment of y is not normalized, for example
`y = 4 (mod 4)`, and y is 0: `(x % y) % 4` is simplified to 3 for `x = 3 (mod 8)`. -/
theorem simplify_mod_counterexample : ∃ (e : Expr) (al : Nat → Option MR) (n : Nat) (ρ : Env), e.ok = true ∧
    Assumed memNoHost ρ noBounds al ∧ eval memNoHost ρ (simplify (cppCfg noHost) n e noBounds al) ≠ eval memNoHost ρ e := by
  refine ⟨.bin .mod (.bin .mod (.v 0) (.v 1)) (.const 4), fun x => if x = 0 then some ⟨8, 3⟩ else if x = 1 then some ⟨4, 4⟩ else none,
    8, fun x => if x = 0 then 3 else 0, by decide, ⟨fun _ _ h => by simp [noBounds] at h, fun x a h => ?_⟩, ?_⟩
  · split at h
    · next hx => subst hx; cases h; simp [MR.Mem]
    · split at h
      · next hx => subst hx; cases h; exact ⟨-1, by simp⟩
      · cases h
  · decide +kernel

end Slinky
