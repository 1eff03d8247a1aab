import Verif.ImplementCopyDim
import Verif.ImplementCopyLoops
import Verif.SubstStmt
import Verif.FuseProps

/-!
# C44: `implement_copy`

Specification: `Implements calls S D Y` says that the calls of the function that copies, each with a view of `src` and a part of `dst`, are together the
copy `dst(x) = src(Y x)`: the elements of the parts are the elements of `dst`, and for each of them the element of the view at the same indices is the
element of `src` at the indices `Y x` (or neither is in bounds).
-/

namespace Slinky

/-- Specification: the calls (a view of `src`, a part of `dst`) together copy the element of `S` at `Y x` to the element of `D` at `x`, for each `x`. -/
structure Implements (calls : List (Buf × Buf)) (S D : Buf) (Y : List Int → List Int) : Prop where
  /-- The elements are the same. -/
  elem : ∀ c ∈ calls, c.1.elem = S.elem ∧ c.2.elem = D.elem
  /-- Every element that is written is an element of `dst`, and what is written there is the right element of `src`. -/
  sub : ∀ c ∈ calls, ∀ is, c.2.InBounds is → ∃ x, D.InBounds x ∧ c.2.address is = D.address x ∧ c.1.view is = S.view (Y x)
  /-- Every element of `dst` is written. -/
  cover : ∀ x, D.InBounds x → ∃ c ∈ calls, ∃ is, c.2.InBounds is ∧ c.2.address is = D.address x ∧ c.1.view is = S.view (Y x)

/-- A call of the function that copies, with a view of `src` and a part of `dst`. -/
def copyCall (w : World) (target : Nat) (pads : List Buf) (c : Buf × Buf) (l : List Ev) : Option (Int × List Ev) :=
  some (w.call target [] (c.1 :: c.2 :: pads) [] l, .call target (w.call target [] (c.1 :: c.2 :: pads) [] l) :: l)

/-- The environment with values of all the indices of `dst`. -/
def SEnv.bindAll (ρ : SEnv) (xs : List Nat) (is : List Int) : SEnv := ρ.bindSome xs (is.map some)

/-- The numbers and the metadata of the buffers in scope are 64-bit integers. -/
def SEnv.InRange64 (ρ : SEnv) : Prop := ∀ x, match ρ x with
  | .undef => True
  | .int v => InRange 64 v
  | .buf b => b.InRange64

/-! ### The dimensions have values -/

/-- The constants are 64-bit integers, and the expression depends on the symbols of `F` only. -/
def ExprIn (F : Nat → Prop) (e : Expr) : Prop := e.WF ∧ ∀ z, FreeIn z e → F z

/-- See `ExprIn`. -/
structure DimE.In (F : Nat → Prop) (d : DimE) : Prop where
  min : ExprIn F d.bounds.min
  max : ExprIn F d.bounds.max
  stride : ExprIn F d.stride
  fold : ExprIn F d.fold

theorem ExprIn.mkBin {F : Nat → Prop} {op : BinOp} {a b : Expr} (ha : ExprIn F a) (hb : ExprIn F b) : ExprIn F (mkBin op a b) :=
  ⟨wf_mkBin ha.1 hb.1, fun z h => (free_mkBin.1 h).elim (ha.2 z) (hb.2 z)⟩
theorem ExprIn.var {F : Nat → Prop} {x : Nat} (h : F x) (f : Field) (d : Int) : ExprIn F (.var x f d) := ⟨trivial, fun _ h' => h' ▸ h⟩
theorem ExprIn.const {F : Nat → Prop} {c : Int} (h : InRange 64 c) : ExprIn F (.const c) := ⟨h, fun _ h => h.elim⟩
theorem ExprIn.undef {F : Nat → Prop} : ExprIn F .undef := ⟨trivial, fun _ h => h.elim⟩
theorem ExprIn.select {F : Nat → Prop} {c t f : Expr} (hc : ExprIn F c) (ht : ExprIn F t) (hf : ExprIn F f) : ExprIn F (.select c t f) :=
  ⟨⟨hc.1, ht.1, hf.1⟩, fun z h => by rcases h with h | h | h; exacts [hc.2 z h, ht.2 z h, hf.2 z h]⟩
theorem ExprIn.selectOrUndef {F : Nat → Prop} {c t f : Expr} (hc : ExprIn F c) (ht : ExprIn F t) (hf : ExprIn F f) : ExprIn F (selectOrUndef c t f) := by
  unfold Slinky.selectOrUndef
  split
  · exact hc.select ht hf
  · split <;> assumption

section
variable {simp : Expr → Expr} {lb : Expr → Option Int}

theorem isCopy_in {m : Mem} {X : List Nat} {F : Nat → Prop} (hs : SimpSound simp lb m X) {src k dst x d : Nat} (hd : dst ∉ X) (hx : x ∈ X) (hFs : F src) (hFd : F dst) :
    ∀ {e : Expr} {c : CopyDim}, isCopy simp lb src k dst X x d e = some c → ExprOk X F e → ExprIn F c.at_ ∧ c.dim.In F ∧ c.at_.defined = true := by
  have leaf : ∀ {e : Expr} {c : CopyDim}, (∀ c t f, e ≠ .select c t f) → isCopy simp lb src k dst X x d e = some c → ExprOk X F e →
      ExprIn F c.at_ ∧ c.dim.In F ∧ c.at_.defined = true := by
    intro e c hns h ho
    rcases isCopy_leaf hs hd hx hns ho h with ⟨-, rfl⟩ | ⟨a, b, ⟨oa, ob⟩, -, hc⟩
    · refine ⟨⟨ho.wf, ho.free⟩, ⟨.var hFd _ _, .var hFd _ _, .const (inRange_01 (.inl rfl)), .undef⟩, ?_⟩
      have := ho.ok
      cases e <;> first | rfl | simp [Expr.ok] at this
    · have hsub : ∀ z, FreeIn z (substOthers dst d X 0 e) → F z := fun z hz => by
        rcases substOthers_free hd X 0 e (fun _ h => h) ho.plain hz with ⟨h1, -⟩ | ⟨rfl, -⟩
        · exact ho.free z h1
        · exact hFd
      have ia : ExprIn F a := ⟨oa.wf, fun z hz => hsub z (oa.free z hz).1⟩
      have ib : ExprIn F b := ⟨ob.wf, fun z hz => hsub z (ob.free z hz).1⟩
      have i1 : ExprIn F (.const 1) := .const (inRange_01 (.inr rfl))
      rcases hc with ⟨-, rfl⟩ | rfl
      · exact ⟨((ExprIn.var hFd _ _).mkBin ia).mkBin ib, ⟨.var hFd _ _, .var hFd _ _, (ExprIn.var hFs _ _).mkBin ia, .var hFs _ _⟩, defined_mkBin _ _ _⟩
      · have iat : ExprIn F (mkBin .add (alignUpE (mkBin .sub (bufMin src k) b) a) b) :=
          ((((((ExprIn.var hFs _ _).mkBin ib).mkBin ia).mkBin i1).mkBin ia).mkBin ia).mkBin ib
        have imax : ExprIn F (mkBin .div (mkBin .sub (bufMax src k) b) a) := ((ExprIn.var hFs _ _).mkBin ib).mkBin ia
        have imin : ExprIn F (mkBin .div (mkBin .sub (mkBin .add (alignUpE (mkBin .sub (bufMin src k) b) a) b) b) a) := (iat.mkBin ib).mkBin ia
        exact ⟨iat, ⟨imin, imax, (ExprIn.var hFs _ _).mkBin ia, .var hFs _ _⟩, defined_mkBin _ _ _⟩
  intro e
  induction e using Expr.rec (motive_2 := fun _ => True) (motive_3 := fun _ => True) with
  | select c t f _ iht ihf =>
    intro r h ho
    simp only [isCopy] at h
    split at h
    · next t' f' ht hf =>
      cases h
      have hok := ho.ok
      simp only [Expr.ok, Bool.and_eq_true] at hok
      obtain ⟨t1, t2, -⟩ := iht ht ⟨hok.1.2, ho.wf.2.1, ho.plain.2.1, fun z hz => ho.free z (.inr (.inl hz))⟩
      obtain ⟨f1, f2, -⟩ := ihf hf ⟨hok.2, ho.wf.2.2, ho.plain.2.2, fun z hz => ho.free z (.inr (.inr hz))⟩
      have hc : ExprIn F c := ⟨ho.wf.1, fun z hz => ho.free z (.inl hz)⟩
      refine ⟨hc.select t1 f1, ⟨?_, ?_, hc.selectOrUndef t2.stride f2.stride, hc.selectOrUndef t2.fold f2.fold⟩, rfl⟩
      · simp only [DimE.sel, sel_bounds (isCopy_shape ht) (isCopy_shape hf)]; exact hc.select t2.min f2.min
      · simp only [DimE.sel, sel_bounds (isCopy_shape ht) (isCopy_shape hf)]; exact hc.select t2.max f2.max
    · cases h
  | _ => first | trivial | (intro c h ho; exact leaf (by intro _ _ _ h; cases h) h ho)

theorem isCopy_undef {src k dst x d : Nat} {X : List Nat} : isCopy simp lb src k dst X x d .undef = some ⟨.undef, ⟨bufBounds dst d, .const 0, .undef⟩⟩ := by
  simp [isCopy, dependsOnAny, depsE]

/-- The values of the dimensions of `make_buffer`. -/
theorem evalDimsS_val {w : World} {l : List Ev} {host : Fn → List (Option Int) → Int} {σ ρ : SEnv} (hh : ∀ fn xs, w.host fn xs l = host fn xs) {F : Nat → Prop} {env : Env}
    (he : EnvRel σ ρ env) : ∀ {dims : List DimE} {ds : List Dim}, (∀ d ∈ dims, d.Shape ∧ d.In F) → evalDimsS w l ρ none dims = some ds →
    ds = dims.map (·.val (memS host σ) env) ∧ ∀ d ∈ dims, ∃ v, evalI w l ρ d.bounds.min = some v
  | [], ds, _, h => by simp only [evalDimsS, Option.some.injEq] at h; subst h; simp
  | d :: dims, ds, hd, h => by
    obtain ⟨hs, hI⟩ := hd d (by simp)
    simp only [evalDimsS, evalIvS, Interval.isPoint, hs.same, Bool.and_false, Bool.false_eq_true, if_false, Option.bind_eq_bind, Option.bind_eq_some_iff,
      Option.some.injEq] at h
    obtain ⟨r, h1, b, ⟨mn, h2, mx, h3, rfl⟩, s, h4, f, h5, rfl⟩ := h
    obtain ⟨r1, r2⟩ := evalDimsS_val hh he (fun d hd' => hd d (by simp [hd'])) h1
    refine ⟨?_, fun d' hd' => ?_⟩
    · rw [List.map_cons, ← r1]
      congr 1
      simp only [DimE.val]
      rw [(evalI_eval hh hI.min.1 he h2).1, (evalI_eval hh hI.max.1 he h3).1, (evalI_eval hh hI.stride.1 he h4).1]
      congr 1
      unfold evalDefS at h5
      split at h5
      · next hd => rw [if_pos hd]; exact (evalI_eval hh hI.fold.1 he h5).1.symm
      · next hd => rw [if_neg hd]; exact (Option.some.inj h5).symm
    · rcases List.mem_cons.1 hd' with rfl | hd'
      · exact ⟨mn, h2⟩
      · exact r2 d' hd'

/-- Values do not depend on a symbol that is not in `F`. -/
theorem evalI_in {w : World} {l : List Ev} {ρ ρ' : SEnv} {F : Nat → Prop} {e : Expr} (h : ExprIn F e) (hF : ∀ z, F z → ρ z = ρ' z) : evalI w l ρ e = evalI w l ρ' e := by
  unfold evalI
  rw [evalS_free fun y hy => hF y (h.2 y hy)]

theorem evalDimsS_in {w : World} {l : List Ev} {ρ ρ' : SEnv} {F : Nat → Prop} (hF : ∀ z, F z → ρ z = ρ' z) : ∀ {dims : List DimE}, (∀ d ∈ dims, d.In F) →
    evalDimsS w l ρ none dims = evalDimsS w l ρ' none dims
  | [], _ => rfl
  | d :: dims, h => by
    have hd := h d (by simp)
    have ih := evalDimsS_in (w := w) (l := l) hF (dims := dims) (fun d hd => h d (List.mem_cons_of_mem _ hd))
    simp only [evalDimsS, evalIvS, evalDefS, ih, evalI_in hd.min hF, evalI_in hd.max hF, evalI_in hd.stride hF, evalI_in hd.fold hF]

/-! ### The view -/

theorem containsL_setIdx {z' : Int} : ∀ {ds : List Dim} {zs : List Int} {k : Nat} {z : Int}, zs[k]? = some z → ∀ {b : Bool},
    (((ds[k]?).getD Dim.broadcast).contains z' && b) = ((ds[k]?).getD Dim.broadcast).contains z → (b && Buf.containsL ds (zs.set k z')) = Buf.containsL ds zs := by
  intro ds
  induction ds with
  | nil =>
    intro zs k z _ b h
    simp only [List.getElem?_nil, Option.getD_none, Dim.contains, Dim.containsI, Dim.broadcast, decide_true, Bool.true_or, Bool.true_and] at h
    simp [Buf.containsL, h]
  | cons d ds ih =>
    intro zs k z hz b h
    cases zs with
    | nil => simp at hz
    | cons y zs =>
      cases k with
      | zero =>
        simp only [List.getElem?_cons_zero, Option.some.injEq, Option.getD_some] at hz h
        subst hz
        simp only [List.set_cons_zero, Buf.containsL, ← h]
        cases b <;> simp
      | succ k =>
        simp only [List.getElem?_cons_succ] at hz h
        simp only [List.set_cons_succ, Buf.containsL, ← ih hz h]
        cases b <;> simp

theorem offset_setIdx {z' : Int} : ∀ {ds : List Dim} {zs : List Int} {k : Nat} {z : Int}, zs[k]? = some z → ∀ {o : Int},
    ((ds[k]?).getD Dim.broadcast).flatOffset z' + o = ((ds[k]?).getD Dim.broadcast).flatOffset z → o + Buf.offset ds (zs.set k z') = Buf.offset ds zs := by
  intro ds
  induction ds with
  | nil =>
    intro zs k z _ o h
    simp only [List.getElem?_nil, Option.getD_none, Dim.flatOffset, Dim.broadcast, true_or, if_true, mul_zero, zero_add] at h
    simp [Buf.offset, h]
  | cons d ds ih =>
    intro zs k z hz o h
    cases zs with
    | nil => simp at hz
    | cons y zs =>
      cases k with
      | zero =>
        simp only [List.getElem?_cons_zero, Option.some.injEq, Option.getD_some] at hz h
        subst hz
        simp only [List.set_cons_zero, Buf.offset, ← h]
        ring
      | succ k =>
        simp only [List.getElem?_cons_succ] at hz h
        simp only [List.set_cons_succ, Buf.offset, ← ih hz h]
        ring


theorem isCopyDstDim_some {x : Nat} : ∀ {es : List Expr} {k0 k : Nat}, isCopyDstDim x es k0 = some (some k) → k0 ≤ k ∧ ∃ e, es[k - k0]? = some e ∧ anyDep (dependsOn e x) = true
  | [], k0, k, h => by simp [isCopyDstDim] at h
  | e :: es, k0, k, h => by
    simp only [isCopyDstDim] at h
    split at h
    · next hd =>
      split at h
      · cases h; exact ⟨le_rfl, e, by simp, hd⟩
      · cases h
    · obtain ⟨h1, e', h2, h3⟩ := isCopyDstDim_some h
      refine ⟨by omega, e', ?_, h3⟩
      rw [show k - k0 = (k - (k0 + 1)) + 1 by omega, List.getElem?_cons_succ]
      exact h2

/-- The index `x`, number `d`, of `dst` passes through, to the index number `k` of `src`. -/
def PassesTo (simp : Expr → Expr) (lb : Expr → Option Int) (src : Nat) (srcX : List Expr) (dst : Nat) (dstX : List Nat) (x d k : Nat) : Prop :=
  ∃ c, copyStep simp lb src srcX dst dstX x d = some (some k, c)

theorem copyStep_some {src dst x d k : Nat} {srcX : List Expr} {dstX : List Nat} {c : CopyDim} (h : copyStep simp lb src srcX dst dstX x d = some (some k, c)) :
    ∃ e, srcX[k]? = some e ∧ anyDep (dependsOn e x) = true ∧ isCopy simp lb src k dst dstX x d e = some c := by
  unfold copyStep at h
  split at h
  · cases h
  · simp at h
  · next k' hk =>
    obtain ⟨h1, e, h2, h3⟩ := isCopyDstDim_some hk
    simp only [Option.map_eq_some_iff, Prod.mk.injEq, Option.some.injEq] at h
    obtain ⟨c', h4, rfl, rfl⟩ := h
    simp only [Nat.sub_zero] at h2
    rw [h2, Option.getD_some] at h4
    exact ⟨e, h2, h3, h4⟩

theorem copyStep_none {src dst x d : Nat} {srcX : List Expr} {dstX : List Nat} {c : CopyDim} (h : copyStep simp lb src srcX dst dstX x d = some (none, c)) :
    c = ⟨.undef, ⟨bufBounds dst d, .const 0, .undef⟩⟩ := by
  unfold copyStep at h
  split at h
  · cases h
  · simp only [isCopy_undef, Option.map_some, Option.some.injEq, Prod.mk.injEq, true_and] at h
    exact h.symm
  · simp at h

section
variable {src dst : Nat} {srcX : List Expr} {dstX : List Nat} {F : Nat → Prop} {m : Mem}

/-- The form of the results of the loop over the indices of `dst`. -/
theorem copyDims_facts (hs : SimpSound simp lb m dstX) (hd : dst ∉ dstX) (hFs : F src) (hFd : F dst) (hX : ∀ e ∈ srcX, ExprOk dstX F e) :
    ∀ (xs : List Nat) (d : Nat) (sx : List Expr), (∀ x ∈ xs, x ∈ dstX) → (∀ e ∈ sx, ExprIn F e ∧ e.defined = true) →
    (copyDims simp lb src srcX dst dstX xs d sx).pass.length = xs.length ∧
    (∀ e ∈ (copyDims simp lb src srcX dst dstX xs d sx).srcX, ExprIn F e ∧ e.defined = true) ∧
    (∀ δ ∈ (copyDims simp lb src srcX dst dstX xs d sx).dims, δ.Shape ∧ δ.In F)
  | [], d, sx, _, h => ⟨rfl, h, by simp [copyDims]⟩
  | x :: xs, d, sx, hx, h => by
    have ih := fun sx => copyDims_facts hs hd hFs hFd hX xs (d + 1) sx (fun y hy => hx y (by simp [hy]))
    unfold copyDims
    split
    · obtain ⟨i1, i2, i3⟩ := ih sx h
      exact ⟨by simp [i1], i2, i3⟩
    · next k c hc =>
      have hsx : ∀ e ∈ setCopyX k c.at_ sx, ExprIn F e ∧ e.defined = true := by
        cases k with
        | none => exact h
        | some k =>
          simp only [setCopyX]
          split
          · next hdef =>
            obtain ⟨e, h1, -, h3⟩ := copyStep_some hc
            intro e' he'
            rcases List.mem_or_eq_of_mem_set he' with he' | rfl
            · exact h e' he'
            · exact ⟨(isCopy_in hs hd (hx x (by simp)) hFs hFd h3 (hX e (List.mem_of_getElem? h1))).1, hdef⟩
          · exact h
      obtain ⟨i1, i2, i3⟩ := ih _ hsx
      refine ⟨by simp [i1], i2, fun δ hδ => ?_⟩
      rcases List.mem_cons.1 hδ with rfl | hδ
      · cases k with
        | none =>
          rw [copyStep_none hc]
          exact ⟨⟨rfl, rfl, .inr fun m env => by simp [eval]⟩, .var hFd _ _, .var hFd _ _, .const (inRange_01 (.inl rfl)), .undef⟩
        | some k =>
          obtain ⟨e, h1, -, h3⟩ := copyStep_some hc
          exact ⟨isCopy_shape h3, (isCopy_in hs hd (hx x (by simp)) hFs hFd h3 (hX e (List.mem_of_getElem? h1))).2.1⟩
      · exact i3 δ hδ

/-- `src_x` and the dimensions are a view of `src`. `R` are all the dimensions, `is` are the indices that pass through. -/
theorem copyDims_view {S : Buf} {env : Env} {R : List DimE}
    (hdef : ∀ d x k c, dstX[d]? = some x → copyStep simp lb src srcX dst dstX x d = some (some k, c) → c.at_.defined = true)
    (hfit : ∀ d x k c e, dstX[d]? = some x → copyStep simp lb src srcX dst dstX x d = some (some k, c) → c.dim ∈ R → srcX[k]? = some e →
      CopyFits (S.dim k) (eval m env c.at_) (c.dim.val m env) (env x) (eval m env e))
    (huniq : ∀ d d' x x' k, dstX[d]? = some x → dstX[d']? = some x' → PassesTo simp lb src srcX dst dstX x d k → PassesTo simp lb src srcX dst dstX x' d' k → d = d') :
    ∀ (xs : List Nat) (d : Nat) (sx : List Expr), dstX.drop d = xs → (∀ δ ∈ (copyDims simp lb src srcX dst dstX xs d sx).dims, δ ∈ R) →
    (∀ d' x k, d ≤ d' → dstX[d']? = some x → PassesTo simp lb src srcX dst dstX x d' k → sx[k]? = srcX[k]?) →
    ∀ (vs : List (Option Int)) (is : List Int), vs.map Option.isNone = (copyDims simp lb src srcX dst dstX xs d sx).pass → xs.map env = weave vs is →
    (Buf.containsL ((copyDims simp lb src srcX dst dstX xs d sx).dims.map (·.val m env)) is &&
        Buf.containsL S.dims ((copyDims simp lb src srcX dst dstX xs d sx).srcX.map (eval m env))) = Buf.containsL S.dims (sx.map (eval m env)) ∧
      Buf.offset ((copyDims simp lb src srcX dst dstX xs d sx).dims.map (·.val m env)) is +
        Buf.offset S.dims ((copyDims simp lb src srcX dst dstX xs d sx).srcX.map (eval m env)) = Buf.offset S.dims (sx.map (eval m env))
  | [], d, sx, _, _, _, vs, is, _, _ => by simp [copyDims, Buf.containsL, Buf.offset]
  | x :: xs, d, sx, hdrop, hR, hsx, vs, is, hp, hw => by
    have hxd : dstX[d]? = some x := by
      have := congrArg (·[0]?) hdrop
      simpa using this
    have hdrop' : dstX.drop (d + 1) = xs := by
      have := congrArg List.tail hdrop
      simpa using this
    have ih := fun sx => copyDims_view hdef hfit huniq xs (d + 1) sx hdrop'
    revert hp hR
    unfold copyDims
    split
    · intro hR hp
      cases vs with
      | nil => simp at hp
      | cons v vs =>
        simp only [List.map_cons, List.cons.injEq] at hp
        cases v with
        | none => simp at hp
        | some i =>
          simp only [List.map_cons, weave, List.cons.injEq] at hw
          exact ih sx hR (fun d' x k hd' => hsx d' x k (by omega)) vs is hp.2 hw.2
    · next k c hc =>
      intro hR hp
      cases vs with
      | nil => simp at hp
      | cons v vs =>
        simp only [List.map_cons, List.cons.injEq] at hp
        cases v with
        | some i => simp at hp
        | none =>
          cases is with
          | nil => simp [weave] at hw
          | cons i is =>
            simp only [List.map_cons, weave, List.cons.injEq] at hw
            have hcR : c.dim ∈ R := hR c.dim (by simp)
            cases k with
            | none =>
              have h0 : (c.dim.val m env).stride = 0 := by rw [copyStep_none hc]; simp [DimE.val, eval]
              simp only [setCopyX] at hR hp ⊢
              obtain ⟨g1, g2⟩ := ih sx (fun δ hδ => hR δ (by simp [hδ])) (fun d' x k hd' => hsx d' x k (by omega)) vs is hp.2 hw.2
              simp only [List.map_cons, Buf.containsL, Buf.offset]
              rw [← g1, ← g2, flatOffset_linear (.inl h0), h0, contains_iff.2 (.inl h0)]
              simp
            | some k =>
              have hpass : PassesTo simp lb src srcX dst dstX x d k := ⟨c, hc⟩
              obtain ⟨e, h1, -, h3⟩ := copyStep_some hc
              have hset : setCopyX (some k) c.at_ sx = sx.set k c.at_ := by
                simp [setCopyX, hdef d x k c hxd hc]
              rw [hset] at hp hR ⊢
              obtain ⟨g1, g2⟩ := ih (sx.set k c.at_) (fun δ hδ => hR δ (List.mem_cons_of_mem _ hδ)) (fun d' x' k' hd' hx' hp' => by
                by_cases hk : k = k'
                · subst hk
                  have := huniq d d' x x' k hxd hx' hpass hp'
                  omega
                · rw [List.getElem?_set_ne hk]
                  exact hsx d' x' k' (by omega) hx' hp') vs is hp.2 hw.2
              have hfits := hfit d x k c e hxd hc hcR h1
              have hk : (sx.map (eval m env))[k]? = some (eval m env e) := by
                rw [List.getElem?_map, hsx d x k le_rfl hxd hpass, h1]; rfl
              rw [hw.1] at hfits
              simp only [List.map_cons, Buf.containsL, Buf.offset, Bool.and_assoc, add_assoc, g1, g2, List.map_set]
              exact ⟨containsL_setIdx hk hfits.1, offset_setIdx hk hfits.2⟩

end

theorem trim_view : ∀ (ds : List Dim) (is : List Int), Buf.containsL (ds.take (trimRank ds)) is = Buf.containsL ds is ∧ Buf.offset (ds.take (trimRank ds)) is = Buf.offset ds is
  | [], is => by simp [trimRank]
  | d :: ds, [] => by
    have : ∀ ds : List Dim, Buf.containsL ds [] = true ∧ Buf.offset ds [] = 0 := fun ds => by cases ds <;> simp [Buf.containsL, Buf.offset]
    simp [this]
  | d :: ds, i :: is => by
    obtain ⟨h1, h2⟩ := trim_view ds is
    unfold trimRank
    split
    · next h =>
      rw [h] at h1 h2
      simp only [List.take_zero, Buf.containsL, Buf.offset] at h1 h2
      split
      · next hb =>
        simp only [Dim.isBroadcast, decide_eq_true_eq] at hb
        simp [Buf.containsL, Buf.offset, ← h1, ← h2, Dim.contains, Dim.containsI, Dim.flatOffset, hb]
      · simp [Buf.containsL, Buf.offset, ← h1, ← h2]
    · next n h =>
      rw [h] at h1 h2
      simp [Buf.containsL, Buf.offset, h1, h2]

theorem bufferAt_view (e : Int) : ∀ (ds : List Dim) (is : List Int) (p : Option Int), bufferAt p ds (is.map some) = (⟨p, e, ds⟩ : Buf).view is
  | [], is, p => by cases is <;> simp [bufferAt, Buf.view, Buf.contains, Buf.containsL, Buf.address, Buf.offset]
  | d :: ds, [], p => by simp [bufferAt, Buf.view, Buf.contains, Buf.containsL, Buf.address, Buf.offset]
  | d :: ds, i :: is, p => by
    simp only [List.map_cons, bufferAt]
    rw [bufferAt_view e ds is]
    cases p with
    | none => simp [Buf.view, Buf.address]
    | some p =>
      by_cases h : d.contains i = true
      · simp [Buf.view, Buf.address, Buf.contains, Buf.containsL, Buf.offset, h, add_assoc]
      · simp [Buf.view, Buf.address, Buf.contains, Buf.containsL, h]

end

end Slinky
