import Verif.ImplementCopyThm
import Verif.SemStmt

/-! # C44: `implement_copy`, the theorem -/

namespace Slinky

/-! ### Values of the indices -/

/-- The values of the symbols in scope. -/
def SEnv.env (ρ : SEnv) : Env := fun y => match ρ y with
  | .int v => v
  | _ => y

/-- The environment with values of the indices. -/
def Env.bindI (env : Env) : List Nat → List Int → Env
  | x :: xs, i :: is => (env.bindI xs is).set x i
  | _, _ => env

theorem envRel_self {ρ : SEnv} (h : ρ.InRange64) : EnvRel ρ ρ ρ.env := by
  intro x
  have := h x
  cases hx : ρ x with
  | undef => trivial
  | int v => rw [hx] at this; exact ⟨by simp [SEnv.env, hx], this⟩
  | buf b => rw [hx] at this; exact ⟨by simp [SEnv.env, hx], rfl, this⟩

theorem bindI_other {env : Env} {z : Nat} : ∀ {xs : List Nat} {is : List Int}, z ∉ xs → env.bindI xs is z = env z
  | [], _, _ => rfl
  | _ :: _, [], _ => rfl
  | x :: xs, i :: is, h => by
    simp only [List.mem_cons, not_or] at h
    simp [Env.bindI, Env.set, h.1, bindI_other h.2]

theorem bindSome_other {ρ : SEnv} {z : Nat} : ∀ {xs : List Nat} {vs : List (Option Int)}, z ∉ xs → ρ.bindSome xs vs z = ρ z
  | [], _, _ => by cases ‹List (Option Int)› <;> rfl
  | _ :: _, [], _ => rfl
  | x :: xs, some i :: vs, h => by
    simp only [List.mem_cons, not_or] at h
    simp [SEnv.bindSome, SEnv.set, h.1, bindSome_other h.2]
  | x :: xs, none :: vs, h => by
    simp only [List.mem_cons, not_or] at h
    simp [SEnv.bindSome, bindSome_other h.2]

theorem bindSome_none {ρ : SEnv} {x : Nat} : ∀ {xs : List Nat} {vs : List (Option Int)} {d : Nat}, xs.Nodup → xs[d]? = some x → vs[d]? = some none → ρ.bindSome xs vs x = ρ x
  | [], _, _, _, h, _ => by simp at h
  | _ :: _, [], _, _, _, h => by simp at h
  | y :: xs, v :: vs, 0, hn, h, hv => by
    simp only [List.getElem?_cons_zero, Option.some.injEq] at h hv
    subst h; subst hv
    rw [SEnv.bindSome]
    exact bindSome_other (List.nodup_cons.1 hn).1
  | y :: xs, v :: vs, d + 1, hn, h, hv => by
    simp only [List.getElem?_cons_succ] at h hv
    rw [List.nodup_cons] at hn
    have hne : x ≠ y := by rintro rfl; exact hn.1 (List.mem_of_getElem? h)
    cases v with
    | none => rw [SEnv.bindSome]; exact bindSome_none hn.2 h hv
    | some i => rw [SEnv.bindSome, SEnv.set, if_neg hne]; exact bindSome_none hn.2 h hv

theorem map_bindI {env : Env} : ∀ {xs : List Nat} {is : List Int}, xs.Nodup → is.length = xs.length → xs.map (env.bindI xs is) = is
  | [], [], _, _ => rfl
  | [], _ :: _, _, h => by simp at h
  | _ :: _, [], _, h => by simp at h
  | x :: xs, i :: is, hn, h => by
    rw [List.nodup_cons] at hn
    simp only [List.map_cons, Env.bindI]
    congr 1
    · simp [Env.set]
    · have : xs.map ((env.bindI xs is).set x i) = xs.map (env.bindI xs is) := List.map_congr_left fun y hy => by
        have : y ≠ x := by rintro rfl; exact hn.1 hy
        simp [Env.set, this]
      rw [this, map_bindI hn.2 (by simpa using h)]

theorem bindI_set {env : Env} {x : Nat} {j : Int} : ∀ {xs : List Nat} {is : List Int} {d : Nat}, xs.Nodup → is.length = xs.length → xs[d]? = some x →
    env.bindI xs (is.set d j) = (env.bindI xs is).set x j
  | [], _, _, _, _, h => by simp at h
  | _ :: _, [], _, _, h, _ => by simp at h
  | y :: xs, i :: is, 0, hn, hl, h => by
    simp only [List.getElem?_cons_zero, Option.some.injEq] at h
    subst h
    funext z
    simp only [List.set_cons_zero, Env.bindI, Env.set]
    split <;> rfl
  | y :: xs, i :: is, d + 1, hn, hl, h => by
    simp only [List.getElem?_cons_succ] at h
    rw [List.nodup_cons] at hn
    have hne : x ≠ y := by rintro rfl; exact hn.1 (List.mem_of_getElem? h)
    simp only [List.set_cons_succ, Env.bindI]
    rw [bindI_set hn.2 (by simpa using hl) h]
    funext z
    simp only [Env.set]
    by_cases h1 : z = y <;> by_cases h2 : z = x <;> simp [h1, h2, hne, Ne.symm hne]

theorem set_undef {ρ : SEnv} {x : Nat} (h : ρ x = .undef) : ρ.set x .undef = ρ := by
  funext z
  by_cases hz : z = x
  · simp [SEnv.set, hz, h]
  · simp [SEnv.set, hz]

theorem envRel_bind {σ ρ : SEnv} {env : Env} (h : EnvRel σ ρ env) : ∀ {xs : List Nat} {vs : List (Option Int)} {is : List Int}, (∀ x ∈ xs, ρ x = .undef) → xs.Nodup →
    vs.length = xs.length → (weave vs is).length = xs.length → (∀ i ∈ weave vs is, InRange 64 i) → EnvRel σ (ρ.bindSome xs vs) (env.bindI xs (weave vs is))
  | [], [], is, _, _, _, _, _ => by simpa [SEnv.bindSome, Env.bindI] using h
  | [], _ :: _, _, _, _, hl, _, _ => by simp at hl
  | _ :: _, [], _, _, _, hl, _, _ => by simp at hl
  | x :: xs, some i :: vs, is, hx, hn, hl, hl', hr => by
    rw [List.nodup_cons] at hn
    simp only [SEnv.bindSome, weave, Env.bindI]
    exact (envRel_bind h (fun y hy => hx y (by simp [hy])) hn.2 (by simpa using hl) (by simpa [weave] using hl') (fun j hj => hr j (by simp [weave, hj]))).set
      ⟨rfl, hr i (by simp [weave])⟩
  | x :: xs, none :: vs, [], _, _, _, hl', _ => by simp [weave] at hl'
  | x :: xs, none :: vs, i :: is, hx, hn, hl, hl', hr => by
    rw [List.nodup_cons] at hn
    simp only [SEnv.bindSome, weave, Env.bindI]
    have h1 := envRel_bind h (fun y hy => hx y (by simp [hy])) hn.2 (by simpa using hl) (by simpa [weave] using hl') (fun j hj => hr j (by simp [weave, hj]))
      (vs := vs) (is := is)
    have h2 := h1.set (x := x) (v := .undef) (i := i) trivial
    rwa [set_undef (by rw [bindSome_other hn.1]; exact hx x (by simp))] at h2

theorem weave_some : ∀ (is : List Int), weave (is.map some) [] = is
  | [] => rfl
  | i :: is => by simp [weave, weave_some is]

theorem inB_range {D : Buf} (hr : D.InRange64) {x : List Int} (h : D.InBounds x) : ∀ i ∈ x, InRange 64 i := by
  intro i hi
  obtain ⟨d, hd⟩ := List.mem_iff_getElem?.1 hi
  have hl : x.length = D.rank := InB.length h
  have hlt : d < D.rank := by
    have := (List.getElem?_eq_some_iff.1 hd).1
    omega
  obtain ⟨y, h1, h2, h3⟩ := InB.get h (dim_eq D d hlt)
  rw [hd] at h1
  cases h1
  have r1 := hr .min d
  have r2 := hr .max d
  simp only [Obj.field, Obj.ofBuf, Obj.buf, List.take_length, Int.toNat_natCast] at r1 r2
  exact ⟨le_trans r1.1 h2, lt_of_le_of_lt h3 r2.2⟩

theorem inB_setAt : ∀ {ds : List Dim} {is : List Int} {n : Nat} {dd : Dim} {x : Int}, InB ds is → ds[n]? = some dd → dd.min ≤ x ∧ x ≤ dd.max → InB ds (is.set n x)
  | [], _, _, _, _, _, h, _ => by simp at h
  | _ :: _, [], _, _, _, h, _, _ => h.elim
  | a :: ds, i :: is, 0, dd, x, h, hd, hx => by simp at hd; subst hd; exact ⟨hx, h.2⟩
  | a :: ds, i :: is, n + 1, dd, x, h, hd, hx => by simp at hd; exact ⟨h.1, inB_setAt h.2 hd hx⟩

theorem runSeq_exists {α β : Type} {f : α → List Ev → Option (Int × List Ev)} {g : β → List Ev → Option (Int × List Ev)} {R : α → β → Prop} :
    ∀ {as : List α} {l l' : List Ev}, (∀ a ∈ as, ∀ l l', f a l = some (0, l') → ∃ b, R a b ∧ g b l = some (0, l')) → runSeq f as l = some (0, l') →
    ∃ bs, List.Forall₂ R as bs ∧ runSeq g bs l = some (0, l')
  | [], l, l', _, h => ⟨[], .nil, h⟩
  | a :: as, l, l', hfg, h => by
    simp only [runSeq] at h
    split at h
    · cases h
    · next r l1 hf =>
      split at h
      · next hr => simp only [Option.some.injEq, Prod.mk.injEq] at h; exact absurd h.1 hr
      · next hr =>
        simp only [ne_eq, not_not] at hr
        subst hr
        obtain ⟨b, h1, h2⟩ := hfg a (by simp) l l1 hf
        obtain ⟨bs, h3, h4⟩ := runSeq_exists (fun a ha => hfg a (by simp [ha])) h
        refine ⟨b :: bs, .cons h1 h3, ?_⟩
        simp only [runSeq, h2]
        simpa using h4

section
variable {simp : Expr → Expr} {lb : Expr → Option Int}

theorem copyDims_pass {src dst : Nat} {srcX : List Expr} {dstX : List Nat} : ∀ {xs : List Nat} {d i : Nat} {sx : List Expr} {x : Nat}, xs[i]? = some x →
    (copyStep simp lb src srcX dst dstX x (d + i)).isSome → (copyDims simp lb src srcX dst dstX xs d sx).pass[i]? = some true
  | [], _, _, _, _, h, _ => by simp at h
  | y :: xs, d, 0, sx, x, h, hs => by
    simp only [List.getElem?_cons_zero, Option.some.injEq, Nat.add_zero] at h hs
    subst h
    unfold copyDims
    split
    · next hn => simp [hn] at hs
    · rfl
  | y :: xs, d, i + 1, sx, x, h, hs => by
    simp only [List.getElem?_cons_succ] at h
    have ih := fun sx => copyDims_pass (src := src) (dst := dst) (srcX := srcX) (dstX := dstX) (xs := xs) (d := d + 1) (i := i) (sx := sx) h
      (by rw [show d + 1 + i = d + (i + 1) by omega]; exact hs)
    unfold copyDims
    split
    · rw [List.getElem?_cons_succ]; exact ih _
    · rw [List.getElem?_cons_succ]; exact ih _

/-- The conditions of `implementCopy_sound_partial`. -/
structure CopyCond (w : World) (host : Fn → List (Option Int) → Int) (simp : Expr → Expr) (lb : Expr → Option Int) (l : List Ev) (ρ : SEnv) (fresh src : Nat) (srcX : List Expr)
    (dst : Nat) (dstX : List Nat) (S D : Buf) (Y : List Int → List Int) : Prop where
  /-- The functions of the world do not depend on what was done before. -/
  h_host : ∀ fn xs l, w.host fn xs l = host fn xs
  h_range : ρ.InRange64
  h_src : ρ src = .buf S
  h_dst : ρ dst = .buf D
  /-- The new symbol is new. -/
  h_fresh : ρ fresh = .undef
  freshX : fresh ∉ dstX
  freshS : ∀ e ∈ srcX, ¬ FreeIn fresh e
  /-- The names of the indices of `dst` are not in scope (`shadowed_index_counterexample`), and they are not the same. -/
  idx : ∀ x ∈ dstX, ρ x = .undef
  nodup : dstX.Nodup
  rank : D.rank = dstX.length
  /-- The indices of `src` are good expressions: no lets, no `buffer_at`, and the indices of `dst` are numbers. -/
  exprs : ∀ e ∈ srcX, e.ok = true ∧ e.WF ∧ e.Plain dstX
  h_simp : SimpSound simp lb (memS host ρ) dstX
  /-- `src` is not folded (`folded_src_counterexample`). -/
  unfolded : ∀ k, (S.dim k).fold = Dim.unfolded ∨ (S.dim k).stride = 0
  /-- No element is at the null pointer. -/
  nonnull : ∀ is, S.view is ≠ some 0
  /-- The indices of the element of `src` for the element `x` of `dst`. -/
  val : ∀ x, D.InBounds x → srcX.mapM (evalI w l (ρ.bindAll dstX x)) = some (Y x)
  /-- An index of `src` that an index of `dst` passes through to depends on no other index of `dst` (`shear_counterexample`). -/
  sep : ∀ d x k e, dstX[d]? = some x → PassesTo simp lb src srcX dst dstX x d k → srcX[k]? = some e → ∀ y ∈ dstX, y ≠ x → ¬ FreeIn y e
  /-- If that index of `src` depends on the metadata of `dst`, it is in bounds (`padded_offset_counterexample`). -/
  inb : ∀ d x k e, dstX[d]? = some x → PassesTo simp lb src srcX dst dstX x d k → srcX[k]? = some e → FreeIn dst e →
    ∀ xs z, D.InBounds xs → (Y xs)[k]? = some z → (S.dim k).contains z = true

variable {w : World} {host : Fn → List (Option Int) → Int} {l : List Ev} {ρ : SEnv} {fresh src : Nat} {srcX : List Expr} {dst : Nat} {dstX : List Nat} {S D : Buf}
  {Y : List Int → List Int}

theorem CopyCond.src_ne (h : CopyCond w host simp lb l ρ fresh src srcX dst dstX S D Y) : src ≠ fresh ∧ dst ≠ fresh ∧ src ∉ dstX ∧ dst ∉ dstX := by
  refine ⟨?_, ?_, fun hx => ?_, fun hx => ?_⟩
  · rintro rfl; have := h.h_src; rw [h.h_fresh] at this; cases this
  · rintro rfl; have := h.h_dst; rw [h.h_fresh] at this; cases this
  · have := h.h_src; rw [h.idx _ hx] at this; cases this
  · have := h.h_dst; rw [h.idx _ hx] at this; cases this

/-- The value of the indices of `src`. -/
theorem CopyCond.value (h : CopyCond w host simp lb l ρ fresh src srcX dst dstX S D Y) {x : List Int} (hx : D.InBounds x) :
    srcX.map (eval (memS host ρ) (ρ.env.bindI dstX x)) = Y x := by
  have hD : D.InRange64 := by have := h.h_range dst; rwa [h.h_dst] at this
  have hl : x.length = dstX.length := (InB.length hx).trans h.rank
  have he : EnvRel ρ (ρ.bindAll dstX x) (ρ.env.bindI dstX x) := by
    have := envRel_bind (envRel_self h.h_range) (vs := x.map some) (is := []) h.idx h.nodup (by simpa using hl) (by rw [weave_some]; exact hl)
      (by rw [weave_some]; exact inB_range hD hx)
    rwa [weave_some] at this
  exact mapM_map (h.val x hx) fun e hm v hv => (evalI_eval (fun fn xs => h.h_host fn xs l) (h.exprs e hm).2.1 he hv).1

theorem mapM_evalArgs {w : World} {l : List Ev} {ρ : SEnv} : ∀ {xs : List Expr} {vs : List (Option Val)} {is : List (Option Int)}, (∀ e ∈ xs, e.defined = true) →
    evalArgsS w l ρ (.ofList xs) = some vs → intArgs vs = some is → ∃ zs : List Int, is = zs.map some ∧ xs.mapM (evalI w l ρ) = some zs
  | [], vs, is, _, h, hi => by
    simp only [Exprs.ofList, evalArgsS, Option.some.injEq] at h
    subst h
    simp only [intArgs, Option.some.injEq] at hi
    subst hi
    exact ⟨[], rfl, rfl⟩
  | e :: xs, vs, is, hd, h, hi => by
    simp only [Exprs.ofList, evalArgsS, hd e (by simp), if_true, Option.bind_eq_some_iff, Option.map_eq_some_iff] at h
    obtain ⟨v, h1, vs', h2, rfl⟩ := h
    cases v with
    | undef => simp [intArgs] at hi
    | buf b => simp [intArgs] at hi
    | int i =>
      simp only [intArgs, Option.map_eq_some_iff] at hi
      obtain ⟨is', hi, rfl⟩ := hi
      obtain ⟨zs, rfl, h3⟩ := mapM_evalArgs (fun e he => hd e (by simp [he])) h2 hi
      refine ⟨i :: zs, rfl, ?_⟩
      have : evalI w l ρ e = some i := by simp [evalI, h1, Val.int?]
      simp [List.mapM_cons, this, h3]

/-- The value of `buffer_at`. -/
theorem evalI_bufAt {w : World} {l : List Ev} {ρ : SEnv} {src : Nat} {S : Buf} {xs : List Expr} {p : Int} (hs : ρ src = .buf S) (hd : ∀ e ∈ xs, e.defined = true)
    (h : evalI w l ρ (bufAt src xs) = some p) : ∃ zs, xs.mapM (evalI w l ρ) = some zs ∧ p = (S.view zs).getD 0 := by
  simp only [evalI, bufAt, evalS, Fn.isHost, if_true, evalArgsS, Expr.defined, hs, Option.bind_some, Option.bind_eq_some_iff, Option.map_eq_some_iff] at h
  obtain ⟨v, ⟨vs, ⟨vs', h1, rfl⟩, q, h2, q', h3, rfl⟩, h4⟩ := h
  simp only [callS, Option.map_eq_some_iff] at h2
  obtain ⟨is, h5, rfl⟩ := h2
  simp only [Val.int?, Option.some.injEq] at h4
  obtain ⟨rfl, -⟩ := chk64_eq h3
  obtain ⟨zs, rfl, h6⟩ := mapM_evalArgs hd h1 h5
  refine ⟨zs, h6, ?_⟩
  rw [← h4, bufferAt_view S.elem]

theorem optMapM_congr {α β : Type} {f g : α → Option β} : ∀ {xs : List α}, (∀ x ∈ xs, f x = g x) → xs.mapM f = xs.mapM g
  | [], _ => rfl
  | x :: xs, h => by rw [List.mapM_cons, List.mapM_cons, h x (by simp), optMapM_congr fun y hy => h y (by simp [hy])]

theorem optMapM_mem {α β : Type} {f : α → Option β} : ∀ {xs : List α} {ys : List β}, xs.mapM f = some ys → ∀ {x}, x ∈ xs → ∃ y, f x = some y
  | [], _, _, _, hx => by simp at hx
  | a :: xs, ys, h, x, hx => by
    simp only [List.mapM_cons, Option.bind_eq_bind, Option.bind_eq_some_iff] at h
    obtain ⟨y, h1, ys', h2, -⟩ := h
    rcases List.mem_cons.1 hx with rfl | hx
    · exact ⟨y, h1⟩
    · exact optMapM_mem h2 hx

theorem forall₂_right {α β : Type} {R : α → β → Prop} : ∀ {as : List α} {bs : List β}, List.Forall₂ R as bs → ∀ {b}, b ∈ bs → ∃ a ∈ as, R a b
  | _, _, .nil, _, h => by simp at h
  | _, _, .cons h h', b, hb => by
    rcases List.mem_cons.1 hb with rfl | hb
    · exact ⟨_, by simp, h⟩
    · obtain ⟨a, h1, h2⟩ := forall₂_right h' hb
      exact ⟨a, by simp [h1], h2⟩

theorem forall₂_left {α β : Type} {R : α → β → Prop} : ∀ {as : List α} {bs : List β}, List.Forall₂ R as bs → ∀ {a}, a ∈ as → ∃ b ∈ bs, R a b
  | _, _, .nil, _, h => by simp at h
  | _, _, .cons h h', b, hb => by
    rcases List.mem_cons.1 hb with rfl | hb
    · exact ⟨_, by simp, h⟩
    · obtain ⟨a, h1, h2⟩ := forall₂_left h' hb
      exact ⟨a, by simp [h1], h2⟩

/-- Two indices of `dst` do not pass through to the same index of `src`. -/
theorem CopyCond.uniq (h : CopyCond w host simp lb l ρ fresh src srcX dst dstX S D Y) {d d' x x' k : Nat} (hx : dstX[d]? = some x) (hx' : dstX[d']? = some x')
    (hp : PassesTo simp lb src srcX dst dstX x d k) (hp' : PassesTo simp lb src srcX dst dstX x' d' k) : d = d' := by
  by_contra hne
  have hxx : x' ≠ x := by
    rintro rfl
    have h1 := List.getElem?_eq_some_iff.1 hx
    have h2 := List.getElem?_eq_some_iff.1 hx'
    exact hne ((List.Nodup.getElem_inj_iff h.nodup).1 (h1.2.trans h2.2.symm))
  obtain ⟨c', hc'⟩ := hp'
  obtain ⟨e, h1, h2, -⟩ := copyStep_some hc'
  exact h.sep d x k e hx hp h1 x' (List.mem_of_getElem? hx') hxx ((dependsOn_precise e (plain_bufOK e (h.exprs e (List.mem_of_getElem? h1)).2.2) x').1 h2)

/-- What one call of the function that copies is given. -/
structure CallOk (S : Buf) (Y : List Int → List Int) (s : List (Option Int) × Buf) (c : Buf × Buf) : Prop where
  part : c.2 = s.2
  elem : c.1.elem = S.elem
  view : ∀ is, s.2.InBounds is → c.1.view is = S.view (Y (weave s.1 is))

theorem CopyCond.call (h : CopyCond w host simp lb l ρ fresh src srcX dst dstX S D Y) {target : Nat} {pad : Option Nat} {pads : List Buf}
    (hpad : ∀ p ∈ pad, p ≠ src) (hpads : pad.toList.mapM ρ.buf? = some pads) {s : List (Option Int) × Buf}
    (hs : s ∈ copyStates (copyDims simp lb src srcX dst dstX dstX 0 srcX).pass 0 D) {l1 l2 : List Ev}
    (hc : sem w false (.makeBuffer src (bufAt src (copyDims simp lb src srcX dst dstX dstX 0 srcX).srcX) (.var src .elemSize 0)
      (copyDims simp lb src srcX dst dstX dstX 0 srcX).dims (.call target [] (src :: fresh :: pad.toList) [])) (copyEnv ρ fresh dstX s) l1 = some (0, l2)) :
    ∃ c, CallOk S Y s c ∧ copyCall w target pads c l1 = some (0, l2) := by
  obtain ⟨n1, n2, n3, n4⟩ := h.src_ne
  have hX : ∀ e ∈ srcX, ExprOk dstX (· ≠ fresh) e := fun e he =>
    ⟨(h.exprs e he).1, (h.exprs e he).2.1, (h.exprs e he).2.2, fun z hz => by rintro rfl; exact h.freshS e he hz⟩
  have hdefd : ∀ {e : Expr}, e.ok = true → e.defined = true := fun {e} ho => by cases e <;> first | rfl | simp [Expr.ok] at ho
  obtain ⟨f1, f2, f3⟩ := copyDims_facts (F := (· ≠ fresh)) h.h_simp n4 n1 n2 hX dstX 0 srcX (fun _ h => h)
    (fun e he => ⟨⟨(hX e he).wf, (hX e he).free⟩, hdefd (hX e he).ok⟩)
  generalize hr : copyDims simp lb src srcX dst dstX dstX 0 srcX = r at hs hc f1 f2 f3
  have hrank : r.pass.length = D.rank := f1.trans h.rank.symm
  obtain ⟨s1, s2, s3, s4⟩ := copyStates_rank hs (by omega)
  have hS64 : S.InRange64 := by have := h.h_range src; rwa [h.h_src] at this
  have hD64 : D.InRange64 := by have := h.h_range dst; rwa [h.h_dst] at this
  set ρ1 := ρ.bindSome dstX s.1 with hρ1
  have hF : ∀ z, z ≠ fresh → copyEnv ρ fresh dstX s z = ρ1 z := fun z hz => by simp [copyEnv, SEnv.set, hz, hρ1]
  have hs1 : ρ1 src = .buf S := by rw [hρ1, bindSome_other n3, h.h_src]
  have hd1 : ρ1 dst = .buf D := by rw [hρ1, bindSome_other n4, h.h_dst]
  have hse : copyEnv ρ fresh dstX s src = .buf S := by rw [hF _ n1, hs1]
  -- the parameters of `make_buffer`
  simp only [sem, Option.bind_eq_bind, Option.bind_eq_some_iff] at hc
  obtain ⟨el, h1, p, h2, ds, h3, hc⟩ := hc
  have hel : el = S.elem := by
    simp [evalDefS, Expr.defined, evalI, evalS, hse, Val.int?, Obj.ofBuf, Obj.field, Obj.buf] at h1
    exact h1.symm
  rw [evalDefS, if_pos (by rfl)] at h2
  obtain ⟨zs, h4, h5⟩ := evalI_bufAt hse (fun e he => (f2 e he).2) h2
  rw [evalDimsS_in hF (fun d hd => (f3 d hd).2)] at h3
  have h4' : r.srcX.mapM (evalI w l1 ρ1) = some zs := by
    rw [← h4]
    exact (optMapM_congr fun e he => evalI_in (f2 e he).1 hF).symm
  set b : Buf := ⟨if p = 0 then none else some p, el, ds.take (trimRank ds)⟩ with hb
  split at hc
  swap
  · simp at hc
  -- the call
  simp only [Option.bind_eq_bind, Option.bind_eq_some_iff] at hc
  obtain ⟨is0, hi0, os, ho, xs0, hx0, hc⟩ := hc
  have hi0' : is0 = [] := by simpa using hi0.symm
  have hx0' : xs0 = [] := by simpa using hx0.symm
  subst hi0'; subst hx0'
  have hos : os = b :: s.2 :: pads := by
    have e1 : ((copyEnv ρ fresh dstX s).set src (.buf b)).buf? src = some b := by simp [SEnv.buf?, SEnv.set, Val.buf?]
    have e2 : ((copyEnv ρ fresh dstX s).set src (.buf b)).buf? fresh = some s.2 := by
      simp [SEnv.buf?, SEnv.set, Val.buf?, Ne.symm n1, copyEnv]
    have e3 : pad.toList.mapM ((copyEnv ρ fresh dstX s).set src (.buf b)).buf? = some pads := by
      rw [← hpads]
      refine optMapM_congr fun q hq => ?_
      have hq' : q ∈ pad := by simpa using hq
      have hq1 := hpad q hq'
      have hq2 : ∃ P, ρ q = .buf P := by
        obtain ⟨P, hP⟩ := optMapM_mem hpads hq
        unfold SEnv.buf? at hP
        cases hv : ρ q with
        | buf P => exact ⟨P, rfl⟩
        | undef => simp [hv, Val.buf?] at hP
        | int i => simp [hv, Val.buf?] at hP
      obtain ⟨P, hP⟩ := hq2
      have hq3 : q ≠ fresh := by rintro rfl; rw [h.h_fresh] at hP; cases hP
      have hq4 : q ∉ dstX := fun hm => by rw [h.idx _ hm] at hP; cases hP
      simp [SEnv.buf?, SEnv.set, hq1, copyEnv, hq3, bindSome_other hq4]
    rw [List.mapM_cons, e1, List.mapM_cons, e2, e3] at ho
    simpa using ho.symm
  subst hos
  refine ⟨(b, s.2), ⟨rfl, hel, fun is his => ?_⟩, hc⟩
  set env := ρ.env.bindI dstX (weave s.1 is) with henv
  set m := memS host ρ with hm
  have hlen : is.length = (s.1.filter Option.isNone).length := by
    have e1 : is.length = s.2.rank := InB.length his
    rw [← s2, List.filter_map, List.length_map, List.length_map] at s4
    have e2 : (s.1.filter ((fun b => decide (b = true)) ∘ Option.isNone)) = s.1.filter Option.isNone := by congr 1; funext b; simp
    rw [e2] at s4
    have : s.1.length = D.rank := s1.trans hrank
    omega
  have hx : D.InBounds (weave s.1 is) := by
    have := (copyStates_elem hs (by omega) is his).1
    rw [mergeIdx_eq _ _ _ (by omega)] at this
    simpa using this
  have hwl : (weave s.1 is).length = dstX.length := (InB.length hx).trans h.rank
  have hs1l : s.1.length = dstX.length := by omega
  have he : EnvRel ρ ρ1 env := envRel_bind (envRel_self h.h_range) h.idx h.nodup hs1l hwl (inB_range hD64 hx)
  have hh : ∀ fn xs, w.host fn xs l1 = host fn xs := fun fn xs => h.h_host fn xs l1
  obtain ⟨d1, d2⟩ := evalDimsS_val hh he f3 h3
  have hz : zs = r.srcX.map (eval m env) := (mapM_map h4' fun e hme v hv => (evalI_eval hh (f2 e hme).1.1 he hv).1).symm
  have hxe : dstX.map env = weave s.1 is := map_bindI h.nodup hwl
  have hsr : env src = (src : Int) := by have := he src; rw [hs1] at this; exact this.1
  have hdr : env dst = (dst : Int) := by have := he dst; rw [hd1] at this; exact this.1
  have key := copyDims_view (S := S) (m := m) (env := env) (R := r.dims) (simp := simp) (lb := lb) (src := src) (dst := dst) (srcX := srcX) (dstX := dstX)
    (fun d x k c hxd hcs => by
      obtain ⟨e, g1, -, g3⟩ := copyStep_some hcs
      exact (isCopy_in (F := (· ≠ fresh)) h.h_simp n4 (List.mem_of_getElem? hxd) n1 n2 g3 (hX e (List.mem_of_getElem? g1))).2.2)
    (fun d x k c e hxd hcs hcR hke => by
      obtain ⟨e', g1, -, g3⟩ := copyStep_some hcs
      rw [hke] at g1
      cases g1
      obtain ⟨v, hv⟩ := d2 _ hcR
      have hdlt : d < D.rank := by rw [h.rank]; exact (List.getElem?_eq_some_iff.1 hxd).1
      have hixs : (weave s.1 is)[d]? = some (env x) := by rw [← hxe, List.getElem?_map, hxd]; rfl
      obtain ⟨i, hi1, hi2⟩ := InB.get hx (dim_eq D d hdlt)
      rw [hixs] at hi1
      cases hi1
      refine isCopy_fits (F := (· ≠ fresh)) hh h.h_simp h.nodup n4 hxd (hX e (List.mem_of_getElem? hke)) g3 hv
        (fun y hy hyx => h.sep d x k e hxd ⟨c, hcs⟩ hke y hy hyx) (fun j hj => ?_) (Sk := S.dim k) (Dd := D.dim d) ?_ ?_ ?_ (h.unfolded k) hi2 (fun hf j hj1 hj2 => ?_)
      · have := he.set (x := x) (v := .undef) (i := j) trivial
        rwa [set_undef] at this
        have hp := copyDims_pass (simp := simp) (lb := lb) (src := src) (dst := dst) (srcX := srcX) (dstX := dstX) (xs := dstX) (d := 0) (i := d) (sx := srcX) hxd
          (by rw [Nat.zero_add, hcs]; rfl)
        rw [hr] at hp
        rw [hρ1, bindSome_none h.nodup hxd]
        · exact h.idx x (List.mem_of_getElem? hxd)
        · rw [← s2, List.getElem?_map] at hp
          cases hsd : s.1[d]? with
          | none => simp [hsd] at hp
          | some o => cases o <;> simp [hsd] at hp ⊢
      · rw [hsr]; simp [hm, memS, h.h_src, Obj.ofBuf, Obj.field, Obj.buf]
      · rw [hdr]; simp [hm, memS, h.h_dst, Obj.ofBuf, Obj.field, Obj.buf]
      · have r1 := hD64 .min d
        have r2 := hD64 .max d
        simp only [Obj.field, Obj.ofBuf, Obj.buf, List.take_length, Int.toNat_natCast] at r1 r2
        exact ⟨r1, r2⟩
      · have hin := inB_setAt hx (dim_eq D d hdlt) ⟨hj1, hj2⟩
        refine h.inb d x k e hxd ⟨c, hcs⟩ hke hf _ _ hin ?_
        rw [← h.value hin, List.getElem?_map, hke, bindI_set h.nodup hwl hxd]
        rfl)
    (fun d d' x x' k hxd hxd' => h.uniq hxd hxd') dstX 0 srcX rfl (by rw [hr]; exact fun _ h => h) (fun _ _ _ _ _ _ => rfl) s.1 is (by rw [hr]; exact s2) hxe
  rw [hr, ← d1, ← hz, h.value hx] at key
  obtain ⟨t1, t2⟩ := trim_view ds is
  have hbase : (if p = 0 then none else some p) = S.view zs := by
    have := h.nonnull zs
    rw [h5]
    cases hv : S.view zs with
    | none => simp
    | some q =>
      have : q ≠ 0 := by rintro rfl; exact this hv
      simp [this]
  rw [hb, hbase]
  simp only [Buf.view, Buf.contains, Buf.address, t1, t2, ← key.1, ← key.2]
  by_cases c1 : Buf.containsL ds is = true <;> by_cases c2 : Buf.containsL S.dims zs = true <;> cases S.base <;> simp [c1, c2, add_assoc, add_comm, add_left_comm]
/-- **C44** (with the conditions of `CopyCond`): if the statement that `implement_copy` makes succeeds, what it did is a sequence of calls of the function that copies, and
together they are the copy. -/
theorem implementCopy_sound_partial (h : CopyCond w host simp lb l ρ fresh src srcX dst dstX S D Y) {target : Nat} {pad : Option Nat} {pads : List Buf}
    (hpad : ∀ p ∈ pad, p ≠ src) (hpads : pad.toList.mapM ρ.buf? = some pads) {skip : Bool} {l' : List Ev}
    (hs : sem w skip (implementCopy simp lb fresh target src srcX dst dstX pad) ρ l = some (0, l')) :
    ∃ calls, runSeq (copyCall w target pads) calls l = some (0, l') ∧ Implements calls S D Y := by
  obtain ⟨n1, n2, n3, n4⟩ := h.src_ne
  have hX : ∀ e ∈ srcX, ExprOk dstX (· ≠ fresh) e := fun e he =>
    ⟨(h.exprs e he).1, (h.exprs e he).2.1, (h.exprs e he).2.2, fun z hz => by rintro rfl; exact h.freshS e he hz⟩
  have hdefd : ∀ {e : Expr}, e.ok = true → e.defined = true := fun {e} ho => by cases e <;> first | rfl | simp [Expr.ok] at ho
  obtain ⟨f1, -, -⟩ := copyDims_facts (F := (· ≠ fresh)) h.h_simp n4 n1 n2 hX dstX 0 srcX (fun _ h => h)
    (fun e he => ⟨⟨(hX e he).wf, (hX e he).free⟩, hdefd (hX e he).ok⟩)
  have hb : ρ.buf? dst = some D := by simp [SEnv.buf?, h.h_dst, Val.buf?]
  have hrank : (copyDims simp lb src srcX dst dstX dstX 0 srcX).pass.length = D.rank := f1.trans h.rank.symm
  simp only [implementCopy, sem, hb, Option.bind_some] at hs
  have hseq := copyLoops_seq dstX _ 0 _ D l _ f1.symm h.freshX (by omega) hs
  have hcall := fun s hs l1 l2 => h.call (target := target) hpad hpads (s := s) hs (l1 := l1) (l2 := l2)
  clear hs
  generalize copyDims simp lb src srcX dst dstX dstX 0 srcX = r at hseq hcall hrank
  obtain ⟨calls, c1, c2⟩ := runSeq_exists (R := CallOk S Y) (g := copyCall w target pads) hcall hseq
  have hidx : ∀ s ∈ copyStates r.pass 0 D, ∀ is, s.2.InBounds is → mergeIdx s.1 0 is = weave s.1 is := by
    intro s hs is his
    obtain ⟨s1, s2, -, s4⟩ := copyStates_rank hs (by omega)
    rw [mergeIdx_eq _ _ _ ?_]
    · simp
    · have e1 : is.length = s.2.rank := InB.length his
      rw [← s2, List.filter_map, List.length_map, List.length_map] at s4
      have e2 : (s.1.filter ((fun b => decide (b = true)) ∘ Option.isNone)) = s.1.filter Option.isNone := by congr 1; funext b; simp
      rw [e2] at s4
      have : s.1.length = D.rank := s1.trans hrank
      omega
  refine ⟨calls, c2, ?_, ?_, ?_⟩
  · intro c hc
    obtain ⟨s, hs, hsc⟩ := forall₂_right c1 hc
    obtain ⟨-, -, s3, -⟩ := copyStates_rank hs (by omega)
    exact ⟨hsc.elem, by rw [hsc.part, s3]⟩
  · intro c hc is his
    obtain ⟨s, hs, hsc⟩ := forall₂_right c1 hc
    rw [hsc.part] at his ⊢
    obtain ⟨k1, k2⟩ := copyStates_elem hs (by omega) is his
    rw [hidx s hs is his] at k1 k2
    exact ⟨_, k1, k2, hsc.view is his⟩
  · intro x hx
    obtain ⟨s, hs, is, k1, k2⟩ := copyStates_cover (ps := r.pass) (d := 0) (by omega) x hx
    obtain ⟨c, hc, hsc⟩ := forall₂_left c1 hs
    have k3 := (copyStates_elem hs (by omega) is k1).2
    rw [k2] at k3
    rw [hidx s hs is k1] at k2
    exact ⟨c, hc, is, by rw [hsc.part]; exact k1, by rw [hsc.part]; exact k3, by rw [hsc.view is k1, k2]⟩
end

end Slinky
