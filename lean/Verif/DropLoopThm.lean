import Verif.DropLoop

/-! # C55: one call on the whole bounds instead of a loop -/

namespace Slinky.DL

/-! ### The environment inside a nest of crops -/

/-- The environment of the statement inside the crops. -/
def nestEnv (w : World) (l : List Ev) : List NCrop → SEnv → Option SEnv
  | [], ρ => some ρ
  | c :: cs, ρ => (ρ.buf? c.src).bind fun b => (evalIvDefS w l ρ c.iv (b.dim c.dim).min (b.dim c.dim).max).bind fun v =>
    nestEnv w l cs (ρ.set c.sym (.buf (b.crop c.dim v.1 v.2)))

theorem sem_nest (w : World) (b : Stmt) (l : List Ev) : ∀ (cs : List NCrop) (ρ : SEnv),
    sem w false (nest cs b) ρ l = (nestEnv w l cs ρ).bind fun ρ' => sem w false b ρ' l
  | [], ρ => by simp [nest, nestEnv]
  | c :: cs, ρ => by
    simp only [nest, sem, nestEnv, sem_nest w b l cs, Option.bind_assoc]

theorem nest_peel : ∀ s : Stmt, nest (peel s).1 (peel s).2 = s := by
  intro s
  induction h : sizeOf s using Nat.strong_induction_on generalizing s with
  | _ n ih =>
    cases s with
    | cropDim x src d iv body =>
      simp only [peel, nest]
      rw [ih (sizeOf body) (by subst h; simp) body rfl]
    | _ => simp [peel, nest]

/-- A crop does not use what a crop around it declares, nor declare it again. -/
def Apart (c d : NCrop) : Prop := d.sym ≠ c.sym ∧ d.src ≠ c.sym ∧ ¬ FreeIn c.sym d.iv.min ∧ ¬ FreeIn c.sym d.iv.max

theorem evalIvDefS_free {w : World} {l : List Ev} {ρ ρ' : SEnv} {i : Interval} (h1 : ∀ y, FreeIn y i.min → ρ y = ρ' y) (h2 : ∀ y, FreeIn y i.max → ρ y = ρ' y)
    (a b : Int) : evalIvDefS w l ρ i a b = evalIvDefS w l ρ' i a b := by
  have e1 : evalI w l ρ i.min = evalI w l ρ' i.min := by unfold evalI; rw [evalS_free h1]
  have e2 : evalI w l ρ i.max = evalI w l ρ' i.max := by unfold evalI; rw [evalS_free h2]
  unfold evalIvDefS evalDefS
  rw [e1, e2]

theorem nestEnv_get {w : World} {l : List Ev} : ∀ {cs : List NCrop} {ρ ρ' : SEnv}, cs.Pairwise Apart → nestEnv w l cs ρ = some ρ' →
    (∀ c ∈ cs, ∃ b v, ρ.buf? c.src = some b ∧ evalIvDefS w l ρ c.iv (b.dim c.dim).min (b.dim c.dim).max = some v ∧
      ρ' c.sym = .buf (b.crop c.dim v.1 v.2)) ∧ ∀ y, (∀ c ∈ cs, c.sym ≠ y) → ρ' y = ρ y
  | [], ρ, ρ', _, h => by
    simp only [nestEnv, Option.some.injEq] at h
    subst h
    simp
  | c :: cs, ρ, ρ', hp, h => by
    simp only [nestEnv, Option.bind_eq_some_iff] at h
    obtain ⟨b, h1, v, h2, h3⟩ := h
    obtain ⟨hp1, hp2⟩ := List.pairwise_cons.1 hp
    obtain ⟨i1, i2⟩ := nestEnv_get hp2 h3
    refine ⟨fun d hd => ?_, fun y hy => ?_⟩
    · rcases List.mem_cons.1 hd with rfl | hd
      · refine ⟨b, v, h1, h2, ?_⟩
        rw [i2 d.sym fun e he => (hp1 e he).1]
        simp [SEnv.set]
      · obtain ⟨b', v', j1, j2, j3⟩ := i1 d hd
        obtain ⟨a1, a2, a3, a4⟩ := hp1 d hd
        refine ⟨b', v', ?_, ?_, j3⟩
        · simpa [SEnv.buf?, SEnv.set, a2] using j1
        · rw [← j2]
          refine evalIvDefS_free (fun y hy => ?_) (fun y hy => ?_) _ _
          · have : y ≠ c.sym := by rintro rfl; exact a3 hy
            simp [SEnv.set, this]
          · have : y ≠ c.sym := by rintro rfl; exact a4 hy
            simp [SEnv.set, this]
    · rw [i2 y fun e he => hy e (by simp [he])]
      have : y ≠ c.sym := fun h => hy c (by simp) h.symm
      simp [SEnv.set, this]

/-! ### The iterations -/

/-- The values of the loop variable. -/
def iters (mn step : Int) (n : Nat) : List Int := (List.range n).map fun k : Nat => mn + (k : Int) * step

theorem iters_succ (mn step : Int) (n : Nat) : iters mn step (n + 1) = mn :: iters (mn + step) step n := by
  simp only [iters, List.range_succ_eq_map, List.map_cons, List.map_map]
  congr 1
  · simp
  · apply List.map_congr_left
    intro k _
    simp only [Function.comp, Nat.succ_eq_add_one]
    push_cast
    ring

theorem serialS_iters {f : Int → List Ev → Option (Int × List Ev)} {mn mx step : Int} (hs : 0 < step) : ∀ (fuel : Nat) (i : Int) (l l' : List Ev), mn ≤ i →
    serialS f mn mx step fuel i l = some (0, l') → ∃ n, runSeq f (iters i step n) l = some (0, l') ∧ (∀ v ∈ iters i step n, mn ≤ v ∧ v ≤ mx) ∧ mx < i + n * step
  | 0, i, l, l', _, h => by simp [serialS] at h
  | fuel + 1, i, l, l', hi, h => by
    unfold serialS at h
    split at h
    · next hc =>
      split at h
      · cases h
      · next r l1 hf =>
        split at h
        · next hr => cases h; exact absurd rfl hr
        · next hr =>
          split at h
          · cases h
          · next j hj =>
            have hr : r = 0 := by simpa using hr
            subst hr
            have hj := (chk64_eq hj).1
            subst hj
            obtain ⟨n, h1, h2, h3⟩ := serialS_iters hs fuel (i + step) l1 l' (by omega) h
            refine ⟨n + 1, ?_, ?_, ?_⟩
            · rw [iters_succ, runSeq, hf]
              simpa using h1
            · intro v hv
              rw [iters_succ] at hv
              rcases List.mem_cons.1 hv with rfl | hv
              · exact hc
              · exact h2 v hv
            · push_cast; linarith
    · next hc =>
      simp only [Option.some.injEq, Prod.mk.injEq, true_and] at h
      subst h
      refine ⟨0, by simp [iters, runSeq], by simp [iters], ?_⟩
      simp; omega

theorem runSeq_forall {α β : Type} {f : α → List Ev → Option (Int × List Ev)} {g : β → List Ev → Option (Int × List Ev)} {A : α → β → Prop} :
    ∀ {vs : List α} {l l' : List Ev}, (∀ v ∈ vs, ∀ l l', f v l = some (0, l') → ∃ a, A v a ∧ g a l = some (0, l')) → runSeq f vs l = some (0, l') →
      ∃ as, List.Forall₂ A vs as ∧ runSeq g as l = some (0, l')
  | [], l, l', _, h => ⟨[], .nil, by simpa [runSeq] using h⟩
  | v :: vs, l, l', hf, h => by
    simp only [runSeq] at h
    split at h
    · cases h
    · next r l1 hv =>
      split at h
      · next hr => cases h; exact absurd rfl hr
      · next hr =>
        have hr : r = 0 := by simpa using hr
        subst hr
        obtain ⟨a, h1, h2⟩ := hf v (by simp) l l1 hv
        obtain ⟨as, h3, h4⟩ := runSeq_forall (fun v hv => hf v (by simp [hv])) h
        refine ⟨a :: as, .cons h1 h3, ?_⟩
        simp only [runSeq, h2]
        simpa using h4

/-! ### Conditions -/

/-- The conditions of C55. `cs` are the crops of the body, `sc` the scalar arguments of the call. -/
structure Cond (w : World) (host : Fn → List (Option Int) → Int) (cfg : SimpCfg) (rec : Rec) (s : SState) (ρ : SEnv) (x : Nat) (workers : Expr)
    (bounds : Interval) (step : Expr) (cs : List NCrop) (sc : List Expr) : Prop where
  h_host : ∀ l fn xs, w.host fn xs l = host fn xs
  h_range : ρ.InRange64
  /-- the simplifier is correct -/
  cfg_ok : ∀ env, SimpCfgOK cfg (memS host ρ) env
  sound : Sound (memS host ρ) rec
  /-- what the simplifier knows is true, and does not depend on the loop variable -/
  state : ∀ v, StateOK (memS host ρ) (ρ.env.set x v) s
  workers_ok : workers.ok = true ∧ workers.WF ∧ ¬ FreeIn x workers
  min_ok : bounds.min.ok = true ∧ bounds.min.WF ∧ ¬ FreeIn x bounds.min
  max_ok : bounds.max.ok = true ∧ bounds.max.WF ∧ ¬ FreeIn x bounds.max
  bounds_wf : bounds.WF
  step_ok : step.ok = true ∧ step.WF ∧ ¬ FreeIn x step
  step_plain : step.Plain [x]
  /-- the bounds of the crops -/
  ivMin_ok : ∀ c ∈ cs, c.iv.min.ok = true ∧ c.iv.min.WF ∧ c.iv.min.Plain [x]
  ivMax_ok : ∀ c ∈ cs, c.iv.max.ok = true ∧ c.iv.max.WF ∧ c.iv.max.Plain [x]
  iv_wf : ∀ c ∈ cs, c.iv.WF
  /-- the bounds over the loop do not depend on the loop variable -/
  wMin_ok : ∀ c ∈ cs, (wholeIv rec s x bounds c.iv).min = .undef ∨
    (wholeIv rec s x bounds c.iv).min.ok = true ∧ (wholeIv rec s x bounds c.iv).min.WF ∧ ¬ FreeIn x (wholeIv rec s x bounds c.iv).min
  wMax_ok : ∀ c ∈ cs, (wholeIv rec s x bounds c.iv).max = .undef ∨
    (wholeIv rec s x bounds c.iv).max.ok = true ∧ (wholeIv rec s x bounds c.iv).max.WF ∧ ¬ FreeIn x (wholeIv rec s x bounds c.iv).max
  /-- no crop uses what another crop declares -/
  apart : cs.Pairwise Apart
  wApart : (cs.map (whole rec s x bounds)).Pairwise Apart
  sym_ne : ∀ c ∈ cs, c.sym ≠ x
  dim_ok : ∀ c ∈ cs, ∀ b, ρ.buf? c.src = some b → c.dim < b.rank
  /-- the scalar arguments do not depend on the loop variable nor on the metadata of the cropped buffers -/
  scalars_ok : ∀ e ∈ sc, ¬ FreeIn x e ∧ ∀ c ∈ cs, ¬ FreeIn c.sym e

section
variable {w : World} {host : Fn → List (Option Int) → Int} {cfg : SimpCfg} {rec : Rec} {s : SState} {ρ : SEnv} {x : Nat} {workers : Expr}
  {bounds : Interval} {step : Expr} {cs : List NCrop} {sc : List Expr}

/-- The mathematical value of an expression in an iteration. -/
abbrev valAt (host : Fn → List (Option Int) → Int) (ρ : SEnv) (x : Nat) (v : Int) (e : Expr) : Int := eval (memS host ρ) (ρ.env.set x v) e

theorem buf?_set {ρ : SEnv} {x y : Nat} {v : Int} {b : Buf} (h : (ρ.set x (.int v)).buf? y = some b) : y ≠ x ∧ ρ.buf? y = some b := by
  by_cases hy : y = x
  · subst hy; simp [SEnv.buf?, SEnv.set, Val.buf?] at h
  · exact ⟨hy, by simpa [SEnv.buf?, SEnv.set, hy] using h⟩

theorem buf?_eq {ρ : SEnv} {y : Nat} {b : Buf} (h : ρ.buf? y = some b) : ρ y = .buf b := by
  unfold SEnv.buf? at h
  cases hy : ρ y with
  | buf c => rw [hy] at h; cases h; rfl
  | _ => rw [hy] at h; cases h

theorem Cond.rel (hC : Cond w host cfg rec s ρ x workers bounds step cs sc) {v : Int} (hv : InRange 64 v) :
    EnvRel ρ (ρ.set x (.int v)) (ρ.env.set x v) := (envRel_self hC.h_range).set ⟨rfl, hv⟩

theorem Cond.known (hC : Cond w host cfg rec s ρ x workers bounds step cs sc) {v : Int} (h1 : valAt host ρ x v bounds.min ≤ v) (h2 : v ≤ valAt host ρ x v bounds.max) :
    StateOK (memS host ρ) (ρ.env.set x v) (inLoop s x bounds) := by
  refine (hC.state v).setVar ⟨⟨hC.bounds_wf, ⟨?_, fun _ => ?_⟩, ⟨?_, fun _ => ?_⟩⟩, ?_, ?_⟩
  · rintro h; have := hC.min_ok.1; rw [show bounds.min = posInfE from h] at this; revert this; decide
  · simpa [Env.set] using h1
  · rintro h; have := hC.max_ok.1; rw [show bounds.max = negInfE from h] at this; revert this; decide
  · simpa [Env.set] using h2
  · simp [MR.Mem]
  · intro h; simp [Expr.ok] at h

/-- `B` is the part of `b` where the index of a dimension is in an interval. -/
def Restr (b B : Buf) (d : Nat) (lo hi : Int) : Prop :=
  (∀ i, B.InBounds i ↔ b.InBounds i ∧ lo ≤ i.getD d 0 ∧ i.getD d 0 ≤ hi) ∧ ∀ i, B.InBounds i → B.address i = b.address i

theorem restr_crop {b : Buf} {d : Nat} (h : d < b.rank) (lo hi : Int) : Restr b (b.crop d lo hi) d lo hi :=
  ⟨CC.crop_inB h lo hi, fun _ hi => CC.crop_addr h hi⟩

theorem inB_dim {b : Buf} {d : Nat} (h : d < b.rank) {i : List Int} (hi : b.InBounds i) : (b.dim d).min ≤ i.getD d 0 ∧ i.getD d 0 ≤ (b.dim d).max := by
  obtain ⟨j, h1, h2⟩ := InB.get hi (dim_eq b d h)
  rw [CC.inB_getD hi h] at h1
  cases h1
  exact h2

/-- The environment of a call: the buffers of the crops are parts of the buffers outside, and the other symbols are as outside. -/
structure EnvOf (ρ : SEnv) (x : Nat) (cs : List NCrop) (lo hi : NCrop → Buf → Int) (ρ' : SEnv) : Prop where
  crop : ∀ c ∈ cs, ∃ b B, ρ.buf? c.src = some b ∧ ρ' c.sym = .buf B ∧ Restr b B c.dim (lo c b) (hi c b)
  other : ∀ y, (∀ c ∈ cs, c.sym ≠ y) → y ≠ x → ρ' y = ρ y
  var : ∃ v, ρ' x = .int v

theorem ok_ne {e : Expr} (h : e.ok = true) : e.defined = true := by cases e <;> simp_all [Expr.ok, Expr.defined]

theorem Cond.iterEnv (hC : Cond w host cfg rec s ρ x workers bounds step cs sc) {v : Int} (hv : InRange 64 v) {l : List Ev} {ρ' : SEnv}
    (h : nestEnv w l cs (ρ.set x (.int v)) = some ρ') : EnvOf ρ x cs (fun c _ => valAt host ρ x v c.iv.min) (fun c _ => valAt host ρ x v c.iv.max) ρ' := by
  obtain ⟨h1, h2⟩ := nestEnv_get hC.apart h
  refine ⟨fun c hc => ?_, fun y hy hx => ?_, v, ?_⟩
  · obtain ⟨b, u, j1, j2, j3⟩ := h1 c hc
    obtain ⟨k1, k2⟩ := buf?_set j1
    refine ⟨b, _, k2, j3, ?_⟩
    obtain ⟨m1, m2, m3⟩ := hC.ivMin_ok c hc
    obtain ⟨n1, n2, n3⟩ := hC.ivMax_ok c hc
    have : u = (valAt host ρ x v c.iv.min, valAt host ρ x v c.iv.max) := by
      unfold evalIvDefS at j2
      split at j2
      · next hp =>
        simp only [Interval.isPoint, Bool.and_eq_true] at hp
        simp only [Option.bind_eq_bind, Option.bind_eq_some_iff, Option.some.injEq] at j2
        obtain ⟨a, q1, rfl⟩ := j2
        have := (evalI_eval (hC.h_host l) m2 (hC.rel hv) q1).1
        rw [← hC.iv_wf c hc hp.2]
        simp [valAt, this]
      · simp only [Option.bind_eq_bind, Option.bind_eq_some_iff, Option.some.injEq, evalDefS, ok_ne m1, ok_ne n1, if_true] at j2
        obtain ⟨a, q1, b, q2, rfl⟩ := j2
        have := (evalI_eval (hC.h_host l) m2 (hC.rel hv) q1).1
        have := (evalI_eval (hC.h_host l) n2 (hC.rel hv) q2).1
        simp [valAt, *]
    rw [this]
    exact restr_crop (hC.dim_ok c hc b k2) _ _
  · rw [h2 y hy]; simp [SEnv.set, hx]
  · rw [h2 x hC.sym_ne]; simp [SEnv.set]

/-- The bounds of the crop of the new call, where the missing ends are the ends of the buffer. -/
def wholeLo (host : Fn → List (Option Int) → Int) (rec : Rec) (s : SState) (ρ : SEnv) (x : Nat) (bounds : Interval) (c : NCrop) (b : Buf) : Int :=
  if (wholeIv rec s x bounds c.iv).min.defined then eval (memS host ρ) ρ.env (wholeIv rec s x bounds c.iv).min else (b.dim c.dim).min
/-- See `wholeLo`. -/
def wholeHi (host : Fn → List (Option Int) → Int) (rec : Rec) (s : SState) (ρ : SEnv) (x : Nat) (bounds : Interval) (c : NCrop) (b : Buf) : Int :=
  if (wholeIv rec s x bounds c.iv).max.defined then eval (memS host ρ) ρ.env (wholeIv rec s x bounds c.iv).max else (b.dim c.dim).max

theorem evalDef_whole (hC : Cond w host cfg rec s ρ x workers bounds step cs sc) {v : Int} (hv : InRange 64 v) {e : Expr} (he : e = .undef ∨ e.ok = true ∧ e.WF ∧ ¬ FreeIn x e)
    {l : List Ev} {d a : Int} (h : evalDefS w l (ρ.set x (.int v)) e d = some a) : a = if e.defined then eval (memS host ρ) ρ.env e else d := by
  rcases he with rfl | ⟨_, h2, h3⟩
  · simp [evalDefS, Expr.defined] at h ⊢; exact h.symm
  · unfold evalDefS at h
    split at h
    · next hd => rw [if_pos hd, ← (evalI_eval (hC.h_host l) h2 (hC.rel hv) h).1, eval_set_not_free _ _ _ _ _ h3]
    · next hd => rw [if_neg hd]; cases h; rfl

theorem Cond.wholeEnv (hC : Cond w host cfg rec s ρ x workers bounds step cs sc) {v : Int} (hv : InRange 64 v) {l : List Ev} {ρ' : SEnv}
    (h : nestEnv w l (cs.map (whole rec s x bounds)) (ρ.set x (.int v)) = some ρ') :
    EnvOf ρ x cs (wholeLo host rec s ρ x bounds) (wholeHi host rec s ρ x bounds) ρ' := by
  obtain ⟨h1, h2⟩ := nestEnv_get hC.wApart h
  simp only [List.mem_map, forall_exists_index, and_imp, forall_apply_eq_imp_iff₂] at h1 h2
  refine ⟨fun c hc => ?_, fun y hy hx => ?_, v, ?_⟩
  · obtain ⟨b, u, j1, j2, j3⟩ := h1 c hc
    obtain ⟨k1, k2⟩ := buf?_set j1
    refine ⟨b, _, k2, j3, ?_⟩
    have : u = (wholeLo host rec s ρ x bounds c b, wholeHi host rec s ρ x bounds c b) := by
      have hp : (whole rec s x bounds c).iv.isPoint = false := by simp [whole, wholeIv, Interval.isPoint]
      simp only [evalIvDefS, hp, Bool.false_eq_true, if_false, Option.bind_eq_bind, Option.bind_eq_some_iff, Option.some.injEq] at j2
      obtain ⟨a, q1, a', q2, rfl⟩ := j2
      have e1 := evalDef_whole hC hv (hC.wMin_ok c hc) q1
      have e2 := evalDef_whole hC hv (hC.wMax_ok c hc) q2
      rw [e1, e2]
      rfl
    rw [this]
    exact restr_crop (hC.dim_ok c hc b k2) _ _
  · rw [h2 y hy]; simp [SEnv.set, hx]
  · rw [h2 x hC.sym_ne]; simp [SEnv.set]

/-- The bounds over the loop contain the bounds of each iteration. -/
theorem Cond.encl (hC : Cond w host cfg rec s ρ x workers bounds step cs sc) {v : Int} (h1 : valAt host ρ x v bounds.min ≤ v) (h2 : v ≤ valAt host ρ x v bounds.max)
    {c : NCrop} (hc : c ∈ cs) {b : Buf} {i : List Int} (hb : ρ.buf? c.src = some b) (hi : b.InBounds i)
    (hl : valAt host ρ x v c.iv.min ≤ i.getD c.dim 0) (hh : i.getD c.dim 0 ≤ valAt host ρ x v c.iv.max) :
    wholeLo host rec s ρ x bounds c b ≤ i.getD c.dim 0 ∧ i.getD c.dim 0 ≤ wholeHi host rec s ρ x bounds c b := by
  have hs := hC.known h1 h2
  obtain ⟨d1, d2⟩ := inB_dim (hC.dim_ok c hc b hb) hi
  constructor
  · unfold wholeLo
    split
    · next hd =>
      rcases hC.wMin_ok c hc with hu | ⟨k1, _, k3⟩
      · rw [hu] at hd; cases hd
      · have := ((hC.sound (inLoop s x bounds) c.iv.min (hC.ivMin_ok c hc).1).2 _ hs).2.bounds.lo.2 k1
        rw [show (rec (inLoop s x bounds) c.iv.min).2.bounds.min = (wholeIv rec s x bounds c.iv).min from rfl, eval_set_not_free _ _ _ _ _ k3] at this
        exact this.trans hl
    · exact d1
  · unfold wholeHi
    split
    · next hd =>
      rcases hC.wMax_ok c hc with hu | ⟨k1, _, k3⟩
      · rw [hu] at hd; cases hd
      · have key : ∀ e, e.ok = true → valAt host ρ x v e = valAt host ρ x v c.iv.max → (wholeIv rec s x bounds c.iv).max = (rec (inLoop s x bounds) e).2.bounds.max →
            i.getD c.dim 0 ≤ eval (memS host ρ) ρ.env (wholeIv rec s x bounds c.iv).max := by
          intro e he hv hw
          have := ((hC.sound (inLoop s x bounds) e he).2 _ hs).2.bounds.hi.2 (by rw [← hw]; exact k1)
          rw [← hw, eval_set_not_free _ _ _ _ _ k3] at this
          refine hh.trans (le_trans (le_of_eq hv.symm) this)
        by_cases hm : (c.iv.isPoint || matchE c.iv.min c.iv.max) = true
        · have : c.iv.min = c.iv.max := by
            rcases Bool.or_eq_true _ _ ▸ hm with hm | hm
            · simp only [Interval.isPoint, Bool.and_eq_true] at hm
              exact hC.iv_wf c hc hm.2
            · exact (match_iff _ _).1 hm
          exact key c.iv.min (hC.ivMin_ok c hc).1 (by rw [this]) (by simp [wholeIv, hm])
        · exact key c.iv.max (hC.ivMax_ok c hc).1 rfl (by simp [wholeIv, hm])
    · exact d2

/-! ### The arguments of the calls -/

theorem mapM_get {α β : Type} {f : α → Option β} : ∀ {as : List α} {bs : List β}, as.mapM f = some bs →
    as.length = bs.length ∧ ∀ (k : Nat) (b : β), bs[k]? = some b → ∃ y, as[k]? = some y ∧ f y = some b
  | [], bs, h => by simp at h; subst h; simp
  | a :: as, bs, h => by
    simp only [List.mapM_cons, Option.bind_eq_bind, Option.bind_eq_some_iff, Option.pure_def, Option.some.injEq] at h
    obtain ⟨b, h1, bs', h2, rfl⟩ := h
    obtain ⟨i1, i2⟩ := mapM_get h2
    refine ⟨by simp [i1], fun k c hk => ?_⟩
    cases k with
    | zero => simp at hk; subst hk; exact ⟨a, by simp, h1⟩
    | succ k => simp at hk; simpa using i2 k c hk

/-- The arguments of a call in an environment; `l` is any log. -/
structure ArgsOf (w : World) (l : List Ev) (ρ : SEnv) (ins outs : List Nat) (sc : List Expr) (ρ' : SEnv) (a : Args) : Prop where
  ins : ins.mapM ρ'.buf? = some a.ins
  outs : outs.mapM ρ'.buf? = some a.outs
  scalars : sc.mapM (evalI w l ρ) = some a.scalars

theorem Cond.args (hC : Cond w host cfg rec s ρ x workers bounds step cs sc) {lo hi : NCrop → Buf → Int} {ρ' : SEnv} (hE : EnvOf ρ x cs lo hi ρ') {t : Nat} {ins outs : List Nat}
    {l l' l0 : List Ev} (h : sem w false (.call t ins outs sc) ρ' l = some (0, l')) : ∃ a, ArgsOf w l0 ρ ins outs sc ρ' a ∧ callW w t a l = some (0, l') := by
  simp only [sem, Option.bind_eq_bind, Option.bind_eq_some_iff] at h
  obtain ⟨is, h1, os, h2, xs, h3, h4⟩ := h
  refine ⟨⟨is, os, xs⟩, ⟨h1, h2, ?_⟩, h4⟩
  rw [← h3]
  have : ∀ e ∈ sc, evalI w l0 ρ e = evalI w l ρ' e := by
    intro e he
    obtain ⟨f1, f2⟩ := hC.scalars_ok e he
    rw [evalI_log e ρ (l' := l) (.inl fun fn xs => by rw [hC.h_host, hC.h_host])]
    unfold evalI
    rw [evalS_free fun y hy => (hE.other y (fun c hc hs => f2 c hc (hs ▸ hy)) (fun hx => f1 (hx ▸ hy))).symm]
  clear h3 h4
  revert this
  generalize sc = es
  intro this
  induction es with
  | nil => rfl
  | cons e es ih =>
    rw [List.mapM_cons, List.mapM_cons, this e (by simp), ih fun e he => this e (by simp [he])]

/-- The whole of a buffer argument covers each of the parts. -/
theorem buf_covers {lo hi lo' hi' : NCrop → Buf → Int} {ρ1 ρ2 : SEnv} (h1 : EnvOf ρ x cs lo hi ρ1) (h2 : EnvOf ρ x cs lo' hi' ρ2)
    (hle : ∀ c ∈ cs, ∀ b, ρ.buf? c.src = some b → ∀ i, b.InBounds i → lo c b ≤ i.getD c.dim 0 → i.getD c.dim 0 ≤ hi c b → lo' c b ≤ i.getD c.dim 0 ∧ i.getD c.dim 0 ≤ hi' c b)
    {y : Nat} {B1 B2 : Buf} (e1 : ρ1.buf? y = some B1) (e2 : ρ2.buf? y = some B2) {i : List Int} (hi1 : B1.InBounds i) : B2.InBounds i ∧ B2.address i = B1.address i := by
  have e1 := buf?_eq e1
  have e2 := buf?_eq e2
  by_cases hy : ∃ c ∈ cs, c.sym = y
  · obtain ⟨c, hc, rfl⟩ := hy
    obtain ⟨b, C1, k1, k2, k3⟩ := h1.crop c hc
    obtain ⟨b', C2, m1, m2, m3⟩ := h2.crop c hc
    rw [k1] at m1; cases m1
    rw [e1] at k2; cases k2
    rw [e2] at m2; cases m2
    obtain ⟨q1, q2, q3⟩ := (k3.1 i).1 hi1
    have : B2.InBounds i := (m3.1 i).2 ⟨q1, hle c hc b k1 i q1 q2 q3⟩
    exact ⟨this, (m3.2 i this).trans (k3.2 i hi1).symm⟩
  · push Not at hy
    have hx : y ≠ x := by
      rintro rfl
      obtain ⟨v, hv⟩ := h1.var
      rw [hv] at e1; cases e1
    rw [h1.other y hy hx] at e1
    rw [h2.other y hy hx, e1] at e2
    cases e2
    exact ⟨hi1, rfl⟩

/-- An element of the whole of a buffer argument is an element of a part. -/
theorem buf_noMore {lo' hi' : NCrop → Buf → Int} {ρ2 : SEnv} {vs : List Int} {lo hi : Int → NCrop → Buf → Int} {ρs : Int → SEnv} (hne : vs ≠ [])
    (h1 : ∀ v ∈ vs, EnvOf ρ x cs (lo v) (hi v) (ρs v)) (h2 : EnvOf ρ x cs lo' hi' ρ2)
    (hle : ∀ c ∈ cs, ∀ b, ρ.buf? c.src = some b → ∀ i, b.InBounds i → lo' c b ≤ i.getD c.dim 0 → i.getD c.dim 0 ≤ hi' c b →
      ∃ v ∈ vs, lo v c b ≤ i.getD c.dim 0 ∧ i.getD c.dim 0 ≤ hi v c b)
    {y : Nat} {B2 : Buf} (e2 : ρ2.buf? y = some B2) {i : List Int} (hi2 : B2.InBounds i) : ∃ v ∈ vs, ∃ B, (ρs v).buf? y = some B ∧ B.InBounds i := by
  have e2 := buf?_eq e2
  by_cases hy : ∃ c ∈ cs, c.sym = y
  · obtain ⟨c, hc, rfl⟩ := hy
    obtain ⟨b, C2, m1, m2, m3⟩ := h2.crop c hc
    rw [e2] at m2; cases m2
    obtain ⟨q1, q2, q3⟩ := (m3.1 i).1 hi2
    obtain ⟨v, hv, r1, r2⟩ := hle c hc b m1 i q1 q2 q3
    obtain ⟨b', C1, k1, k2, k3⟩ := (h1 v hv).crop c hc
    rw [k1] at m1; cases m1
    exact ⟨v, hv, C1, by simp [SEnv.buf?, k2, Val.buf?], (k3.1 i).2 ⟨q1, r1, r2⟩⟩
  · push Not at hy
    have hx : y ≠ x := by
      rintro rfl
      obtain ⟨v, hv⟩ := h2.var
      rw [hv] at e2; cases e2
    obtain ⟨v, hv⟩ := List.exists_mem_of_ne_nil vs hne
    refine ⟨v, hv, B2, ?_, hi2⟩
    rw [h2.other y hy hx] at e2
    simp [SEnv.buf?, (h1 v hv).other y hy hx, e2, Val.buf?]

end

end Slinky.DL
