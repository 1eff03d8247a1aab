import Verif.DropLoopThm

/-! # C55: the theorems -/

namespace Slinky.DL

section
variable {w : World} {host : Fn → List (Option Int) → Int} {cfg : SimpCfg} {rec : Rec} {s : SState} {ρ : SEnv} {x : Nat} {workers : Expr}
  {bounds : Interval} {step : Expr} {cs : List NCrop} {sc : List Expr}

theorem evalIvS_eval (hh : ∀ l fn xs, w.host fn xs l = host fn xs) (hr : ρ.InRange64) {i : Interval} (hw : i.WF) (h1 : i.min.WF) (h2 : i.max.WF) {l : List Ev} {v : Int × Int}
    (h : evalIvS w l ρ i = some v) : v = (eval (memS host ρ) ρ.env i.min, eval (memS host ρ) ρ.env i.max) ∧ InRange 64 v.1 ∧ InRange 64 v.2 := by
  simp only [evalIvS, Option.bind_eq_bind, Option.bind_eq_some_iff] at h
  obtain ⟨a, q1, q2⟩ := h
  have e1 := evalI_eval (hh l) h1 (envRel_self hr) q1
  split at q2
  · next hp =>
    cases q2
    simp only [Interval.isPoint, Bool.and_eq_true] at hp
    rw [← hw hp.2, e1.1]
    exact ⟨rfl, e1.2, e1.2⟩
  · simp only [Option.bind_eq_some_iff, Option.some.injEq] at q2
    obtain ⟨b, q3, rfl⟩ := q2
    have e2 := evalI_eval (hh l) h2 (envRel_self hr) q3
    rw [e1.1, e2.1]
    exact ⟨rfl, e1.2, e2.2⟩

/-- A serial loop runs its body for the values of the loop variable. -/
theorem Cond.loop (hC : Cond w host cfg rec s ρ x workers bounds step cs sc) (hw : proveTrueS cfg rec s (mkBin .eq workers (.const 1)) = true) {bd : Interval} {st : Expr}
    (b1 : bd.WF) (b2 : bd.min.WF) (b3 : bd.max.WF) (b4 : st.ok = true) (b5 : st.WF) (b6 : 0 < eval (memS host ρ) ρ.env st) {body : Stmt} {l l' : List Ev}
    (h : sem w false (.loop x workers bd st body) ρ l = some (0, l')) :
    InRange 64 (eval (memS host ρ) ρ.env bd.min) ∧ InRange 64 (eval (memS host ρ) ρ.env bd.max) ∧
    ∃ n, runSeq (fun v l => sem w false body (ρ.set x (.int v)) l) (iters (eval (memS host ρ) ρ.env bd.min) (eval (memS host ρ) ρ.env st) n) l = some (0, l') ∧
      (∀ v ∈ iters (eval (memS host ρ) ρ.env bd.min) (eval (memS host ρ) ρ.env st) n, eval (memS host ρ) ρ.env bd.min ≤ v ∧ v ≤ eval (memS host ρ) ρ.env bd.max) ∧
      eval (memS host ρ) ρ.env bd.max < eval (memS host ρ) ρ.env bd.min + n * eval (memS host ρ) ρ.env st := by
  simp only [sem, Option.bind_eq_bind, Option.bind_eq_some_iff, evalDefS, ok_ne b4, if_true] at h
  obtain ⟨k, h1, v, h2, sv, h3, h4⟩ := h
  obtain ⟨e1, e2, e3⟩ := evalIvS_eval hC.h_host hC.h_range b1 b2 b3 h2
  have e4 := (evalI_eval (hC.h_host l) b5 (envRel_self hC.h_range) h3).1
  have e5 := (evalI_eval (hC.h_host l) hC.workers_ok.2.1 (envRel_self hC.h_range) h1).1
  have hk : k = 1 := by
    have := proveTrueS_sound hC.cfg_ok hC.sound (by simp [hC.workers_ok.1]) (hC.state 0) hw
    rw [CB.eval_mkBin, eval_set_not_free _ _ _ _ _ hC.workers_ok.2.2, e5] at this
    by_contra hne
    simp [BinOp.denote, b2i, eval, hne] at this
  subst hk
  have hs : sv ≠ 0 := by rw [← e4]; omega
  simp only [hs, if_false, show ¬ ((1 : Int) > 1) by omega] at h4
  rw [e1] at h4 e2 e3
  refine ⟨e2, e3, ?_⟩
  rw [e4]
  exact serialS_iters (by rw [← e4]; exact b6) _ _ _ _ (le_refl _) h4

theorem iters_mem {mn step : Int} {n : Nat} {v : Int} : v ∈ iters mn step n ↔ ∃ k : Nat, k < n ∧ v = mn + k * step := by
  simp only [iters, List.mem_map, List.mem_range]
  exact ⟨fun ⟨k, h1, h2⟩ => ⟨k, h1, h2.symm⟩, fun ⟨k, h1, h2⟩ => ⟨k, h1, h2.symm⟩⟩

/-- The calls of the loop, and of the loop that replaces it. -/
theorem Cond.calls {body : Stmt} {t : Nat} {ins outs : List Nat} (hC : Cond w host cfg rec s ρ x workers bounds step (peel body).1 sc)
    (hw : proveTrueS cfg rec s (mkBin .eq workers (.const 1)) = true) (hb : (peel body).2 = .call t ins outs sc) (hs : 0 < eval (memS host ρ) ρ.env step) {l l1 l2 : List Ev}
    (h1 : sem w false (.loop x workers bounds step body) ρ l = some (0, l1))
    (h2 : sem w false (.loop x workers ⟨mkBin .lt bounds.max bounds.min, .const 0, false⟩ (.const 1) (nest ((peel body).1.map (whole rec s x bounds)) (peel body).2)) ρ l = some (0, l2)) :
    ∃ (n : Nat) (as as' : List Args), runSeq (callW w t) as l = some (0, l1) ∧ runSeq (callW w t) as' l = some (0, l2) ∧
      (∀ v ∈ iters (eval (memS host ρ) ρ.env bounds.min) (eval (memS host ρ) ρ.env step) n, eval (memS host ρ) ρ.env bounds.min ≤ v ∧ v ≤ eval (memS host ρ) ρ.env bounds.max) ∧
      eval (memS host ρ) ρ.env bounds.max < eval (memS host ρ) ρ.env bounds.min + n * eval (memS host ρ) ρ.env step ∧
      List.Forall₂ (fun v a => ∃ ρ', EnvOf ρ x (peel body).1 (fun c _ => valAt host ρ x v c.iv.min) (fun c _ => valAt host ρ x v c.iv.max) ρ' ∧ ArgsOf w l ρ ins outs sc ρ' a)
        (iters (eval (memS host ρ) ρ.env bounds.min) (eval (memS host ρ) ρ.env step) n) as ∧
      (n = 0 ∧ as' = [] ∨ 0 < n ∧ ∃ c ρ', as' = [c] ∧ EnvOf ρ x (peel body).1 (wholeLo host rec s ρ x bounds) (wholeHi host rec s ρ x bounds) ρ' ∧ ArgsOf w l ρ ins outs sc ρ' c) := by
  obtain ⟨r1, r2, n, p1, p2, p3⟩ := hC.loop hw hC.bounds_wf hC.min_ok.2.1 hC.max_ok.2.1 hC.step_ok.1 hC.step_ok.2.1 hs h1
  obtain ⟨r3, r4, n', q1, q2, q3⟩ := hC.loop (bd := ⟨mkBin .lt bounds.max bounds.min, .const 0, false⟩) (st := .const 1) hw (by simp [Interval.WF]) (wf_mkBin (op := .lt) hC.max_ok.2.1 hC.min_ok.2.1)
    (wf_const (by simp [InRange])) (by simp [Expr.ok]) (wf_const (by simp [InRange])) (by simp [eval]) h2
  simp only [eval, CB.eval_mkBin, BinOp.denote, b2i] at q1 q2 q3
  rw [← nest_peel body, hb] at p1
  simp only [sem_nest, hb] at p1 q1
  generalize hmn : eval (memS host ρ) ρ.env bounds.min = mn at *
  generalize hmx : eval (memS host ρ) ρ.env bounds.max = mx at *
  generalize hst : eval (memS host ρ) ρ.env step = st at *
  obtain ⟨as, a1, a2⟩ := runSeq_forall (g := callW w t)
    (A := fun v a => ∃ ρ', EnvOf ρ x (peel body).1 (fun c _ => valAt host ρ x v c.iv.min) (fun c _ => valAt host ρ x v c.iv.max) ρ' ∧ ArgsOf w l ρ ins outs sc ρ' a)
    (fun v hv l' l'' h => by
      simp only [Option.bind_eq_some_iff] at h
      obtain ⟨ρ', g1, g2⟩ := h
      have hv := p2 v hv
      have hE := hC.iterEnv (v := v) (by unfold InRange at *; omega) g1
      obtain ⟨a, k1, k2⟩ := hC.args (l0 := l) hE g2
      exact ⟨a, ⟨ρ', hE, k1⟩, k2⟩) p1
  by_cases hle : mn ≤ mx
  · have hlt : ¬ mx < mn := by omega
    simp only [hlt, decide_false, Bool.false_eq_true, if_false] at q1 q2 q3
    have hn : n ≠ 0 := by rintro rfl; simp at p3; omega
    have hn' : n' = 1 := by
      have g1 : 0 < n' := by omega
      by_contra hne
      have := (q2 1 (iters_mem.2 ⟨1, by omega, by simp⟩)).2
      omega
    subst hn'
    simp only [iters, List.range_one, List.map_cons, List.map_nil, runSeq, Nat.cast_zero, zero_mul, add_zero] at q1
    split at q1
    · cases q1
    · next r l3 hf =>
      split at q1
      · next hr => cases q1; exact absurd rfl hr
      · next hr =>
        cases q1
        have hr : r = 0 := by simpa using hr
        subst hr
        simp only [Option.bind_eq_some_iff] at hf
        obtain ⟨ρ', g1, g2⟩ := hf
        have hE := hC.wholeEnv (v := 0) (by simp [InRange]) g1
        obtain ⟨c, k1, k2⟩ := hC.args (l0 := l) hE g2
        exact ⟨n, as, [c], a2, by simp [runSeq, k2], p2, p3, a1, .inr ⟨by omega, c, ρ', rfl, hE, k1⟩⟩
  · have hlt : mx < mn := by omega
    simp only [hlt, decide_true, if_true] at q1 q2 q3
    have hn : n = 0 := by
      by_contra hne
      have := p2 mn (iters_mem.2 ⟨0, by omega, by simp⟩)
      omega
    have hn' : n' = 0 := by
      by_contra hne
      have := (q2 1 (iters_mem.2 ⟨0, by omega, by simp⟩)).2
      omega
    subst hn'
    simp only [iters, List.range_zero, List.map_nil, runSeq] at q1
    exact ⟨n, as, [], a2, by simpa [runSeq] using q1, p2, p3, a1, .inl ⟨hn, rfl⟩⟩

theorem column_mem {f : Args → List Buf} {k : Nat} {as : List Args} {b : Buf} : b ∈ column f k as ↔ ∃ a ∈ as, (f a)[k]? = some b := by
  simp [column]

theorem forall₂_r {α β : Type} {R : α → β → Prop} : ∀ {as : List α} {bs : List β}, List.Forall₂ R as bs → ∀ b ∈ bs, ∃ a ∈ as, R a b
  | _, _, .cons h h', b, hb => by
    rcases List.mem_cons.1 hb with rfl | hb
    · exact ⟨_, by simp, h⟩
    · obtain ⟨a, h1, h2⟩ := forall₂_r h' b hb
      exact ⟨a, by simp [h1], h2⟩

theorem forall₂_l {α β : Type} {R : α → β → Prop} : ∀ {as : List α} {bs : List β}, List.Forall₂ R as bs → ∀ a ∈ as, ∃ b ∈ bs, R a b
  | _, _, .cons h h', b, hb => by
    rcases List.mem_cons.1 hb with rfl | hb
    · exact ⟨_, by simp, h⟩
    · obtain ⟨a, h1, h2⟩ := forall₂_l h' b hb
      exact ⟨a, by simp [h1], h2⟩

/-- The ends of the bounds over the loop are reached: the bounds begin where the bounds of the first iteration begin, or at the beginning of the
buffer, and end where the bounds of an iteration end, or at the end of the buffer. -/
def Tight (host : Fn → List (Option Int) → Int) (rec : Rec) (s : SState) (ρ : SEnv) (x : Nat) (bounds : Interval) (step : Expr) (cs : List NCrop) : Prop :=
  ∀ c ∈ cs, ∀ b, ρ.buf? c.src = some b →
    valAt host ρ x (eval (memS host ρ) ρ.env bounds.min) c.iv.min ≤ max (wholeLo host rec s ρ x bounds c b) (b.dim c.dim).min ∧
    ∃ k : Nat, eval (memS host ρ) ρ.env bounds.min + k * eval (memS host ρ) ρ.env step ≤ eval (memS host ρ) ρ.env bounds.max ∧
      min (wholeHi host rec s ρ x bounds c b) (b.dim c.dim).max ≤
        valAt host ρ x (eval (memS host ρ) ρ.env bounds.min + k * eval (memS host ρ) ρ.env step) c.iv.max

/-- One of the two conditions of contiguity is proved by itself. -/
def OneWay (cfg : SimpCfg) (rec : Rec) (s : SState) (x : Nat) (bounds : Interval) (step : Expr) (cs : List NCrop) : Prop :=
  ∀ c ∈ cs, proveTrueS cfg rec (inLoop s x bounds) (nextOK x step c.iv) = true ∨ proveTrueS cfg rec (inLoop s x bounds) (prevOK x step c.iv) = true

theorem substitute_bin (e : Expr) (x : Nat) (op : BinOp) (a b : Expr) : substitute e x (mkBin op a b) = substE x (mkBin op a b) e := by
  unfold mkBin
  split <;> rfl

theorem mkBin_ok' {op : BinOp} {a b : Expr} (ha : a.ok = true) (hb : b.ok = true) : (mkBin op a b).ok = true := by simp [ha, hb]

theorem Cond.shift (hC : Cond w host cfg rec s ρ x workers bounds step cs sc) {op : BinOp} {e : Expr} (h1 : e.ok = true) (h2 : e.Plain [x]) (v : Int) :
    (substitute e x (mkBin op (.v x) step)).ok = true ∧
    valAt host ρ x v (substitute e x (mkBin op (.v x) step)) = valAt host ρ x (op.denote v (eval (memS host ρ) ρ.env step)) e := by
  have hok : (mkBin op (.v x) step).ok = true := mkBin_ok' rfl hC.step_ok.1
  rw [substitute_bin]
  constructor
  · exact (substP_ok x (ok_ne hok) hok (wf_mkBin trivial hC.step_ok.2.1) (X := [x]) (by simp) (plain_mkBin (.inl rfl) hC.step_plain) e h2).1 h1
  · rw [valAt, substP_plain (memS host ρ) x (ok_ne hok) (X := [x]) (by simp) e h2, CB.eval_mkBin, eval_set_not_free _ _ _ _ _ hC.step_ok.2.2]
    congr 1
    funext y
    by_cases hy : y = x
    · subst hy; simp [Env.set, eval, Expr.v]
    · simp [Env.set, hy]

/-- The bounds of an iteration begin at most one after the end of the bounds of the iteration before. -/
theorem Cond.noGap (hC : Cond w host cfg rec s ρ x workers bounds step cs sc) (ho : OneWay cfg rec s x bounds step cs) {c : NCrop} (hc : c ∈ cs) {v : Int}
    (h1 : eval (memS host ρ) ρ.env bounds.min ≤ v) (h2 : v ≤ eval (memS host ρ) ρ.env bounds.max) (hs : 0 < eval (memS host ρ) ρ.env step)
    (h3 : v + eval (memS host ρ) ρ.env step ≤ eval (memS host ρ) ρ.env bounds.max) :
    valAt host ρ x (v + eval (memS host ρ) ρ.env step) c.iv.min ≤ valAt host ρ x v c.iv.max + 1 := by
  have hin : ∀ u, eval (memS host ρ) ρ.env bounds.min ≤ u → u ≤ eval (memS host ρ) ρ.env bounds.max → StateOK (memS host ρ) (ρ.env.set x u) (DL.inLoop s x bounds) := fun u a b =>
    hC.known (by rw [valAt, eval_set_not_free _ _ _ _ _ hC.min_ok.2.2]; exact a) (by rw [valAt, eval_set_not_free _ _ _ _ _ hC.max_ok.2.2]; exact b)
  obtain ⟨m1, m2, m3⟩ := hC.ivMin_ok c hc
  obtain ⟨n1, n2, n3⟩ := hC.ivMax_ok c hc
  rcases ho c hc with hp | hp
  · obtain ⟨k1, k2⟩ := hC.shift (op := .add) m1 m3 v
    have := proveTrueS_sound hC.cfg_ok hC.sound (by simp [nextOK, m1, n1, k1, Expr.ok]) (hin v h1 h2) hp
    simp only [nextOK, CB.eval_mkBin] at this
    rw [show eval (memS host ρ) (ρ.env.set x v) (substitute c.iv.min x (mkBin .add (.v x) step)) = _ from k2] at this
    simp only [BinOp.denote, b2i, eval] at this
    by_contra hcon
    exact this (if_neg fun h => h.2 (if_neg hcon))
  · obtain ⟨k1, k2⟩ := hC.shift (op := .sub) m1 m3 (v + eval (memS host ρ) ρ.env step)
    obtain ⟨k3, k4⟩ := hC.shift (op := .sub) n1 n3 (v + eval (memS host ρ) ρ.env step)
    have := proveTrueS_sound hC.cfg_ok hC.sound (by simp [prevOK, m1, n1, k1, k3, Expr.ok]) (hin _ (by omega) h3) hp
    simp only [prevOK, CB.eval_mkBin] at this
    rw [show eval (memS host ρ) (ρ.env.set x (v + eval (memS host ρ) ρ.env step)) (substitute c.iv.max x (mkBin .sub (.v x) step)) = _ from k4] at this
    simp only [BinOp.denote, b2i, eval, add_sub_cancel_right] at this
    by_contra hcon
    exact this (if_neg fun h => h.2 (if_neg hcon))

/-- Intervals without gaps cover what is between the beginning of the first and the end of any. -/
theorem gapless {lo hi : Nat → Int} {i : Int} : ∀ (k : Nat), (∀ j < k, lo (j + 1) ≤ hi j + 1) → lo 0 ≤ i → i ≤ hi k → ∃ j ≤ k, lo j ≤ i ∧ i ≤ hi j
  | 0, _, h1, h2 => ⟨0, le_refl _, h1, h2⟩
  | k + 1, hg, h1, h2 => by
    by_cases h : lo (k + 1) ≤ i
    · exact ⟨k + 1, le_refl _, h, h2⟩
    · obtain ⟨j, j1, j2⟩ := gapless k (fun j hj => hg j (by omega)) h1 (by have := hg k (by omega); omega)
      exact ⟨j, by omega, j2⟩

theorem ArgsOf.lengths {l : List Ev} {ins outs : List Nat} {ρ' ρ'' : SEnv} {a c : Args} (h1 : ArgsOf w l ρ ins outs sc ρ' a) (h2 : ArgsOf w l ρ ins outs sc ρ'' c) :
    a.scalars = c.scalars ∧ a.ins.length = c.ins.length ∧ a.outs.length = c.outs.length := by
  refine ⟨Option.some.inj (h1.scalars.symm.trans h2.scalars), ?_, ?_⟩
  · rw [← (mapM_get h1.ins).1, ← (mapM_get h2.ins).1]
  · rw [← (mapM_get h1.outs).1, ← (mapM_get h2.outs).1]

/-- What is between the bounds over the loop is in the bounds of an iteration. -/
theorem Cond.far (hC : Cond w host cfg rec s ρ x workers bounds step cs sc) (ho : OneWay cfg rec s x bounds step cs) (ht : Tight host rec s ρ x bounds step cs)
    (hs : 0 < eval (memS host ρ) ρ.env step) {n : Nat}
    (c3 : ∀ v ∈ iters (eval (memS host ρ) ρ.env bounds.min) (eval (memS host ρ) ρ.env step) n, eval (memS host ρ) ρ.env bounds.min ≤ v ∧ v ≤ eval (memS host ρ) ρ.env bounds.max)
    (c4 : eval (memS host ρ) ρ.env bounds.max < eval (memS host ρ) ρ.env bounds.min + n * eval (memS host ρ) ρ.env step) (hn : 0 < n) :
    ∀ c ∈ cs, ∀ b, ρ.buf? c.src = some b → ∀ i, b.InBounds i → wholeLo host rec s ρ x bounds c b ≤ i.getD c.dim 0 → i.getD c.dim 0 ≤ wholeHi host rec s ρ x bounds c b →
      ∃ v ∈ iters (eval (memS host ρ) ρ.env bounds.min) (eval (memS host ρ) ρ.env step) n, valAt host ρ x v c.iv.min ≤ i.getD c.dim 0 ∧ i.getD c.dim 0 ≤ valAt host ρ x v c.iv.max := by
  intro c hc b hb i hi h1 h2
  obtain ⟨d1, d2⟩ := inB_dim (hC.dim_ok c hc b hb) hi
  obtain ⟨t1, k, t2, t3⟩ := ht c hc b hb
  have hk : k < n := by
    by_contra hk
    have : (n : Int) * eval (memS host ρ) ρ.env step ≤ k * eval (memS host ρ) ρ.env step := mul_le_mul_of_nonneg_right (by omega) (by omega)
    omega
  obtain ⟨j, j1, j2, j3⟩ := gapless (lo := fun j => valAt host ρ x (eval (memS host ρ) ρ.env bounds.min + j * eval (memS host ρ) ρ.env step) c.iv.min)
    (hi := fun j => valAt host ρ x (eval (memS host ρ) ρ.env bounds.min + j * eval (memS host ρ) ρ.env step) c.iv.max) (i := i.getD c.dim 0) k (fun j hj => by
      have a1 := c3 _ (iters_mem.2 ⟨j, by omega, rfl⟩)
      have a2 := (c3 _ (iters_mem.2 ⟨j + 1, by omega, rfl⟩)).2
      have e : eval (memS host ρ) ρ.env bounds.min + ((j + 1 : Nat) : Int) * eval (memS host ρ) ρ.env step =
          eval (memS host ρ) ρ.env bounds.min + j * eval (memS host ρ) ρ.env step + eval (memS host ρ) ρ.env step := by push_cast; ring
      show valAt host ρ x (eval (memS host ρ) ρ.env bounds.min + ((j + 1 : Nat) : Int) * eval (memS host ρ) ρ.env step) c.iv.min ≤ _
      rw [e] at a2 ⊢
      exact hC.noGap ho hc a1.1 a1.2 hs a2)
    (by simp only [Nat.cast_zero, zero_mul, add_zero]; exact t1.trans (max_le h1 d1)) (le_trans (le_min h2 d2) t3)
  exact ⟨_, iters_mem.2 ⟨j, by omega, rfl⟩, j2, j3⟩

theorem mapM_at {α β : Type} {f : α → Option β} {as : List α} {bs : List β} (h : as.mapM f = some bs) {k : Nat} {y : α} {b : β} (hy : as[k]? = some y) (hf : f y = some b) :
    bs[k]? = some b := by
  obtain ⟨h1, h2⟩ := mapM_get h
  have hk : k < bs.length := by rw [← h1]; exact (List.getElem?_eq_some_iff.1 hy).1
  obtain ⟨y', z1, z2⟩ := h2 k bs[k] (List.getElem?_eq_getElem hk)
  rw [hy] at z1; cases z1
  rw [List.getElem?_eq_getElem hk, ← z2, hf]

theorem drop_core {body : Stmt} {t : Nat} {ins outs : List Nat} (hC : Cond w host cfg rec s ρ x workers bounds step (peel body).1 sc)
    (hb : (peel body).2 = .call t ins outs sc) (hs : 0 < eval (memS host ρ) ρ.env step) {l l1 l2 : List Ev}
    (h1 : sem w false (.loop x workers bounds step body) ρ l = some (0, l1)) (h2 : sem w false (lastStep cfg rec s x workers bounds step body) ρ l = some (0, l2)) :
    lastStep cfg rec s x workers bounds step body = .loop x workers bounds step body ∨
    ∃ as as', runSeq (callW w t) as l = some (0, l1) ∧ runSeq (callW w t) as' l = some (0, l2) ∧ (as = [] ∧ as' = [] ∨ as ≠ [] ∧ ∃ c, as' = [c] ∧ Each Covers as c ∧
      (OneWay cfg rec s x bounds step (peel body).1 → Tight host rec s ρ x bounds step (peel body).1 → Each NoMore as c)) := by
  unfold lastStep at h2 ⊢
  split at h2
  · next hw =>
    rw [if_pos hw]
    split at h2
    · next r hr =>
      right
      have hr : r = nest ((peel body).1.map (whole rec s x bounds)) (peel body).2 := by
        unfold dropLoop at hr
        rw [hb] at hr ⊢
        split at hr
        · cases hr
        · split at hr
          · exact (Option.some.inj hr).symm
          · cases hr
      rw [hr] at h2
      obtain ⟨n, as, as', c1, c2, c3, c4, c5, c6⟩ := hC.calls hw hb hs h1 h2
      refine ⟨as, as', c1, c2, ?_⟩
      rcases c6 with ⟨hn, rfl⟩ | ⟨hn, c, ρ', rfl, g1, g2⟩
      · subst hn
        left
        refine ⟨?_, rfl⟩
        simpa [iters] using c5
      · right
        have hne : as ≠ [] := by
          rintro rfl
          have := c5.length_eq
          simp [iters] at this
          omega
        have hle : ∀ v ∈ iters (eval (memS host ρ) ρ.env bounds.min) (eval (memS host ρ) ρ.env step) n, ∀ c ∈ (peel body).1, ∀ b, ρ.buf? c.src = some b → ∀ i, b.InBounds i →
            valAt host ρ x v c.iv.min ≤ i.getD c.dim 0 → i.getD c.dim 0 ≤ valAt host ρ x v c.iv.max →
              wholeLo host rec s ρ x bounds c b ≤ i.getD c.dim 0 ∧ i.getD c.dim 0 ≤ wholeHi host rec s ρ x bounds c b := fun v hv c hc b hb i hi k1 k2 =>
          hC.encl (by rw [valAt, eval_set_not_free _ _ _ _ _ hC.min_ok.2.2]; exact (c3 v hv).1)
            (by rw [valAt, eval_set_not_free _ _ _ _ _ hC.max_ok.2.2]; exact (c3 v hv).2) hc hb hi k1 k2
        have hlen : ∀ a ∈ as, a.scalars = c.scalars ∧ a.ins.length = c.ins.length ∧ a.outs.length = c.outs.length := fun a ha => by
          obtain ⟨v, hv, ρ1, e1, e2⟩ := forall₂_r c5 a ha
          exact e2.lengths g2
        refine ⟨hne, c, rfl, ⟨hlen, fun k b hk B hB i hi => ?_, fun k b hk B hB i hi => ?_⟩, fun ho ht => ?_⟩
        · obtain ⟨a, ha, hk'⟩ := column_mem.1 hB
          obtain ⟨v, hv, ρ1, e1, e2⟩ := forall₂_r c5 a ha
          obtain ⟨y, y1, y2⟩ := (mapM_get e2.ins).2 k B hk'
          obtain ⟨y', z1, z2⟩ := (mapM_get g2.ins).2 k b hk
          rw [y1] at z1; cases z1
          exact buf_covers e1 g1 (hle v hv) y2 z2 hi
        · obtain ⟨a, ha, hk'⟩ := column_mem.1 hB
          obtain ⟨v, hv, ρ1, e1, e2⟩ := forall₂_r c5 a ha
          obtain ⟨y, y1, y2⟩ := (mapM_get e2.outs).2 k B hk'
          obtain ⟨y', z1, z2⟩ := (mapM_get g2.outs).2 k b hk
          rw [y1] at z1; cases z1
          exact buf_covers e1 g1 (hle v hv) y2 z2 hi
        · have hfar := hC.far ho ht hs c3 c4 hn
          have hvne : iters (eval (memS host ρ) ρ.env bounds.min) (eval (memS host ρ) ρ.env step) n ≠ [] := by
            intro h
            have := congrArg List.length h
            simp [iters] at this
            omega
          have hch : ∀ v, ∃ ρ', v ∈ iters (eval (memS host ρ) ρ.env bounds.min) (eval (memS host ρ) ρ.env step) n → 
              EnvOf ρ x (peel body).1 (fun c _ => valAt host ρ x v c.iv.min) (fun c _ => valAt host ρ x v c.iv.max) ρ' ∧ ∃ a ∈ as, ArgsOf w l ρ ins outs sc ρ' a := by
            intro v
            by_cases hv : v ∈ iters (eval (memS host ρ) ρ.env bounds.min) (eval (memS host ρ) ρ.env step) n
            · obtain ⟨a, ha, ρ1, e1, e2⟩ := forall₂_l c5 v hv
              exact ⟨ρ1, fun _ => ⟨e1, a, ha, e2⟩⟩
            · exact ⟨ρ, fun h => absurd h hv⟩
          choose ρs hρs using hch
          refine ⟨hlen, fun k b hk i hi => ?_, fun k b hk i hi => ?_⟩
          · obtain ⟨y, z1, z2⟩ := (mapM_get g2.ins).2 k b hk
            obtain ⟨v, hv, B, f1, f2⟩ := buf_noMore (ρs := ρs) hvne (fun v hv => (hρs v hv).1) g1 hfar z2 hi
            obtain ⟨e1, a, ha, e2⟩ := hρs v hv
            exact ⟨B, column_mem.2 ⟨a, ha, mapM_at e2.ins z1 f1⟩, f2⟩
          · obtain ⟨y, z1, z2⟩ := (mapM_get g2.outs).2 k b hk
            obtain ⟨v, hv, B, f1, f2⟩ := buf_noMore (ρs := ρs) hvne (fun v hv => (hρs v hv).1) g1 hfar z2 hi
            obtain ⟨e1, a, ha, e2⟩ := hρs v hv
            exact ⟨B, column_mem.2 ⟨a, ha, mapM_at e2.outs z1 f1⟩, f2⟩
    · left; rfl
  · next hw => left; rw [if_neg hw]

/-- If the simplifier removes a loop around a call, the loop that replaces it calls once if the loop has iterations, and not if it has none. Each
element of a buffer that one of the calls of the loop has is an element of the same buffer that the one call has, at the same address; the
scalars are the same.

Partial: see `Cond`; `drop_loop_scalar_counterexample`, `drop_loop_metadata_counterexample`. -/
theorem drop_loop_covers_partial {body : Stmt} {t : Nat} {ins outs : List Nat} (hC : Cond w host cfg rec s ρ x workers bounds step (peel body).1 sc)
    (hb : (peel body).2 = .call t ins outs sc) (hs : 0 < eval (memS host ρ) ρ.env step) {l l1 l2 : List Ev}
    (h1 : sem w false (.loop x workers bounds step body) ρ l = some (0, l1)) (h2 : sem w false (lastStep cfg rec s x workers bounds step body) ρ l = some (0, l2)) :
    lastStep cfg rec s x workers bounds step body = .loop x workers bounds step body ∨
    ∃ as as', runSeq (callW w t) as l = some (0, l1) ∧ runSeq (callW w t) as' l = some (0, l2) ∧ (as = [] ∧ as' = [] ∨ as ≠ [] ∧ ∃ c, as' = [c] ∧ Each Covers as c) := by
  rcases drop_core hC hb hs h1 h2 with h | ⟨as, as', a1, a2, h | ⟨h, c, h3, h4, _⟩⟩
  · exact .inl h
  · exact .inr ⟨as, as', a1, a2, .inl h⟩
  · exact .inr ⟨as, as', a1, a2, .inr ⟨h, c, h3, h4⟩⟩

/-- If the bounds over the loop are reached, each element of a buffer of the one call is also an element of that buffer in one of the calls of the
loop: the one call is for the union of what the calls of the loop are for, no more.

Partial: see `Cond`, `Tight`; `drop_loop_diagonal_counterexample`, `drop_loop_step_counterexample`. -/
theorem drop_loop_exact_partial {body : Stmt} {t : Nat} {ins outs : List Nat} (hC : Cond w host cfg rec s ρ x workers bounds step (peel body).1 sc)
    (hb : (peel body).2 = .call t ins outs sc) (hs : 0 < eval (memS host ρ) ρ.env step) (ho : OneWay cfg rec s x bounds step (peel body).1)
    (ht : Tight host rec s ρ x bounds step (peel body).1) {l l1 l2 : List Ev}
    (h1 : sem w false (.loop x workers bounds step body) ρ l = some (0, l1)) (h2 : sem w false (lastStep cfg rec s x workers bounds step body) ρ l = some (0, l2)) :
    lastStep cfg rec s x workers bounds step body = .loop x workers bounds step body ∨
    ∃ as as', runSeq (callW w t) as l = some (0, l1) ∧ runSeq (callW w t) as' l = some (0, l2) ∧
      (as = [] ∧ as' = [] ∨ as ≠ [] ∧ ∃ c, as' = [c] ∧ Each Covers as c ∧ Each NoMore as c) := by
  rcases drop_core hC hb hs h1 h2 with h | ⟨as, as', a1, a2, h | ⟨h, c, h3, h4, h5⟩⟩
  · exact .inl h
  · exact .inr ⟨as, as', a1, a2, .inl h⟩
  · exact .inr ⟨as, as', a1, a2, .inr ⟨h, c, h3, h4, h5 ho ht⟩⟩

/-! ### Loops with at most one iteration -/

/-- simplify.cc:1396-1400: a serial loop that is proved to be dead does nothing. -/
theorem dead_loop {m : Mem} (hm : m = memS host ρ) (hh : ∀ l fn xs, w.host fn xs l = host fn xs) (hr : ρ.InRange64) (hc : ∀ env, SimpCfgOK cfg m env) (hsd : Sound m rec) (hst : StateOK m ρ.env s)
    (b1 : bounds.WF) (b2 : bounds.min.ok = true ∧ bounds.min.WF) (b3 : bounds.max.ok = true ∧ bounds.max.WF) {l : List Ev} {k : Int} (hk : evalI w l ρ workers = some k) (hk1 : k ≤ 1)
    (hp : proveTrueS cfg rec s (mkBin .lt bounds.max bounds.min) = true) {body : Stmt} {r : Int × List Ev}
    (h : sem w false (.loop x workers bounds step body) ρ l = some r) : r = (0, l) := by
  subst hm
  simp only [sem, Option.bind_eq_bind, Option.bind_eq_some_iff, hk, Option.some.injEq] at h
  obtain ⟨k', rfl, v, h2, sv, h3, h4⟩ := h
  obtain ⟨e1, e2, e3⟩ := evalIvS_eval hh hr b1 b2.2 b3.2 h2
  have := proveTrueS_sound hc hsd (by simp [b2.1, b3.1]) hst hp
  rw [CB.eval_mkBin] at this
  simp only [BinOp.denote, b2i] at this
  split at h4
  · cases h4
  · rw [if_neg (by omega : ¬ k > 1)] at h4
    rw [e1] at h4
    have hlt : eval (memS host ρ) ρ.env bounds.max < eval (memS host ρ) ρ.env bounds.min := by
      by_contra hn
      exact this (by simp [hn])
    simp only [serialFuel] at h4
    generalize (eval (memS host ρ) ρ.env bounds.max - eval (memS host ρ) ρ.env bounds.min).toNat = f at h4
    unfold serialS at h4
    rw [if_neg (by omega)] at h4
    exact (Option.some.inj h4).symm

/-- simplify.cc:1401-1408: a serial loop that is proved to have at most one iteration, and that has one, is its body for the first value.

Partial: if the loop has no iteration, the code runs the body all the same; `once_empty_counterexample`. -/
theorem once_loop_partial {m : Mem} (hm : m = memS host ρ) (hh : ∀ l fn xs, w.host fn xs l = host fn xs) (hr : ρ.InRange64) (hc : ∀ env, SimpCfgOK cfg m env) (hsd : Sound m rec) (hst : StateOK m ρ.env s)
    (b1 : bounds.WF) (b2 : bounds.min.ok = true ∧ bounds.min.WF) (b3 : bounds.max.ok = true ∧ bounds.max.WF) (b4 : step.ok = true ∧ step.WF)
    {l : List Ev} {k : Int} (hk : evalI w l ρ workers = some k) (hk1 : k ≤ 1) (hp : proveTrueS cfg rec s (mkBin .lt bounds.max (mkBin .add bounds.min step)) = true)
    (hne : eval m ρ.env bounds.min ≤ eval m ρ.env bounds.max) {body : Stmt} {r : Int × List Ev} (h : sem w false (.loop x workers bounds step body) ρ l = some r) :
    sem w false body (ρ.set x (.int (eval m ρ.env bounds.min))) l = some r := by
  subst hm
  simp only [sem, Option.bind_eq_bind, Option.bind_eq_some_iff, hk, Option.some.injEq, evalDefS, ok_ne b4.1, if_true] at h
  obtain ⟨k', rfl, v, h2, sv, h3, h4⟩ := h
  obtain ⟨e1, e2, e3⟩ := evalIvS_eval hh hr b1 b2.2 b3.2 h2
  have e4 := (evalI_eval (hh l) b4.2 (envRel_self hr) h3).1
  have := proveTrueS_sound hc hsd (by simp [b2.1, b3.1, b4.1]) hst hp
  rw [CB.eval_mkBin, CB.eval_mkBin, e4] at this
  simp only [BinOp.denote, b2i] at this
  split at h4
  · cases h4
  · rw [if_neg (by omega : ¬ k > 1)] at h4
    rw [e1] at h4
    have hlt : eval (memS host ρ) ρ.env bounds.max < eval (memS host ρ) ρ.env bounds.min + sv := by
      by_contra hn
      exact this (by simp [hn])
    simp only [serialFuel] at h4
    generalize (eval (memS host ρ) ρ.env bounds.max - eval (memS host ρ) ρ.env bounds.min).toNat = f at h4
    unfold serialS at h4
    rw [if_pos ⟨le_refl _, hne⟩] at h4
    split at h4
    · cases h4
    · next r' l' hf =>
      rw [hf]
      split at h4
      · exact h4
      · next hr0 =>
        have hr0 : r' = 0 := by simpa using hr0
        subst hr0
        split at h4
        · cases h4
        · next j hj =>
          have hj := (chk64_eq hj).1
          subst hj
          unfold serialS at h4
          rw [if_neg (by omega)] at h4
          exact h4

end

end Slinky.DL
