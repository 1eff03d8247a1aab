import Verif.Views

/-!
# C59: views of views. Proofs
-/

namespace Slinky.VW

open Slinky

variable {w : World} {l : List Ev} {ρ : SEnv}

/-! ## Values -/

theorem machine_comm {op : BinOp} (h : op.comm = true) (a b : Int) : op.machine a b = op.machine b a := by
  cases op <;> simp [BinOp.comm] at h <;> simp only [BinOp.machine]
  · rw [Int.add_comm]
  · rw [Int.mul_comm]
  · congr 1; split <;> split <;> omega
  · congr 1; split <;> split <;> omega
  · simp [eq_comm]
  · simp [eq_comm]
  · simp [and_comm]
  · simp [or_comm]

theorem evalS_mkBin (op : BinOp) (a b : Expr) : evalS w l ρ (mkBin op a b) = evalS w l ρ (.bin op a b) := by
  unfold mkBin
  split
  · rename_i h
    simp only [Bool.and_eq_true] at h
    simp only [evalS]
    cases (evalS w l ρ a).bind Val.int? <;> cases (evalS w l ρ b).bind Val.int? <;> simp [machine_comm h.1]
  · rfl

theorem evalI_mkBin {op : BinOp} {a b : Expr} : evalI w l ρ (mkBin op a b) =
    (evalI w l ρ a).bind fun x => (evalI w l ρ b).bind fun y => op.machine x y := by
  unfold evalI
  rw [evalS_mkBin]
  simp only [evalS]
  cases (evalS w l ρ a).bind Val.int? with
  | none => rfl
  | some x =>
    cases (evalS w l ρ b).bind Val.int? with
    | none => rfl
    | some y => simp only [Option.bind_some]; cases op.machine x y <;> rfl

/-- The value of an interval is the value of its ends. -/
theorem evalIvDefS_eq {i : Interval} (hw : i.WF) (a b : Int) : evalIvDefS w l ρ i a b =
    (evalDefS w l ρ i.min a).bind fun x => (evalDefS w l ρ i.max b).map fun y => (x, y) := by
  unfold evalIvDefS
  split
  · rename_i h
    simp only [Interval.isPoint, Bool.and_eq_true] at h
    have e : i.min = i.max := hw h.2
    rw [← e]
    simp only [evalDefS, h.1, if_true, Option.bind_eq_bind]
    cases evalI w l ρ i.min <;> rfl
  · simp only [Option.bind_eq_bind]
    cases evalDefS w l ρ i.min a <;> simp
    cases evalDefS w l ρ i.max b <;> rfl

theorem inter_wf {i j : Interval} (hi : i.WF) (hj : j.WF) : (i.inter j).WF := by
  intro h
  simp only [Interval.inter, Bool.or_eq_true, Bool.and_eq_true, Bool.not_eq_true'] at h
  rcases h with ⟨⟨h1, h2⟩, h3⟩ | ⟨⟨h1, h2⟩, h3⟩
  · simp [Interval.inter, h1, h2, hj h3]
  · have := hi h3
    by_cases hd : i.min.defined = true
    · simp [Interval.inter, h1, h2, hd, ← this]
    · have hd' : i.min.defined = false := by simpa using hd
      have e1 : j.min = .undef := by cases hm : j.min <;> simp [hm] at h1 ⊢
      have e2 : j.max = .undef := by cases hm : j.max <;> simp [hm] at h2 ⊢
      simp [Interval.inter, hd', ← this, e1, e2]

theorem inter_val {i j : Interval} (wi : i.WF) (wj : j.WF) {lo hi : Int} {u v : Int × Int} (hu : evalIvDefS w l ρ i lo hi = some u)
    (hv : evalIvDefS w l ρ j (max u.1 lo) (min u.2 hi) = some v) :
    ∃ v', evalIvDefS w l ρ (i.inter j) lo hi = some v' ∧ max v'.1 lo = max (max u.1 v.1) lo ∧ min v'.2 hi = min (min u.2 v.2) hi := by
  rw [evalIvDefS_eq wi] at hu
  rw [evalIvDefS_eq wj] at hv
  rw [evalIvDefS_eq (inter_wf wi wj)]
  obtain ⟨u1, h1, hu⟩ := Option.bind_eq_some_iff.1 hu
  obtain ⟨u2, h2, rfl⟩ := Option.map_eq_some_iff.1 hu
  obtain ⟨v1, h3, hv⟩ := Option.bind_eq_some_iff.1 hv
  obtain ⟨v2, h4, rfl⟩ := Option.map_eq_some_iff.1 hv
  simp only at h3 h4 ⊢
  have k1 : ∃ x, evalDefS w l ρ (i.inter j).min lo = some x ∧ max x lo = max (max u1 v1) lo := by
    by_cases d1 : i.min.defined = true
    · by_cases d2 : j.min.defined = true
      · simp only [evalDefS, d1, d2, if_true] at h1 h3
        refine ⟨max u1 v1, ?_, rfl⟩
        simp only [Interval.inter, d1, d2, Bool.and_self, if_true, evalDefS, defined_mkBin, evalI_mkBin, h1, h3, Option.bind_some, BinOp.machine]
        congr 1; split <;> omega
      · simp only [evalDefS, d1, d2, if_true, Bool.false_eq_true, if_false] at h1 h3
        refine ⟨u1, by simp [Interval.inter, d1, d2, evalDefS, h1], ?_⟩
        have : v1 = max u1 lo := by simpa using h3.symm
        omega
    · by_cases d2 : j.min.defined = true
      · simp only [evalDefS, d1, d2, if_true, Bool.false_eq_true, if_false] at h1 h3
        refine ⟨v1, by simp [Interval.inter, d1, d2, evalDefS, h3], ?_⟩
        have : u1 = lo := by simpa using h1.symm
        omega
      · simp only [evalDefS, d1, d2, Bool.false_eq_true, if_false] at h1 h3
        refine ⟨lo, by simp [Interval.inter, d1, d2, evalDefS], ?_⟩
        have e1 : u1 = lo := by simpa using h1.symm
        have e2 : v1 = max u1 lo := by simpa using h3.symm
        omega
  have k2 : ∃ x, evalDefS w l ρ (i.inter j).max hi = some x ∧ min x hi = min (min u2 v2) hi := by
    by_cases d1 : i.max.defined = true
    · by_cases d2 : j.max.defined = true
      · simp only [evalDefS, d1, d2, if_true] at h2 h4
        refine ⟨min u2 v2, ?_, rfl⟩
        simp only [Interval.inter, d1, d2, Bool.and_self, if_true, evalDefS, defined_mkBin, evalI_mkBin, h2, h4, Option.bind_some, BinOp.machine]
        congr 1; split <;> omega
      · simp only [evalDefS, d1, d2, if_true, Bool.false_eq_true, if_false] at h2 h4
        refine ⟨u2, by simp [Interval.inter, d1, d2, evalDefS, h2], ?_⟩
        have : v2 = min u2 hi := by simpa using h4.symm
        omega
    · by_cases d2 : j.max.defined = true
      · simp only [evalDefS, d1, d2, if_true, Bool.false_eq_true, if_false] at h2 h4
        refine ⟨v2, by simp [Interval.inter, d1, d2, evalDefS, h4], ?_⟩
        have : u2 = hi := by simpa using h2.symm
        omega
      · simp only [evalDefS, d1, d2, Bool.false_eq_true, if_false] at h2 h4
        refine ⟨hi, by simp [Interval.inter, d1, d2, evalDefS], ?_⟩
        have e1 : u2 = hi := by simpa using h2.symm
        have e2 : v2 = min u2 hi := by simpa using h4.symm
        omega
  obtain ⟨x, e1, g1⟩ := k1
  obtain ⟨y, e2, g2⟩ := k2
  exact ⟨(x, y), by rw [e1, e2]; rfl, g1, g2⟩

/-! ## Crops -/

theorem crop_congr {b : Buf} {d : Nat} {u v : Int × Int} (h1 : max u.1 (b.dim d).min = max v.1 (b.dim d).min) (h2 : min u.2 (b.dim d).max = min v.2 (b.dim d).max) :
    b.crop d u.1 u.2 = b.crop d v.1 v.2 := by simp only [Buf.crop, h1, h2]

theorem crop_comm (b : Buf) {i j : Nat} (h : i ≠ j) (x y x' y' : Int) : (b.crop i x y).crop j x' y' = (b.crop j x' y').crop i x y := by
  by_cases hi : i ≥ b.rank
  · rw [crop_broadcast b i _ _ hi, crop_broadcast _ i]
    rw [(crop_other b j x' y').2.1]; exact hi
  by_cases hj : j ≥ b.rank
  · rw [crop_broadcast b j _ _ hj, crop_broadcast _ j]
    rw [(crop_other b i x y).2.1]; exact hj
  have hi' : ¬ i ≥ (b.crop j x' y').rank := by rw [(crop_other b j x' y').2.1]; exact hi
  have hj' : ¬ j ≥ (b.crop i x y).rank := by rw [(crop_other b i x y).2.1]; exact hj
  rw [crop_eq _ _ _ _ hi', crop_eq _ _ _ _ hj', (crop_other b i x y).1 j (Ne.symm h), (crop_other b j x' y').1 i h, crop_eq _ _ _ _ hi, crop_eq _ _ _ _ hj]
  congr 1
  · simp only
    cases b.base with
    | none => rfl
    | some p =>
      by_cases c1 : min y (b.dim i).max ≥ max x (b.dim i).min <;> by_cases c2 : min y' (b.dim j).max ≥ max x' (b.dim j).min <;>
        by_cases f1 : (b.dim i).fold = Dim.unfolded <;> by_cases f2 : (b.dim j).fold = Dim.unfolded <;>
        simp only [cropBase, c1, c2, f1, f2, if_true, if_false]
      congr 1; omega
  · simp only
    rw [List.set_comm _ _ h]

/-- Crop dimensions, beginning with `d`. -/
def cropL : Nat → List (Int × Int) → Buf → Buf
  | _, [], b => b
  | d, v :: vs, b => cropL (d + 1) vs (b.crop d v.1 v.2)

/-- The values of the bounds. -/
def boxS (w : World) (l : List Ev) (ρ : SEnv) : List Interval → List Dim → Option (List (Int × Int))
  | i :: is, d :: ds => (evalIvDefS w l ρ i d.min d.max).bind fun v => (boxS w l ρ is ds).map (v :: ·)
  | _, _ => some []

theorem cropS_eq : ∀ (is : List Interval) (d : Nat) (b : Buf), cropS w l ρ d is b = (boxS w l ρ is (b.dims.drop d)).map fun vs => cropL d vs b
  | [], d, b => by simp [cropS, boxS, cropL]
  | i :: is, d, b => by
    unfold cropS
    by_cases h : d < b.rank
    · have e : b.dims.drop d = b.dim d :: b.dims.drop (d + 1) := by
        have h' : d < b.dims.length := h
        rw [List.drop_eq_getElem_cons h']
        simp [Buf.dim, List.getElem?_eq_getElem h']
      rw [if_pos h, e]
      simp only [boxS, Option.bind_eq_bind]
      cases evalIvDefS w l ρ i (b.dim d).min (b.dim d).max with
      | none => rfl
      | some v =>
        simp only [Option.bind_some]
        rw [cropS_eq is (d + 1)]
        have e2 : (b.crop d v.1 v.2).dims.drop (d + 1) = b.dims.drop (d + 1) := by
          rw [crop_eq _ _ _ _ (by omega)]
          simp [List.drop_set]
        rw [e2]
        cases boxS w l ρ is (b.dims.drop (d + 1)) <;> rfl
    · rw [if_neg h]
      have e : b.dims.drop d = [] := List.drop_eq_nil_of_le (by unfold Buf.rank at h; omega)
      rw [e]; simp [boxS, cropL]

theorem cropL_crop : ∀ (vs : List (Int × Int)) (d k : Nat) (b : Buf) (x y : Int), d < k → (cropL k vs b).crop d x y = cropL k vs (b.crop d x y)
  | [], _, _, _, _, _, _ => rfl
  | v :: vs, d, k, b, x, y, h => by
    simp only [cropL]
    rw [cropL_crop vs d (k + 1) _ x y (by omega), crop_comm b (show k ≠ d by omega)]

/-- Both bounds. -/
def comb : List (Int × Int) → List (Int × Int) → List (Int × Int)
  | [], vs => vs
  | us, [] => us
  | u :: us, v :: vs => (max u.1 v.1, min u.2 v.2) :: comb us vs

theorem cropL_cropL : ∀ (us vs : List (Int × Int)) (d : Nat) (b : Buf), cropL d vs (cropL d us b) = cropL d (comb us vs) b
  | [], vs, d, b => by simp [comb, cropL]
  | u :: us, [], d, b => by simp [comb, cropL]
  | u :: us, v :: vs, d, b => by
    simp only [comb, cropL]
    rw [cropL_crop us d (d + 1) _ _ _ (by omega), crop_crop, cropL_cropL us vs]

theorem cropL_rank : ∀ (vs : List (Int × Int)) (d : Nat) (b : Buf), (cropL d vs b).rank = b.rank
  | [], _, _ => rfl
  | v :: vs, d, b => by simp only [cropL]; rw [cropL_rank vs, (crop_other b d _ _).2.1]

theorem cropL_dim_lt : ∀ (vs : List (Int × Int)) (d k : Nat) (b : Buf), k < d → (cropL d vs b).dim k = b.dim k
  | [], _, _, _, _ => rfl
  | v :: vs, d, k, b, h => by simp only [cropL]; rw [cropL_dim_lt vs _ _ _ (by omega), (crop_other b d _ _).1 k (by omega)]

theorem cropL_congr : ∀ (us vs : List (Int × Int)) (d : Nat) (b : Buf), us.length = vs.length →
    (∀ k u v, us[k]? = some u → vs[k]? = some v → max u.1 (b.dim (d + k)).min = max v.1 (b.dim (d + k)).min ∧ min u.2 (b.dim (d + k)).max = min v.2 (b.dim (d + k)).max) →
    cropL d us b = cropL d vs b
  | [], [], _, _, _, _ => rfl
  | u :: us, v :: vs, d, b, hl, h => by
    obtain ⟨h1, h2⟩ := h 0 u v rfl rfl
    simp only [cropL]
    rw [crop_congr (d := d) h1 h2]
    refine cropL_congr us vs (d + 1) _ (by simpa using hl) fun k u' v' hu hv => ?_
    rw [(crop_other b d _ _).1 (d + 1 + k) (by omega), show d + 1 + k = d + (k + 1) by omega]
    exact h (k + 1) u' v' hu hv

/-- The dimensions after a crop. -/
def clip : List Dim → List (Int × Int) → List Dim
  | d :: ds, u :: us => ⟨max u.1 d.min, min u.2 d.max, d.stride, d.fold⟩ :: clip ds us
  | ds, _ => ds

theorem clip_nil (ds : List Dim) : clip ds [] = ds := by cases ds <;> rfl

theorem drop_dim {b : Buf} {d : Nat} (h : d < b.rank) : b.dims.drop d = b.dim d :: b.dims.drop (d + 1) := by
  have h' : d < b.dims.length := h
  rw [List.drop_eq_getElem_cons h']
  simp [Buf.dim, List.getElem?_eq_getElem h']

theorem cropL_dims : ∀ (us : List (Int × Int)) (d : Nat) (b : Buf), (cropL d us b).dims.drop d = clip (b.dims.drop d) us
  | [], d, b => by rw [clip_nil]; rfl
  | u :: us, d, b => by
    by_cases h : d < b.rank
    · have h' : d < (cropL d (u :: us) b).rank := by rw [cropL_rank]; exact h
      rw [drop_dim h', drop_dim h]
      simp only [clip, cropL]
      rw [cropL_dim_lt us _ _ _ (by omega), crop_dim b d _ _ h, cropL_dims us (d + 1)]
      congr 2
      rw [crop_eq _ _ _ _ (by omega)]
      simp [List.drop_set]
    · have e : b.dims.drop d = [] := List.drop_eq_nil_of_le (by unfold Buf.rank at h; omega)
      have e' : (cropL d (u :: us) b).dims.drop d = [] := List.drop_eq_nil_of_le (by
        have := cropL_rank (u :: us) d b
        unfold Buf.rank at h this; omega)
      rw [e, e']; rfl

/-- The same ends. -/
def EqI (m i : Interval) : Prop := m.min = i.min ∧ m.max = i.max ∧ m.WF

theorem EqI.eval {m i : Interval} (h : EqI m i) (hi : i.WF) (a b : Int) : evalIvDefS w l ρ m a b = evalIvDefS w l ρ i a b := by
  rw [evalIvDefS_eq h.2.2, evalIvDefS_eq hi, h.1, h.2.1]

/-- The third list is the intersection of the first and the second. -/
def IsInter : List Interval → List Interval → List Interval → Prop
  | [], [], [] => True
  | [], b :: bs, m :: ms => EqI m b ∧ IsInter [] bs ms
  | a :: as, [], m :: ms => EqI m a ∧ IsInter as [] ms
  | a :: as, b :: bs, m :: ms => EqI m (a.inter b) ∧ IsInter as bs ms
  | _, _, _ => False

theorem boxS_nil (ds : List Dim) : boxS w l ρ [] ds = some [] := by cases ds <;> rfl

theorem boxS_left : ∀ (as ms : List Interval) (ds : List Dim), IsInter as [] ms → (∀ a ∈ as, a.WF) → boxS w l ρ ms ds = boxS w l ρ as ds
  | [], [], _, _, _ => rfl
  | a :: as, m :: ms, [], _, _ => rfl
  | a :: as, m :: ms, d :: ds, h, hw => by
    simp only [boxS, h.1.eval (hw a (by simp)), boxS_left as ms ds h.2 fun x hx => hw x (by simp [hx])]

theorem boxS_right : ∀ (bs ms : List Interval) (ds : List Dim), IsInter [] bs ms → (∀ a ∈ bs, a.WF) → boxS w l ρ ms ds = boxS w l ρ bs ds
  | [], [], _, _, _ => rfl
  | a :: as, m :: ms, [], _, _ => rfl
  | a :: as, m :: ms, d :: ds, h, hw => by
    simp only [boxS, h.1.eval (hw a (by simp)), boxS_right as ms ds h.2 fun x hx => hw x (by simp [hx])]

theorem boxS_inter : ∀ (as bs ms : List Interval) (ds : List Dim) (us vs : List (Int × Int)), IsInter as bs ms → (∀ a ∈ as, a.WF) → (∀ b ∈ bs, b.WF) →
    boxS w l ρ as ds = some us → boxS w l ρ bs (clip ds us) = some vs →
    ∃ xs, boxS w l ρ ms ds = some xs ∧ xs.length = (comb us vs).length ∧
      ∀ (k : Nat) (x v : Int × Int) (d : Dim), xs[k]? = some x → (comb us vs)[k]? = some v → ds[k]? = some d → max x.1 d.min = max v.1 d.min ∧ min x.2 d.max = min v.2 d.max
  | [], bs, ms, ds, us, vs, h, _, hb, hu, hv => by
    rw [boxS_nil] at hu
    cases hu
    rw [clip_nil] at hv
    refine ⟨vs, by rw [boxS_right bs ms ds h hb]; exact hv, rfl, fun k x v d h1 h2 _ => ?_⟩
    simp only [comb] at h2
    rw [h1] at h2; cases h2; exact ⟨rfl, rfl⟩
  | a :: as, [], ms, ds, us, vs, h, ha, _, hu, hv => by
    rw [boxS_nil] at hv
    cases hv
    have e : comb us [] = us := by cases us <;> rfl
    rw [e]
    refine ⟨us, by rw [boxS_left _ ms ds h ha]; exact hu, rfl, fun k x v d h1 h2 _ => ?_⟩
    rw [h1] at h2; cases h2; exact ⟨rfl, rfl⟩
  | a :: as, b :: bs, m :: ms, [], us, vs, h, ha, hb, hu, hv => by
    simp only [boxS, Option.some.injEq] at hu
    subst hu
    simp only [clip, boxS, Option.some.injEq] at hv
    subst hv
    exact ⟨[], rfl, rfl, fun k x v d h1 => by simp at h1⟩
  | a :: as, b :: bs, m :: ms, d :: ds, us, vs, h, ha, hb, hu, hv => by
    simp only [boxS] at hu
    obtain ⟨u, hu1, hu⟩ := Option.bind_eq_some_iff.1 hu
    obtain ⟨us', hu2, rfl⟩ := Option.map_eq_some_iff.1 hu
    simp only [clip, boxS] at hv
    obtain ⟨v, hv1, hv⟩ := Option.bind_eq_some_iff.1 hv
    obtain ⟨vs', hv2, rfl⟩ := Option.map_eq_some_iff.1 hv
    have wa := ha a (by simp)
    have wb := hb b (by simp)
    obtain ⟨x, g1, g2, g3⟩ := inter_val wa wb hu1 hv1
    obtain ⟨xs, k1, k2, k3⟩ := boxS_inter as bs ms ds us' vs' h.2 (fun y hy => ha y (by simp [hy])) (fun y hy => hb y (by simp [hy])) hu2 hv2
    refine ⟨x :: xs, by simp only [boxS, h.1.eval (inter_wf wa wb), g1, k1, Option.bind_some, Option.map_some], by simp [comb, k2], fun k y v' d' h1 h2 h3 => ?_⟩
    cases k with
    | zero =>
      simp only [comb, List.getElem?_cons_zero, Option.some.injEq] at h1 h2 h3
      subst h1 h2 h3
      exact ⟨g2, g3⟩
    | succ k =>
      simp only [comb, List.getElem?_cons_succ] at h1 h2 h3
      exact k3 k y v' d' h1 h2 h3
  | a :: as, b :: bs, [], _, _, _, h, _, _, _, _ => h.elim

/-- A crop of a crop is the crop with the intersection of the bounds. -/
theorem cropS_inter {as bs ms : List Interval} {b b1 b2 : Buf} (h : IsInter as bs ms) (ha : ∀ a ∈ as, a.WF) (hb : ∀ b ∈ bs, b.WF)
    (h1 : cropS w l ρ 0 as b = some b1) (h2 : cropS w l ρ 0 bs b1 = some b2) : cropS w l ρ 0 ms b = some b2 := by
  rw [cropS_eq] at h1 h2 ⊢
  obtain ⟨us, e1, rfl⟩ := Option.map_eq_some_iff.1 h1
  rw [cropL_dims us 0 b] at h2
  obtain ⟨vs, e2, rfl⟩ := Option.map_eq_some_iff.1 h2
  obtain ⟨xs, k1, k2, k3⟩ := boxS_inter as bs ms _ us vs h ha hb e1 e2
  rw [k1, cropL_cropL]
  simp only [Option.map_some, Option.some.injEq]
  refine cropL_congr xs _ 0 b k2 fun k x v hx hv => ?_
  by_cases hk : k < b.rank
  · have hd : (b.dims.drop 0)[k]? = some (b.dim (0 + k)) := by
      rw [List.drop_zero, Nat.zero_add]; exact dim_eq b k hk
    exact k3 k x v _ hx hv hd
  · exfalso
    have hlen : ∀ (is : List Interval) (ds : List Dim) (xs : List (Int × Int)), boxS w l ρ is ds = some xs → xs.length ≤ ds.length := by
      intro is
      induction is with
      | nil => intro ds xs h; rw [boxS_nil] at h; cases h; simp
      | cons i is ih =>
        intro ds xs h
        cases ds with
        | nil => simp only [boxS, Option.some.injEq] at h; subst h; simp
        | cons d ds =>
          simp only [boxS] at h
          obtain ⟨_, _, h⟩ := Option.bind_eq_some_iff.1 h
          obtain ⟨ys, hy, rfl⟩ := Option.map_eq_some_iff.1 h
          have := ih ds ys hy
          simp; omega
    have := hlen _ _ _ k1
    rw [List.drop_zero] at this
    have hx' := (List.getElem?_eq_some_iff.1 hx).1
    unfold Buf.rank at hk
    omega

end Slinky.VW
