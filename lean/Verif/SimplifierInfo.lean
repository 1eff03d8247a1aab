import Verif.Simplifier
import Mathlib.Tactic.Ring

/-! # C17, C18: what the simplifier knows is true -/

namespace Slinky

/-! ### Specification -/

/-- The buffers that the expressions refer to: the rank and the element size are not negative; dimensions beyond the rank
are `dim::broadcast()`, which is all zeros (buffer.h:147, 242); `buffer_at` (evaluate.cc:207-224) ignores indices beyond the
rank, and the index in a dimension of stride 0. -/
structure BufMem (m : Mem) : Prop extends BufferAtMin m where
  rank_nonneg : ∀ p d, 0 ≤ m.field p .rank d
  rank_dim : ∀ p d d', m.field p .rank d = m.field p .rank d'
  elem_nonneg : ∀ p d, 0 ≤ m.field p .elemSize d
  elem_dim : ∀ p d d', m.field p .elemSize d = m.field p .elemSize d'
  beyond : ∀ p f d, f.ofDim = true → m.field p .rank (-1) ≤ d → m.field p f d = 0
  atRank : ∀ p xs ys, (xs.length : Int) = m.field p .rank (-1) →
    m.call .bufferAt (some p :: (xs ++ ys)) = m.call .bufferAt (some p :: xs)
  atBcast : ∀ p xs x ys, m.field p .stride (xs.length : Int) = 0 →
    m.call .bufferAt (some p :: (xs ++ some x :: ys)) = m.call .bufferAt (some p :: (xs ++ none :: ys))

/-- What is known about the value `v` is true. -/
structure InfoOK (m : Mem) (ρ : Env) (i : SInfo) (v : Int) : Prop where
  bounds : Encl m ρ i.bounds v
  align : MR.Mem v i.align
  known : i.known.ok = true → eval m ρ i.known = v

/-- What is known about the buffer at `p` is true. -/
structure SBufOK (m : Mem) (ρ : Env) (b : SBuf) (p : Int) : Prop where
  elem : ∀ d, InfoOK m ρ b.elemSize (m.field p .elemSize d)
  dims : ∀ (k : Nat) (D : SDim), b.dims[k]? = some D → ∀ f : Field, f.ofDim = true → InfoOK m ρ (D.get f) (m.field p f k)
  rank : 0 ≤ b.rank → m.field p .rank (-1) = b.rank

/-- What is known is true. -/
structure StateOK (m : Mem) (ρ : Env) (s : SState) : Prop where
  vars : ∀ x i, s.vars x = some i → InfoOK m ρ i (ρ x)
  bufs : ∀ x b, s.bufs x = some b → SBufOK m ρ b (ρ x)

/-! ### Free variables -/

mutual
theorem freeInB_iff (x : Nat) : ∀ e : Expr, freeInB x e = true ↔ FreeIn x e
  | .undef => by simp [freeInB, FreeIn]
  | .var y _ _ => by simp [freeInB, FreeIn]
  | .const _ => by simp [freeInB, FreeIn]
  | .lets bs b => by simp [freeInB, FreeIn, freeInB_iff x b, freeInBindsB_iff x bs]
  | .bin _ a b => by simp [freeInB, FreeIn, freeInB_iff x a, freeInB_iff x b]
  | .not a => by simp [freeInB, FreeIn, freeInB_iff x a]
  | .select c t f => by simp [freeInB, FreeIn, freeInB_iff x c, freeInB_iff x t, freeInB_iff x f]
  | .call _ as => by simp [freeInB, FreeIn, freeInArgsB_iff x as]
theorem freeInArgsB_iff (x : Nat) : ∀ es : Exprs, freeInArgsB x es = true ↔ FreeInArgs x es
  | .nil => by simp [freeInArgsB, FreeInArgs]
  | .cons e es => by simp [freeInArgsB, FreeInArgs, freeInB_iff x e, freeInArgsB_iff x es]
theorem freeInBindsB_iff (x : Nat) : ∀ bs : Binds, freeInBindsB x bs = true ↔ FreeInBinds x bs
  | .nil => by simp [freeInBindsB, FreeInBinds]
  | .cons y e bs => by simp [freeInBindsB, FreeInBinds, freeInB_iff x e, freeInBindsB_iff x bs]
end

theorem eval_set_freeInB {m : Mem} {e : Expr} {ρ : Env} {x : Nat} {v : Int} (h : freeInB x e = false) :
    eval m (ρ.set x v) e = eval m ρ e :=
  eval_set_not_free m e ρ x v (by rw [← freeInB_iff, h]; simp)

section
variable {m : Mem} {ρ : Env}

/-! ### Information -/

theorem Encl.unbounded (v : Int) : Encl m ρ .unbounded v := ⟨fun _ => rfl, undef_lo v, undef_hi v⟩

theorem InfoOK.empty (v : Int) : InfoOK m ρ .empty v :=
  ⟨Encl.unbounded v, MR.mem_default v, fun h => by simp [SInfo.empty, Expr.ok] at h⟩

theorem mem_point (c : Int) : MR.Mem c ⟨0, c⟩ := ⟨0, by simp⟩
theorem mem_point_iff {v c : Int} : MR.Mem v ⟨0, c⟩ ↔ v = c := by simp [MR.Mem]

theorem InfoOK.ofExpr {e : Expr} (ho : e.ok = true) : InfoOK m ρ (.ofExpr e) (eval m ρ e) := by
  refine ⟨.point_ok ho rfl, ?_, fun _ => rfl⟩
  simp only [SInfo.ofExpr]
  split
  · next c hc => rw [asConst_eq hc]; simpa [eval] using mem_point c
  · exact MR.mem_default _

theorem asPoint_some {i : Interval} {e : Expr} (h : asPoint i = some e) : i.isPoint = true ∧ e = i.min ∧ i.min.ok = true := by
  unfold asPoint at h
  split at h
  · next hp => rw [Bool.and_eq_true] at hp; exact ⟨hp.1, (Option.some.inj h).symm, hp.2⟩
  · cases h

theorem asPoint_sound {i : Interval} {v : Int} (h : Encl m ρ i v) {e : Expr} (he : asPoint i = some e) :
    e.ok = true ∧ eval m ρ e = v := by
  obtain ⟨h1, rfl, h2⟩ := asPoint_some he
  exact ⟨h2, h.point_eq h1 h2⟩

theorem pointConst_sound {i : Interval} {v : Int} (h : Encl m ρ i v) {c : Int} (he : pointConst i = some c) : v = c := by
  unfold pointConst at he
  split at he
  · next e h1 =>
    have := (asPoint_sound h h1).2
    rw [asConst_eq he] at this
    simpa [eval] using this.symm
  · cases he

theorem InfoOK.value {i : SInfo} {v : Int} (h : InfoOK m ρ i v) {e : Expr} (he : i.value = some e) :
    e.ok = true ∧ eval m ρ e = v := by
  unfold SInfo.value at he
  split at he
  · split at he
    · next ho => cases he; exact ⟨ho, h.known ho⟩
    · cases he
  · exact asPoint_sound h.bounds he

theorem value_ok {i : SInfo} {e : Expr} (he : i.value = some e) : e.ok = true := by
  unfold SInfo.value at he
  split at he
  · split at he
    · next ho => cases he; exact ho
    · cases he
  · obtain ⟨-, rfl, h⟩ := asPoint_some he; exact h

variable {cfg : SimpCfg}

theorem InfoOK.merge (hc : SimpCfgOK cfg m ρ) {i : SInfo} {v : Int} (h : InfoOK m ρ i v) {b : Interval} (hb : Encl m ρ b v)
    {al : MR} (ha : MR.Mem v al) : InfoOK m ρ (i.merge cfg b al) v := by
  have e := simplifyIntersection_sound_partial hc h.bounds hb
  refine ⟨e, ?_, ?_⟩
  · simp only [SInfo.merge]
    cases hi : MR.inter i.align al with
    | none => exact h.align
    | some a => exact MR.inter_sound h.align ha hi
  · simp only [SInfo.merge]
    split
    · next c hp => intro _; simp only [eval]; exact (pointConst_sound e hp).symm
    · exact h.known

theorem trimLo_sound {al : MR} {e : Expr} {v c : Int} (hm : 1 < al.m) (ha : MR.Mem v al) (he : LoOK m ρ e v)
    (h : trimLo al e = some c) : c ≤ v := by
  unfold trimLo at h
  split at h
  · next a hc =>
    simp only at h
    split at h
    · cases h
      have := asConst_eq hc; subst this
      have h1 : a ≤ v := by simpa [eval] using he.2 (by simp)
      obtain ⟨y, hy⟩ := ha
      -- a + ((r - a % m) % m) ≤ v
      set k := (al.r - a % al.m) % al.m with hk
      have hk0 : 0 ≤ k := Int.emod_nonneg _ (by omega)
      have hk1 : k < al.m := Int.emod_lt_of_pos _ (by omega)
      have h2 : al.m * ((al.r - a % al.m) / al.m) + k = al.r - a % al.m := Int.mul_ediv_add_emod _ _
      have h3 : al.m * (a / al.m) + a % al.m = a := Int.mul_ediv_add_emod _ _
      by_contra hlt
      have h4 : v - (a + k) = al.m * (y - a / al.m + (al.r - a % al.m) / al.m) := by
        have : al.m * (y - a / al.m + (al.r - a % al.m) / al.m) =
          al.m * y - al.m * (a / al.m) + al.m * ((al.r - a % al.m) / al.m) := by ring
        rw [this]; omega
      have h5 : y - a / al.m + (al.r - a % al.m) / al.m ≤ -1 := by
        by_contra h6
        have : 0 ≤ al.m * (y - a / al.m + (al.r - a % al.m) / al.m) := by
          apply mul_nonneg <;> omega
        omega
      have h6 : al.m * (y - a / al.m + (al.r - a % al.m) / al.m) ≤ al.m * (-1) :=
        mul_le_mul_of_nonneg_left h5 (by omega)
      omega
    · cases h
  · cases h

theorem trimHi_sound {al : MR} {e : Expr} {v c : Int} (hm : 1 < al.m) (ha : MR.Mem v al) (he : HiOK m ρ e v)
    (h : trimHi al e = some c) : v ≤ c := by
  unfold trimHi at h
  split at h
  · next a hc =>
    simp only at h
    split at h
    · cases h
      have := asConst_eq hc; subst this
      have h1 : v ≤ a := by simpa [eval] using he.2 (by simp)
      obtain ⟨y, hy⟩ := ha
      set k := (a % al.m - al.r) % al.m with hk
      have hk0 : 0 ≤ k := Int.emod_nonneg _ (by omega)
      have hk1 : k < al.m := Int.emod_lt_of_pos _ (by omega)
      have h2 : al.m * ((a % al.m - al.r) / al.m) + k = a % al.m - al.r := Int.mul_ediv_add_emod _ _
      have h3 : al.m * (a / al.m) + a % al.m = a := Int.mul_ediv_add_emod _ _
      by_contra hlt
      have h4 : v - (a - k) = al.m * (y - a / al.m - (a % al.m - al.r) / al.m) := by
        have : al.m * (y - a / al.m - (a % al.m - al.r) / al.m) =
          al.m * y - al.m * (a / al.m) - al.m * ((a % al.m - al.r) / al.m) := by ring
        rw [this]; omega
      have h5 : 1 ≤ y - a / al.m - (a % al.m - al.r) / al.m := by
        by_contra h6
        have : al.m * (y - a / al.m - (a % al.m - al.r) / al.m) ≤ 0 := by
          apply mul_nonpos_of_nonneg_of_nonpos <;> omega
        omega
      have h6 : al.m * 1 ≤ al.m * (y - a / al.m - (a % al.m - al.r) / al.m) :=
        mul_le_mul_of_nonneg_left h5 (by omega)
      omega
    · cases h
  · cases h

theorem trimBounds_sound {i : SInfo} {v : Int} (hb : Encl m ρ i.bounds v) (ha : MR.Mem v i.align) : Encl m ρ (trimBounds i) v := by
  unfold trimBounds
  split
  · next h0 =>
    have : v = i.align.r := by obtain ⟨y, hy⟩ := ha; rw [h0] at hy; omega
    exact .point_ok (by simp) (by simp [eval, this])
  split
  · next hm =>
    simp only
    refine ⟨?_, ?_, ?_⟩
    · intro h
      simp only [Bool.and_eq_true, Option.isNone_iff_eq_none] at h
      rw [h.1.2, h.2]
      exact hb.wf h.1.1
    · cases h : trimLo i.align i.bounds.min with
      | none => exact hb.lo
      | some c => exact lo_const (trimLo_sound hm ha hb.lo h)
    · cases h : trimHi i.align i.bounds.max with
      | none => exact hb.hi
      | some c => exact hi_const (trimHi_sound hm ha hb.hi h)
  · exact hb

theorem InfoOK.trim {i : SInfo} {v : Int} (h : InfoOK m ρ i v) : InfoOK m ρ i.trim v := by
  have e := trimBounds_sound h.bounds h.align
  refine ⟨e, ?_, h.known⟩
  simp only [SInfo.trim]
  split
  · next c hp => exact mem_point_iff.2 (pointConst_sound e hp)
  · exact h.align

/-! ### Forgetting -/

theorem dropE_ok {x : Nat} {e : Expr} (h : (dropE x e).ok = true) : freeInB x e = false ∧ e.ok = true ∧ dropE x e = e := by
  unfold dropE at h ⊢
  split at h
  · simp [Expr.ok] at h
  · next hf => exact ⟨by simpa using hf, h, by rw [if_neg hf]⟩

theorem dropE_eval {x : Nat} {v : Int} {e : Expr} (h : (dropE x e).ok = true) :
    e.ok = true ∧ eval m (ρ.set x v) (dropE x e) = eval m ρ e ∧ eval m ρ (dropE x e) = eval m (ρ.set x v) e := by
  obtain ⟨h1, h2, h3⟩ := dropE_ok h
  rw [h3, eval_set_freeInB h1]
  exact ⟨h2, rfl, rfl⟩

theorem dropE_ne {x : Nat} {e : Expr} {c : Fn} (h : e ≠ .call c .nil) : dropE x e ≠ .call c .nil := by
  unfold dropE; split
  · simp
  · exact h

/-- `ρ1` and `ρ2` differ only at `x`. -/
def EqOff (x : Nat) (ρ1 ρ2 : Env) : Prop := ∃ v, ρ2 = ρ1.set x v ∨ ρ1 = ρ2.set x v

theorem dropE_eqOff {x : Nat} {ρ1 ρ2 : Env} (h : EqOff x ρ1 ρ2) {e : Expr} (ho : (dropE x e).ok = true) :
    e.ok = true ∧ eval m ρ2 (dropE x e) = eval m ρ1 e := by
  obtain ⟨v, rfl | rfl⟩ := h
  · have := dropE_eval (m := m) (ρ := ρ1) (v := v) ho; exact ⟨this.1, this.2.1⟩
  · have := dropE_eval (m := m) (ρ := ρ2) (v := v) ho; exact ⟨this.1, this.2.2⟩

theorem Encl.drop {x : Nat} {ρ1 ρ2 : Env} (h : EqOff x ρ1 ρ2) {i : Interval} {v : Int} (hi : Encl m ρ1 i v) :
    Encl m ρ2 (dropI x i) v := by
  refine ⟨fun hs => ?_, ⟨dropE_ne hi.lo.1, fun o => ?_⟩, ⟨dropE_ne hi.hi.1, fun o => ?_⟩⟩
  · simp only [dropI] at hs ⊢; rw [hi.wf hs]
  · have := dropE_eqOff (m := m) h o
    simp only [dropI]
    rw [this.2]; exact hi.lo.2 this.1
  · have := dropE_eqOff (m := m) h o
    simp only [dropI]
    rw [this.2]; exact hi.hi.2 this.1

theorem InfoOK.drop {x : Nat} {ρ1 ρ2 : Env} (h : EqOff x ρ1 ρ2) {i : SInfo} {v : Int} (hi : InfoOK m ρ1 i v) :
    InfoOK m ρ2 (i.drop x) v := by
  refine ⟨hi.bounds.drop h, hi.align, fun o => ?_⟩
  have := dropE_eqOff (m := m) h o
  simp only [SInfo.drop]
  rw [this.2]; exact hi.known this.1

theorem SDim.get_drop (x : Nat) (d : SDim) (f : Field) : (d.drop x).get f = (d.get f).drop x := by
  cases f <;> rfl

theorem SBufOK.drop {x : Nat} {ρ1 ρ2 : Env} (h : EqOff x ρ1 ρ2) {b : SBuf} {p : Int} (hb : SBufOK m ρ1 b p) :
    SBufOK m ρ2 (b.drop x) p := by
  refine ⟨fun d => (hb.elem d).drop h, fun k D hk f hf => ?_, hb.rank⟩
  simp only [SBuf.drop, List.getElem?_map, Option.map_eq_some_iff] at hk
  obtain ⟨D', hk, rfl⟩ := hk
  rw [SDim.get_drop]
  exact (hb.dims k D' hk f hf).drop h

theorem StateOK.drop {s : SState} (h : StateOK m ρ s) (x : Nat) (v : Int) : StateOK m (ρ.set x v) (s.drop x) := by
  have hx : EqOff x ρ (ρ.set x v) := ⟨v, .inl rfl⟩
  constructor
  · intro y i hy
    simp only [SState.drop] at hy
    split at hy
    · cases hy
    · next hne =>
      rw [Option.map_eq_some_iff] at hy
      obtain ⟨i', hi', rfl⟩ := hy
      rw [Env.set_other _ hne]
      exact (h.vars y i' hi').drop hx
  · intro y b hy
    simp only [SState.drop] at hy
    split at hy
    · cases hy
    · next hne =>
      rw [Option.map_eq_some_iff] at hy
      obtain ⟨i', hi', rfl⟩ := hy
      rw [Env.set_other _ hne]
      exact (h.bufs y i' hi').drop hx

theorem StateOK.setVar {s : SState} (h : StateOK m ρ s) {x : Nat} {i : SInfo} (hi : InfoOK m ρ i (ρ x)) :
    StateOK m ρ (s.setVar x i) := by
  refine ⟨fun y j hy => ?_, h.bufs⟩
  simp only [SState.setVar] at hy
  split at hy
  · next e => cases hy; subst e; exact hi
  · exact h.vars y j hy

theorem StateOK.setBuf {s : SState} (h : StateOK m ρ s) {x : Nat} {b : SBuf} (hb : SBufOK m ρ b (ρ x)) :
    StateOK m ρ (s.setBuf x b) := by
  refine ⟨h.vars, fun y j hy => ?_⟩
  simp only [SState.setBuf] at hy
  split at hy
  · next e => cases hy; subst e; exact hb
  · exact h.bufs y j hy

theorem StateOK.empty : StateOK m ρ .empty := ⟨fun _ _ h => by simp [SState.empty] at h, fun _ _ h => by simp [SState.empty] at h⟩

theorem StateOK.proving {s : SState} (h : StateOK m ρ s) (b : Bool) : StateOK m ρ { s with proving := b } := ⟨h.vars, h.bufs⟩

/-! ### Adding a constant -/

theorem addConst_sound (m : Mem) : ∀ (e : Expr) (ρ : Env) (c n : Int) (r : Expr), (addConst c e n).1 = some r → e.ok = true →
    r.ok = true ∧ eval m ρ r = eval m ρ e + c
  | .undef, _, _, _, _, h, _ => by simp [addConst] at h
  | .var _ _ _, _, _, _, _, h, _ => by simp [addConst] at h
  | .not _, _, _, _, _, h, _ => by simp [addConst] at h
  | .call _ _, _, _, _, _, h, _ => by simp [addConst] at h
  | .const d, ρ, c, n, r, h, _ => by
    simp only [addConst] at h
    split at h
    · cases h; simp [eval]
    · cases h
  | .lets bs b, ρ, c, n, r, h, ho => by
    simp only [addConst, Option.map_eq_some_iff] at h
    obtain ⟨b', hb, rfl⟩ := h
    simp only [Expr.ok, Bool.and_eq_true] at ho ⊢
    have := addConst_sound m b (evalBinds m ρ bs) c n b' hb ho.2
    exact ⟨⟨ho.1, this.1⟩, by simp only [eval]; exact this.2⟩
  | .select q t f, ρ, c, n, r, h, ho => by
    simp only [Expr.ok, Bool.and_eq_true] at ho
    simp only [addConst] at h
    split at h
    · next t' ht =>
      rw [Option.map_eq_some_iff] at h
      obtain ⟨f', hf, rfl⟩ := h
      have h1 := addConst_sound m t ρ c n t' ht ho.1.2
      have h2 := addConst_sound m f ρ c _ f' hf ho.2
      refine ⟨by simp [Expr.ok, ho.1.1, h1.1, h2.1], ?_⟩
      simp only [eval, h1.2, h2.2]
      split <;> rfl
    · simp at h
  | .bin op a b, ρ, c, n, r, h, ho => by
    simp only [Expr.ok_bin, Bool.and_eq_true] at ho
    have iha := fun c n r h => addConst_sound m a ρ c n r h ho.1
    have ihb := fun c n r h => addConst_sound m b ρ c n r h ho.2
    cases op with
    | add =>
      simp only [addConst] at h
      split at h
      · next hb => cases h; subst hb; exact ⟨ho.1, by simp [eval, BinOp.denote]⟩
      split at h
      · next a' ha =>
        cases h
        have := iha _ _ _ ha
        exact ⟨by simp [this.1, ho.2], by rw [eval_mkBin, this.2]; simp only [eval, BinOp.denote]; omega⟩
      · rw [Option.map_eq_some_iff] at h
        obtain ⟨b', hb, rfl⟩ := h
        have := ihb _ _ _ hb
        exact ⟨by simp [this.1, ho.1], by rw [eval_mkBin, this.2]; simp only [eval, BinOp.denote]; omega⟩
    | sub =>
      simp only [addConst] at h
      split at h
      · next hb => cases h; subst hb; exact ⟨ho.1, by simp [eval, BinOp.denote]⟩
      split at h
      · next a' ha =>
        cases h
        have := iha _ _ _ ha
        exact ⟨by simp [this.1, ho.2], by rw [eval_mkBin, this.2]; simp only [eval, BinOp.denote]; omega⟩
      · rw [Option.map_eq_some_iff] at h
        obtain ⟨b', hb, rfl⟩ := h
        have := ihb _ _ _ hb
        exact ⟨by simp [this.1, ho.1], by rw [eval_mkBin, this.2]; simp only [eval, BinOp.denote]; omega⟩
    | mul =>
      simp only [addConst] at h
      split at h
      · next d hd =>
        split at h
        · next hc =>
          rw [Option.map_eq_some_iff] at h
          obtain ⟨a', ha, rfl⟩ := h
          have h1 := iha _ _ _ ha
          refine ⟨by simp [h1.1, ho.2], ?_⟩
          rw [eval_mkBin, h1.2, asConst_eq hd]
          simp only [eval, BinOp.denote, add_mul]
          rw [Int.ediv_mul_cancel (Int.dvd_of_emod_eq_zero hc.2)]
        · cases h
      · cases h
    | min =>
      simp only [addConst] at h
      split at h
      · next a' b' ha hb =>
        cases h
        have h1 := iha _ _ _ ha
        have h2 := ihb _ _ _ hb
        exact ⟨by simp [h1.1, h2.1], by rw [eval_mkBin, h1.2, h2.2]; simp only [eval, BinOp.denote]; omega⟩
      · next a' ha hb =>
        split at h
        · cases h
          have h1 := iha _ _ _ ha
          exact ⟨by simp [h1.1, ho.2], by rw [eval_mkBin, h1.2, eval_mkBin]; simp only [eval, BinOp.denote]; omega⟩
        · cases h
      · next b' ha hb =>
        split at h
        · cases h
          have h1 := ihb _ _ _ hb
          exact ⟨by simp [h1.1, ho.1], by rw [eval_mkBin, h1.2, eval_mkBin]; simp only [eval, BinOp.denote]; omega⟩
        · cases h
      · cases h
    | max =>
      simp only [addConst] at h
      split at h
      · next a' b' ha hb =>
        cases h
        have h1 := iha _ _ _ ha
        have h2 := ihb _ _ _ hb
        exact ⟨by simp [h1.1, h2.1], by rw [eval_mkBin, h1.2, h2.2]; simp only [eval, BinOp.denote]; omega⟩
      · next a' ha hb =>
        split at h
        · cases h
          have h1 := iha _ _ _ ha
          exact ⟨by simp [h1.1, ho.2], by rw [eval_mkBin, h1.2, eval_mkBin]; simp only [eval, BinOp.denote]; omega⟩
        · cases h
      · next b' ha hb =>
        split at h
        · cases h
          have h1 := ihb _ _ _ hb
          exact ⟨by simp [h1.1, ho.1], by rw [eval_mkBin, h1.2, eval_mkBin]; simp only [eval, BinOp.denote]; omega⟩
        · cases h
      · cases h
    | div => simp [addConst] at h
    | mod => simp [addConst] at h
    | eq => simp [addConst] at h
    | ne => simp [addConst] at h
    | lt => simp [addConst] at h
    | le => simp [addConst] at h
    | and => simp [addConst] at h
    | or => simp [addConst] at h

theorem addConstant_sound {e r : Expr} {c : Int} (h : addConstant e c = some r) (ho : e.ok = true) :
    r.ok = true ∧ eval m ρ r = eval m ρ e + c := by
  unfold addConstant at h
  split at h
  · next h0 => cases h; subst h0; exact ⟨ho, by omega⟩
  · exact addConst_sound m e ρ c 0 r h ho

/-! ### Building results -/

theorem InfoOK.setR {e : Expr} {i : SInfo} {v : Int} (h : InfoOK m ρ i v) : InfoOK m ρ (setR e i).2 v := by
  refine ⟨⟨fun hs => ?_, h.bounds.lo, h.bounds.hi⟩, h.align, h.known⟩
  simp only [Slinky.setR, Bool.or_eq_true] at hs ⊢
  rcases hs with hs | hs
  · exact h.bounds.wf hs
  · exact (match_iff _ _).1 hs

theorem Encl.fill {i : Interval} {lo hi : Expr} {v : Int} (h : Encl m ρ i v) (hl : LoOK m ρ lo v) (hh : HiOK m ρ hi v) :
    Encl m ρ (fillI i lo hi) v := by
  unfold fillI
  refine ⟨fun hs => ?_, ?_, ?_⟩
  · simp only [Bool.and_eq_true] at hs ⊢
    have e := h.wf hs.1
    rw [if_pos hs.2, ← e, if_pos hs.2]
  · simp only; split
    · exact h.lo
    · exact hl
  · simp only; split
    · exact h.hi
    · exact hh

end

end Slinky
