import Verif.Rename
import Verif.BufferProps
import Verif.StmtBlocks

/-!
# Statements that are the same up to the names of symbols: statements

See `Rename.lean`.
-/

namespace Slinky

/-- Two intervals that are the same up to names. -/
def RenI (sc : Scope) (i i' : Interval) : Prop :=
  i'.same = i.same ∧ RenE sc i.min i'.min ∧ (i.isPoint = true ∨ RenE sc i.max i'.max)

/-- Two dimensions that are the same up to names. -/
def RenD (sc : Scope) (d d' : DimE) : Prop := RenI sc d.bounds d'.bounds ∧ RenE sc d.stride d'.stride ∧ RenE sc d.fold d'.fold

/-- Two ends of an interval that crops dimension `d` of a buffer (`z` in the second statement). An end that is the bound of the buffer may be
omitted. -/
def RenEnd (sc0 sc : Scope) (z : Nat) (fld : Field) (d : Nat) (e e' : Expr) : Prop :=
  RenE sc e e' ∨ ∃ y f, sc0.D y ∧ sc0.σ y = z ∧ e = .var y f d ∧ (f = .min ∨ f = .max) ∧ (e' = .var z f d ∨ (e' = .undef ∧ f = fld))

/-- Two intervals that crop dimension `d` of a buffer. -/
def RenC (sc0 sc : Scope) (z d : Nat) (i i' : Interval) : Prop :=
  (i.isPoint = true ∧ i'.isPoint = true ∧ RenEnd sc0 sc z .min d i.min i'.min) ∨
  (i'.isPoint = false ∧ RenEnd sc0 sc z .min d i.min i'.min ∧ RenEnd sc0 sc z .max d (if i.isPoint then i.min else i.max) i'.max)

/-- Two lists of intervals that crop the dimensions from `d` on. -/
def RenCs (sc0 sc : Scope) (z : Nat) : Nat → List Interval → List Interval → Prop
  | _, [], is' => is' = []
  | d, i :: is, is' => ∃ i1 is1, RenC sc0 sc z d i i1 ∧ RenCs sc0 sc z (d + 1) is is1 ∧ is' = i1 :: is1

/-- The scope without the symbols that are `z` in the second statement. -/
def Scope.without (sc : Scope) (z : Nat) : Scope := ⟨fun y => sc.D y ∧ sc.σ y ≠ z, sc.σ, fun y => y ≠ z ∧ sc.U y, sc.V⟩

/-- The scope of a closure that has the symbols `sy`. -/
def Scope.restrict (sc : Scope) (sy : List Nat) : Scope := ⟨fun y => sc.D y ∧ sc.σ y ∈ sy, sc.σ, sc.U, fun y => sc.V y ∧ y ∈ sy⟩

/-- The lets of a closure. -/
def selfBinds : List Nat → Binds
  | [] => .nil
  | z :: sy => .cons z (.var z .none (-1)) (selfBinds sy)

mutual
/-- Two statements that are the same up to names. The second statement can have closures where statements are run by tasks. -/
def RenS : Scope → Stmt → Stmt → Prop
  | _, .undef, s' => s' = .undef
  | _, .copy .., s' => ∃ t a b c d e, s' = .copy t a b c d e
  | sc, .call t i o xs, s' => ∃ xs', s' = .call t (i.map sc.σ) (o.map sc.σ) xs' ∧ (∀ x ∈ i, sc.D x) ∧ (∀ x ∈ o, sc.D x) ∧ List.Forall₂ (RenE sc) xs xs'
  | sc, .lets bs body c, s' => c = false ∧ ∃ bs' body' sc', RenB sc bs bs' sc' ∧ RenS sc' body body' ∧ s' = .lets bs' body' false
  | sc, .block ss, s' => ∃ ss', RenSs sc ss ss' ∧ (s' = .block ss' ∨ (s' = blockMake ss'.toList ∧ s' ≠ .undef))
  | sc, .loop x wk b st body, s' => ∃ x' wk' b' st' body' sc', RenE sc wk wk' ∧ RenI sc b b' ∧ RenE sc st st' ∧ sc.Decl sc' x x' ∧
      (RenS sc' body body' ∨ ∃ sy body1, body' = .lets (selfBinds sy) body1 true ∧ sy.Nodup ∧ (∀ z ∈ sy, sc'.V z) ∧ RenS (sc'.restrict sy) body body1) ∧
      s' = .loop x' wk' b' st' body'
  | sc, .allocate x sto e ds body, s' => ∃ x' e' ds' body' sc', RenE sc e e' ∧ List.Forall₂ (RenD sc) ds ds' ∧ sc.Decl sc' x x' ∧ RenS sc' body body' ∧
      s' = .allocate x' sto e' ds' body'
  | sc, .makeBuffer x p e ds body, s' => ∃ x' p' e' ds' body' sc', RenE sc p p' ∧ RenE sc e e' ∧ List.Forall₂ (RenD sc) ds ds' ∧ sc.Decl sc' x x' ∧
      RenS sc' body body' ∧ s' = .makeBuffer x' p' e' ds' body'
  | sc, .constantBuffer x b body, s' => ∃ x' body' sc', sc.Decl sc' x x' ∧ RenS sc' body body' ∧ s' = .constantBuffer x' b body'
  | sc, .cloneBuffer x src body, s' => ∃ x' body' sc', sc.D src ∧ sc.Decl sc' x x' ∧ RenS sc' body body' ∧ s' = .cloneBuffer x' (sc.σ src) body'
  | sc, .cropBuffer x src bs body, s' => ∃ x' bs' body' sc', sc.D src ∧ RenCs sc sc (sc.σ src) 0 bs bs' ∧ sc.Decl sc' x x' ∧ RenS sc' body body' ∧
      s' = .cropBuffer x' (sc.σ src) bs' body' ∧
      (x' = sc.σ src → (x = src ∧ ∀ y, sc.D y → y ≠ x → sc.σ y ≠ x') ∨ RenCs sc (sc.without x') (sc.σ src) 0 bs bs')
  | sc, .cropDim x src d b body, s' => ∃ x' b' body' sc', sc.D src ∧ RenC sc sc (sc.σ src) d b b' ∧ sc.Decl sc' x x' ∧ RenS sc' body body' ∧
      s' = .cropDim x' (sc.σ src) d b' body'
  | sc, .sliceBuffer x src es body, s' => ∃ x' es' body' sc', sc.D src ∧ List.Forall₂ (RenE sc) es es' ∧ sc.Decl sc' x x' ∧ RenS sc' body body' ∧
      s' = .sliceBuffer x' (sc.σ src) es' body'
  | sc, .sliceDim x src d e body, s' => ∃ x' e' body' sc', sc.D src ∧ RenE sc e e' ∧ sc.Decl sc' x x' ∧ RenS sc' body body' ∧
      s' = .sliceDim x' (sc.σ src) d e' body'
  | sc, .transpose x src ds body, s' => ∃ x' body' sc', sc.D src ∧ sc.Decl sc' x x' ∧ RenS sc' body body' ∧ s' = .transpose x' (sc.σ src) ds body' ∧
      (x' = sc.σ src → x = src ∨ ds ≠ List.range ds.length)
  | sc, .async none task body, s' => ∃ task' body',
      (RenS sc task task' ∨ ∃ sy t1, task' = .lets (selfBinds sy) t1 true ∧ sy.Nodup ∧ (∀ z ∈ sy, sc.V z) ∧ RenS (sc.restrict sy) task t1) ∧
      (RenS sc body body' ∨ ∃ sy b1, body' = .lets (selfBinds sy) b1 true ∧ sy.Nodup ∧ (∀ z ∈ sy, sc.V z) ∧ RenS (sc.restrict sy) body b1) ∧
      s' = .async none task' body'
  | sc, .async (some x) task body, s' => ∃ x' task' body' sct scb, sc.Decl sct x x' ∧ (∀ y, sct.V y → y ≠ x' ∧ sc.V y) ∧ sc.Decl scb x x' ∧
      (sc.U x' ∨ (sc.D x ∧ sc.σ x = x')) ∧
      (RenS sct task task' ∨ ∃ sy t1, task' = .lets (selfBinds sy) t1 true ∧ sy.Nodup ∧ (∀ z ∈ sy, sct.V z) ∧ RenS (sct.restrict sy) task t1) ∧
      (RenS scb body body' ∨ ∃ sy b1, body' = .lets (selfBinds sy) b1 true ∧ sy.Nodup ∧ (∀ z ∈ sy, scb.V z) ∧ RenS (scb.restrict sy) body b1) ∧
      s' = .async (some x') task' body'
  | sc, .check c, s' => ∃ c', RenE sc c c' ∧ s' = .check c'
/-- See `RenS`. -/
def RenSs : Scope → Stmts → Stmts → Prop
  | _, .nil, ss' => ss' = .nil
  | sc, .cons s ss, ss' => ∃ s1 ss1, RenS sc s s1 ∧ RenSs sc ss ss1 ∧ ss' = .cons s1 ss1
end

/-! ## Parts of statements -/

variable {w : World} {l : List Ev}

theorem evalI_ren {sc : Scope} {ρ ρ' : SEnv} (hi : sc.Inv ρ ρ') {e e' : Expr} (hr : RenE sc e e') {i : Int} (h : evalI w l ρ e = some i) :
    evalI w l ρ' e' = some i := by
  simp only [evalI, Option.bind_eq_some_iff] at h ⊢
  obtain ⟨v, h1, h2⟩ := h
  exact ⟨v, evalS_ren hr hi h1, h2⟩

theorem evalDefS_ren {sc : Scope} {ρ ρ' : SEnv} (hi : sc.Inv ρ ρ') {e e' : Expr} (hr : RenE sc e e') {i d : Int} (h : evalDefS w l ρ e d = some i) :
    evalDefS w l ρ' e' d = some i := by
  unfold evalDefS at h ⊢
  rw [hr.defined]
  split at h
  · rename_i hd; rw [if_pos hd]; exact evalI_ren hi hr h
  · rename_i hd; rw [if_neg hd]; exact h

theorem RenI.isPoint {sc : Scope} {i i' : Interval} (hr : RenI sc i i') : i'.isPoint = i.isPoint := by
  unfold Interval.isPoint
  rw [hr.1, hr.2.1.defined]

theorem evalIvS_ren {sc : Scope} {ρ ρ' : SEnv} (hi : sc.Inv ρ ρ') {i i' : Interval} (hr : RenI sc i i') {v : Int × Int} (h : evalIvS w l ρ i = some v) :
    evalIvS w l ρ' i' = some v := by
  simp only [evalIvS, Option.bind_eq_bind, Option.bind_eq_some_iff] at h ⊢
  obtain ⟨a, h1, h2⟩ := h
  refine ⟨a, evalI_ren hi hr.2.1 h1, ?_⟩
  rw [hr.isPoint]
  split at h2
  · rename_i hp; rw [if_pos hp]; exact h2
  · rename_i hp
    rw [if_neg hp]
    obtain ⟨b, h3, h4⟩ := Option.bind_eq_some_iff.1 h2
    exact Option.bind_eq_some_iff.2 ⟨b, evalI_ren hi (hr.2.2.resolve_left hp) h3, h4⟩

theorem evalDimsS_ren {sc : Scope} {ρ ρ' : SEnv} (hi : sc.Inv ρ ρ') {ds : Option Int} : ∀ {a a' : List DimE}, List.Forall₂ (RenD sc) a a' → ∀ {r : List Dim},
    evalDimsS w l ρ ds a = some r → evalDimsS w l ρ' ds a' = some r
  | _, _, .nil, r, h => h
  | _, _, .cons (a := d) (b := d') hd ht, r, h => by
    cases ds with
    | none =>
      simp only [evalDimsS, Option.bind_eq_bind, Option.bind_eq_some_iff] at h ⊢
      obtain ⟨r1, h1, b, h2, s, h3, f, h4, h5⟩ := h
      exact ⟨r1, evalDimsS_ren hi ht h1, b, evalIvS_ren hi hd.1 h2, s, evalI_ren hi hd.2.1 h3, f, evalDefS_ren hi hd.2.2 h4, h5⟩
    | some x =>
      simp only [evalDimsS, Option.bind_eq_bind, Option.bind_eq_some_iff] at h ⊢
      obtain ⟨r1, h1, b, h2, s, h3, f, h4, h5⟩ := h
      exact ⟨r1, evalDimsS_ren hi ht h1, b, evalIvS_ren hi hd.1 h2, s, evalDefS_ren hi hd.2.1 h3, f, evalDefS_ren hi hd.2.2 h4, h5⟩

theorem field_dim (b : Buf) (d : Nat) : (Obj.ofBuf b).field .min d = (b.dim d).min ∧ (Obj.ofBuf b).field .max d = (b.dim d).max := by
  have := (ofBuf_ok b).1
  simp [Obj.field, this]

/-- An end of a crop. -/
theorem end_ren {sc0 sc : Scope} {ρ ρ' : SEnv} (hi : sc.Inv ρ ρ') {z d : Nat} {D : Dim} {fld : Field} {dflt : Int}
    (hz : ∃ b, ρ' z = .buf b ∧ b.dim d = D) (hy : ∀ y, sc0.D y → sc0.σ y = z → ∃ b, ρ y = .buf b ∧ b.dim d = D)
    (hf : fld = .min ∧ dflt = D.min ∨ fld = .max ∧ dflt = D.max) {e e' : Expr} (hr : RenEnd sc0 sc z fld d e e') {i : Int}
    (h : evalDefS w l ρ e dflt = some i) : evalDefS w l ρ' e' dflt = some i := by
  rcases hr with hr | ⟨y, f, h1, h2, rfl, h4, h5⟩
  · exact evalDefS_ren hi hr h
  · obtain ⟨b, g1, g2⟩ := hz
    obtain ⟨c, g3, g4⟩ := hy y h1 h2
    have hb := field_dim b d
    have hc := field_dim c d
    rw [g2] at hb
    rw [g4] at hc
    rcases h4 with rfl | rfl
    · have hv : i = D.min := by simpa [evalDefS, Expr.defined, evalI, evalS, g3, Val.int?, hc.1, eq_comm] using h
      subst hv
      rcases h5 with rfl | ⟨rfl, rfl⟩
      · simp [evalDefS, Expr.defined, evalI, evalS, g1, Val.int?, hb.1]
      · rcases hf with ⟨_, rfl⟩ | ⟨hh, _⟩
        · rfl
        · cases hh
    · have hv : i = D.max := by simpa [evalDefS, Expr.defined, evalI, evalS, g3, Val.int?, hc.2, eq_comm] using h
      subst hv
      rcases h5 with rfl | ⟨rfl, rfl⟩
      · simp [evalDefS, Expr.defined, evalI, evalS, g1, Val.int?, hb.2]
      · rcases hf with ⟨hh, _⟩ | ⟨_, rfl⟩
        · cases hh
        · rfl

theorem isPoint_defined {i : Interval} (h : i.isPoint = true) : i.min.defined = true := by
  unfold Interval.isPoint at h
  simp only [Bool.and_eq_true] at h
  exact h.1

/-- The interval of a crop. -/
theorem cropIv_ren {sc0 sc : Scope} {ρ ρ' : SEnv} (hi : sc.Inv ρ ρ') {z d : Nat} {D : Dim}
    (hz : ∃ b, ρ' z = .buf b ∧ b.dim d = D) (hy : ∀ y, sc0.D y → sc0.σ y = z → ∃ b, ρ y = .buf b ∧ b.dim d = D)
    {i i' : Interval} (hr : RenC sc0 sc z d i i') {v : Int × Int} (h : evalIvDefS w l ρ i D.min D.max = some v) :
    evalIvDefS w l ρ' i' D.min D.max = some v := by
  have dd : ∀ {σ : SEnv} {e : Expr} {a : Int}, e.defined = true → evalDefS w l σ e a = evalI w l σ e := by
    intro σ e a he; rw [evalDefS, if_pos he]
  rcases hr with ⟨h1, h2, h3⟩ | ⟨h1, h2, h3⟩
  · simp only [evalIvDefS, h1, h2, if_true, Option.bind_eq_bind, Option.bind_eq_some_iff] at h ⊢
    obtain ⟨a, g1, g2⟩ := h
    rw [← dd (isPoint_defined h1) (a := D.min)] at g1
    have := end_ren hi hz hy (Or.inl ⟨rfl, rfl⟩) h3 g1
    rw [dd (isPoint_defined h2)] at this
    exact ⟨a, this, g2⟩
  · by_cases hp : i.isPoint = true
    · simp only [evalIvDefS, hp, h1, if_true, Option.bind_eq_bind, Option.bind_eq_some_iff] at h
      rw [if_pos hp] at h3
      obtain ⟨a, g1, g2⟩ := h
      have g3 := g1
      rw [← dd (isPoint_defined hp) (a := D.min)] at g1
      rw [← dd (isPoint_defined hp) (a := D.max)] at g3
      have e1 := end_ren hi hz hy (Or.inl ⟨rfl, rfl⟩) h2 g1
      have e2 := end_ren hi hz hy (Or.inr ⟨rfl, rfl⟩) h3 g3
      simp only [evalIvDefS, h1, Bool.false_eq_true, if_false, Option.bind_eq_bind, e1, e2, Option.bind_some]
      exact g2
    · rw [if_neg hp] at h3
      have hp' : i.isPoint = false := by simpa using hp
      simp only [evalIvDefS, hp', Bool.false_eq_true, if_false, Option.bind_eq_bind, Option.bind_eq_some_iff] at h
      obtain ⟨a, g1, b, g3, g2⟩ := h
      have e1 := end_ren hi hz hy (Or.inl ⟨rfl, rfl⟩) h2 g1
      have e2 := end_ren hi hz hy (Or.inr ⟨rfl, rfl⟩) h3 g3
      simp only [evalIvDefS, h1, Bool.false_eq_true, if_false, Option.bind_eq_bind, e1, e2, Option.bind_some]
      exact g2

theorem cropS_ren {sc : Scope} {ρ ρ' : SEnv} (hi : sc.Inv ρ ρ') {z : Nat} {B : Buf} (hz : ρ' z = .buf B) :
    ∀ {is is' : List Interval} {d : Nat} {b b' : Buf}, RenCs sc sc z d is is' → (∀ k, d ≤ k → b.dim k = B.dim k) → cropS w l ρ d is b = some b' →
      cropS w l ρ' d is' b = some b'
  | [], is', d, b, b', hr, _, h => by
    simp only [RenCs] at hr
    subst hr
    simpa [cropS] using h
  | i :: is, is', d, b, b', hr, hk, h => by
    simp only [RenCs] at hr
    obtain ⟨i1, is1, h1, h2, rfl⟩ := hr
    unfold cropS at h ⊢
    split at h
    · rename_i hd
      rw [if_pos hd]
      simp only [Option.bind_eq_bind, Option.bind_eq_some_iff] at h ⊢
      obtain ⟨v, h3, h4⟩ := h
      refine ⟨v, cropIv_ren hi ⟨B, hz, (hk d (le_refl _)).symm⟩ ?_ h1 h3, cropS_ren hi hz h2 ?_ h4⟩
      · intro y hy1 hy2
        exact ⟨B, by rw [← hi.D y hy1, hy2, hz], (hk d (le_refl _)).symm⟩
      · intro k hk1
        rw [(crop_other b d v.1 v.2).1 k (by omega)]
        exact hk k (by omega)
    · rename_i hd
      rw [if_neg hd]
      exact h

/-- The crop in place, if the crop is in place in both statements. -/
theorem cropSeqS_ren {sc : Scope} {ρ ρ' : SEnv} (hi : sc.Inv ρ ρ') {x x' : Nat} (hx : sc.D x) (hx' : sc.σ x = x') {B : Buf} (hB : ρ x = .buf B)
    (hu : ∀ y, sc.D y → y ≠ x → sc.σ y ≠ x') :
    ∀ {is is' : List Interval} {d : Nat} {b b' : Buf}, RenCs sc sc x' d is is' → cropSeqS w l ρ x d is b = some b' →
      cropSeqS w l ρ' x' d is' b = some b'
  | [], is', d, b, b', hr, h => by
    simp only [RenCs] at hr
    subst hr
    simpa [cropSeqS] using h
  | i :: is, is', d, b, b', hr, h => by
    simp only [RenCs] at hr
    obtain ⟨i1, is1, h1, h2, rfl⟩ := hr
    have hi' : sc.Inv (ρ.set x (.buf b)) (ρ'.set x' (.buf b)) := by
      refine ⟨fun y hy => ?_, fun y hy => ?_, fun y hy => ?_⟩
      · rw [SEnv.set_get, SEnv.set_get]
        by_cases e : y = x
        · simp [e, hx']
        · rw [if_neg (hu y hy e), if_neg e, hi.D y hy]
      · rw [SEnv.set_get]
        have : y ≠ x' := by
          rintro rfl
          have h3 := hi.U _ hy
          have h4 := hi.D x hx
          rw [hx', h3, hB] at h4
          cases h4
        rw [if_neg this, hi.U y hy]
      · rw [SEnv.set_get]
        split
        · simp
        · exact hi.V y hy
    unfold cropSeqS at h ⊢
    split at h
    · rename_i hd
      rw [if_pos hd]
      simp only [Option.bind_eq_bind, Option.bind_eq_some_iff] at h ⊢
      obtain ⟨v, h3, h4⟩ := h
      refine ⟨v, cropIv_ren hi' ⟨b, by simp [SEnv.set_get], rfl⟩ ?_ h1 h3, cropSeqS_ren hi hx hx' hB hu h2 h4⟩
      intro y hy1 hy2
      by_cases e : y = x
      · exact ⟨b, by simp [SEnv.set_get, e], rfl⟩
      · exact absurd hy2 (hu y hy1 e)
    · rename_i hd
      rw [if_neg hd]
      exact h

/-- The crop in place, if the bounds do not depend on the buffer. -/
theorem cropSeqS_of_cropS {sc : Scope} {ρ ρ' : SEnv} (hi : sc.Inv ρ ρ') {z : Nat} {B : Buf} (hz : ρ' z = .buf B) :
    ∀ {is is' : List Interval} {d : Nat} {b b' : Buf}, RenCs sc (sc.without z) z d is is' → (∀ k, d ≤ k → b.dim k = B.dim k) →
      cropS w l ρ d is b = some b' → cropSeqS w l ρ' z d is' b = some b'
  | [], is', d, b, b', hr, _, h => by
    simp only [RenCs] at hr
    subst hr
    simpa [cropSeqS, cropS] using h
  | i :: is, is', d, b, b', hr, hk, h => by
    simp only [RenCs] at hr
    obtain ⟨i1, is1, h1, h2, rfl⟩ := hr
    have hi' : (sc.without z).Inv ρ (ρ'.set z (.buf b)) := by
      refine ⟨fun y hy => ?_, fun y hy => ?_, fun y hy => ?_⟩
      · rw [SEnv.set_get]
        exact (if_neg hy.2).trans (hi.D y hy.1)
      · rw [SEnv.set_get]
        exact (if_neg hy.1).trans (hi.U y hy.2)
      · rw [SEnv.set_get]
        split
        · simp
        · exact hi.V y hy
    unfold cropS at h
    unfold cropSeqS
    split at h
    · rename_i hd
      rw [if_pos hd]
      simp only [Option.bind_eq_bind, Option.bind_eq_some_iff] at h ⊢
      obtain ⟨v, h3, h4⟩ := h
      refine ⟨v, cropIv_ren hi' ⟨b, by simp [SEnv.set_get], rfl⟩ ?_ h1 h3, cropSeqS_of_cropS hi hz h2 ?_ h4⟩
      · intro y hy1 hy2
        exact ⟨B, by rw [← hi.D y hy1, hy2, hz], (hk d (le_refl _)).symm⟩
      · intro k hk1
        rw [(crop_other b d v.1 v.2).1 k (by omega)]
        exact hk k (by omega)
    · rename_i hd
      rw [if_neg hd]
      exact h

theorem sliceS_ren {sc : Scope} {ρ ρ' : SEnv} (hi : sc.Inv ρ ρ') : ∀ {ds : List Dim} {es es' : List Expr}, List.Forall₂ (RenE sc) es es' →
    ∀ {p : Option Int} {r : Option Int × List Dim}, sliceS w l ρ es ds p = some r → sliceS w l ρ' es' ds p = some r
  | [], _, _, hr, p, r, h => by cases hr <;> simpa [sliceS] using h
  | d :: ds, _, _, .nil, p, r, h => by
    simp only [sliceS, Option.map_eq_some_iff] at h ⊢
    obtain ⟨q, h1, h2⟩ := h
    exact ⟨q, sliceS_ren hi .nil h1, h2⟩
  | d :: ds, _, _, .cons (a := e) (b := e') he ht, p, r, h => by
    unfold sliceS at h ⊢
    rw [he.defined]
    by_cases hd : e.defined = true
    · rw [if_pos hd] at h ⊢
      cases p with
      | none => exact sliceS_ren hi ht h
      | some q =>
        simp only [Option.bind_eq_bind, Option.bind_eq_some_iff] at h ⊢
        obtain ⟨x, h1, h2⟩ := h
        exact ⟨x, evalI_ren hi he h1, sliceS_ren hi ht h2⟩
    · rw [if_neg hd] at h ⊢
      simp only [Option.map_eq_some_iff] at h ⊢
      obtain ⟨q, h1, h2⟩ := h
      exact ⟨q, sliceS_ren hi ht h1, h2⟩

theorem serialS_congr {f f' : Int → List Ev → Option (Int × List Ev)} (hf : ∀ i l p, f i l = some p → f' i l = some p) {mn mx step : Int} :
    ∀ {fuel : Nat} {i : Int} {l : List Ev} {p : Int × List Ev}, serialS f mn mx step fuel i l = some p → serialS f' mn mx step fuel i l = some p
  | 0, _, _, _, h => by simp [serialS] at h
  | fuel + 1, i, l, p, h => by
    unfold serialS at h ⊢
    split at h
    · rename_i hc
      rw [if_pos hc]
      cases e : f i l with
      | none => rw [e] at h; cases h
      | some q =>
        rw [e] at h
        rw [hf i l q e]
        simp only at h ⊢
        split at h
        · rename_i hr; rw [if_pos hr]; exact h
        · rename_i hr
          rw [if_neg hr]
          cases e2 : chk 64 (i + step) with
          | none => rw [e2] at h; cases h
          | some j => rw [e2] at h; exact serialS_congr hf h
    · rename_i hc
      rw [if_neg hc]
      exact h

theorem parS_congr {f f' : Int → List Ev → Option (Int × List Ev)} (hf : ∀ i l p, f i l = some p → f' i l = some p) {mn step : Int} :
    ∀ {sch : List (Nat × Nat)} {res : Int} {l : List Ev} {p : Int × List Ev}, parS f mn step sch res l = some p → parS f' mn step sch res l = some p
  | [], _, _, _, h => h
  | (i, v) :: sch, res, l, p, h => by
    unfold parS at h ⊢
    cases e : f (i * step + mn) l with
    | none => rw [e] at h; cases h
    | some q =>
      rw [e] at h
      rw [hf _ l q e]
      exact parS_congr hf h

/-! ## Closures -/

theorem initEnvS_self {ρ : SEnv} {excl : Option Nat} : ∀ {sy : List Nat}, sy.Nodup →
    ∃ ρ1, initEnvS ρ excl (selfBinds sy) = some ρ1 ∧ ∀ y, ρ1 y = if y ∈ sy ∧ some y ≠ excl then ρ y else .undef
  | [], _ => ⟨_, rfl, fun y => by simp⟩
  | z :: sy, hn => by
    obtain ⟨h1, h2⟩ := List.nodup_cons.1 hn
    obtain ⟨ρ1, g1, g2⟩ := initEnvS_self h2 (ρ := ρ) (excl := excl)
    have hs : ∀ sy, (selfBinds sy).syms = sy := by
      intro sy; induction sy with
      | nil => rfl
      | cons a as ih => simp [selfBinds, Binds.syms, ih]
    by_cases hz : some z = excl
    · refine ⟨ρ1, ?_, fun y => ?_⟩
      · simp only [selfBinds, initEnvS, g1, Option.bind_eq_bind, Option.bind_some]
        rw [if_pos hz]
      · rw [g2 y]
        by_cases hy : y = z
        · subst hy; simp [hz]
        · simp [hy]
    · have key : ∀ v, v = ρ z → ∀ y, (ρ1.set z v) y = if y ∈ z :: sy ∧ some y ≠ excl then ρ y else .undef := by
        intro v hv y
        rw [SEnv.set_get, g2 y]
        by_cases hy : y = z
        · subst hy; simp [hz, hv]
        · simp [hy]
      have : initEnvS ρ excl (selfBinds (z :: sy)) = some (ρ1.set z (ρ z)) := by
        simp only [selfBinds, initEnvS, g1, Option.bind_eq_bind, Option.bind_some]
        rw [if_neg hz]
        simp only [hs, if_neg h1]
        cases ρ z <;> simp
      exact ⟨_, this, key _ rfl⟩

theorem evalBindsS_self {ρ : SEnv} : ∀ {sy : List Nat}, (∀ z ∈ sy, ρ z ≠ .undef) → evalBindsS w l ρ (selfBinds sy) = some ρ
  | [], _ => rfl
  | z :: sy, h => by
    have h1 := h z (by simp)
    have e : evalS w l ρ (.var z .none (-1)) = some (ρ z) := by
      simp only [evalS]
    have hb : bindable z (.var z .none (-1)) (ρ z) = true := by
      cases hz : ρ z with
      | undef => exact absurd hz h1
      | _ => simp [bindable]
    have hs : ρ.set z (ρ z) = ρ := by
      funext y
      rw [SEnv.set_get]
      split
      · rename_i hy; rw [hy]
      · rfl
    simp only [selfBinds, evalBindsS, e, Option.bind_some, hb, if_true, hs]
    exact evalBindsS_self fun z hz => h z (by simp [hz])

mutual
/-- The statement is not a closure, nor are the statements of a block. -/
def Stmt.TopOk : Stmt → Prop
  | .lets _ _ c => c = false
  | .block ss => ss.TopOk
  | _ => True
/-- See `Stmt.TopOk`. -/
def Stmts.TopOk : Stmts → Prop
  | .nil => True
  | .cons s ss => s.TopOk ∧ ss.TopOk
end

theorem Stmts.topOk_iff : ∀ {ss : Stmts}, ss.TopOk ↔ ∀ s ∈ ss.toList, s.TopOk
  | .nil => by simp [Stmts.TopOk, Stmts.toList]
  | .cons s ss => by simp [Stmts.TopOk, Stmts.toList, Stmts.topOk_iff (ss := ss)]

theorem Stmts.toList_ofList : ∀ ss : List Stmt, (Stmts.ofList ss).toList = ss
  | [] => rfl
  | s :: ss => by simp [Stmts.ofList, Stmts.toList, Stmts.toList_ofList ss]

theorem flattenBlocks_topOk : ∀ {ss : List Stmt}, (∀ s ∈ ss, s.TopOk) → ∀ s ∈ flattenBlocks ss, s.TopOk
  | [], _, s, hs => by simp [flattenBlocks] at hs
  | t :: ss, h, s, hs => by
    have ht := h t (by simp)
    have hfl : flattenBlocks (t :: ss) = t.flat ++ flattenBlocks ss := by
      cases t <;> simp [flattenBlocks, Stmt.flat]
    rw [hfl, List.mem_append] at hs
    rcases hs with hs | hs
    · cases t with
      | block b => exact Stmts.topOk_iff.1 (by simpa [Stmt.TopOk] using ht) s hs
      | _ => simp only [Stmt.flat, List.mem_singleton] at hs; rw [hs]; exact ht
    · exact flattenBlocks_topOk (fun s hs => h s (by simp [hs])) s hs

theorem blockMake_topOk {ss : List Stmt} (h : ∀ s ∈ ss, s.TopOk) : (blockMake ss).TopOk := by
  have h1 : ∀ s ∈ eraseUndefs (flattenBlocks ss), s.TopOk := fun s hs => flattenBlocks_topOk h s (List.mem_of_mem_filter hs)
  unfold blockMake
  split
  · simp [Stmt.TopOk]
  · rename_i s e; exact h1 s (by simp [e])
  · simp only [Stmt.TopOk, Stmts.topOk_iff, Stmts.toList_ofList]
    exact h1

mutual
theorem RenS.topOk : ∀ {s s' : Stmt} {sc : Scope}, RenS sc s s' → s'.TopOk
  | .undef, _, _, h => by simp only [RenS] at h; subst h; simp [Stmt.TopOk]
  | .copy .., _, _, h => by simp only [RenS] at h; obtain ⟨_, _, _, _, _, _, rfl⟩ := h; simp [Stmt.TopOk]
  | .call .., _, _, h => by simp only [RenS] at h; obtain ⟨_, rfl, _⟩ := h; simp [Stmt.TopOk]
  | .lets .., _, _, h => by simp only [RenS] at h; obtain ⟨_, _, _, _, _, _, rfl⟩ := h; simp [Stmt.TopOk]
  | .block ss, _, _, h => by
    simp only [RenS] at h
    obtain ⟨ss', h1, h2⟩ := h
    have := RenSs.topOk h1
    rcases h2 with rfl | ⟨rfl, _⟩
    · simpa [Stmt.TopOk] using this
    · exact blockMake_topOk (Stmts.topOk_iff.1 this)
  | .loop .., _, _, h => by simp only [RenS] at h; obtain ⟨_, _, _, _, _, _, _, _, _, _, _, rfl⟩ := h; simp [Stmt.TopOk]
  | .allocate .., _, _, h => by simp only [RenS] at h; obtain ⟨_, _, _, _, _, _, _, _, _, rfl⟩ := h; simp [Stmt.TopOk]
  | .makeBuffer .., _, _, h => by simp only [RenS] at h; obtain ⟨_, _, _, _, _, _, _, _, _, _, _, rfl⟩ := h; simp [Stmt.TopOk]
  | .constantBuffer .., _, _, h => by simp only [RenS] at h; obtain ⟨_, _, _, _, _, rfl⟩ := h; simp [Stmt.TopOk]
  | .cloneBuffer .., _, _, h => by simp only [RenS] at h; obtain ⟨_, _, _, _, _, _, rfl⟩ := h; simp [Stmt.TopOk]
  | .cropBuffer .., _, _, h => by simp only [RenS] at h; obtain ⟨_, _, _, _, _, _, _, _, rfl, _⟩ := h; simp [Stmt.TopOk]
  | .cropDim .., _, _, h => by simp only [RenS] at h; obtain ⟨_, _, _, _, _, _, _, _, rfl⟩ := h; simp [Stmt.TopOk]
  | .sliceBuffer .., _, _, h => by simp only [RenS] at h; obtain ⟨_, _, _, _, _, _, _, _, rfl⟩ := h; simp [Stmt.TopOk]
  | .sliceDim .., _, _, h => by simp only [RenS] at h; obtain ⟨_, _, _, _, _, _, _, _, rfl⟩ := h; simp [Stmt.TopOk]
  | .transpose .., _, _, h => by simp only [RenS] at h; obtain ⟨_, _, _, _, _, _, rfl, _⟩ := h; simp [Stmt.TopOk]
  | .async none _ _, _, _, h => by simp only [RenS] at h; obtain ⟨_, _, _, _, rfl⟩ := h; simp [Stmt.TopOk]
  | .async (some _) _ _, _, _, h => by simp only [RenS] at h; obtain ⟨_, _, _, _, _, _, _, _, _, _, _, rfl⟩ := h; simp [Stmt.TopOk]
  | .check _, _, _, h => by simp only [RenS] at h; obtain ⟨_, _, rfl⟩ := h; simp [Stmt.TopOk]
termination_by structural s => s
theorem RenSs.topOk : ∀ {s s' : Stmts} {sc : Scope}, RenSs sc s s' → s'.TopOk
  | .nil, _, _, h => by simp only [RenSs] at h; subst h; simp [Stmts.TopOk]
  | .cons s ss, _, _, h => by
    simp only [RenSs] at h
    obtain ⟨s1, ss1, h1, h2, rfl⟩ := h
    simp only [Stmts.TopOk]
    exact ⟨RenS.topOk h1, RenSs.topOk h2⟩
termination_by structural s => s
end

theorem Stmt.TopOk.closure? {s : Stmt} (h : s.TopOk) : s.closure? = none := by
  cases s with
  | lets bs b c => simp only [Stmt.TopOk] at h; subst h; rfl
  | _ => rfl

theorem RenS.closure? {s s' : Stmt} {sc : Scope} (h : RenS sc s s') : s.closure? = none := by
  cases s with
  | lets bs b c => simp only [RenS] at h; obtain ⟨rfl, _⟩ := h; rfl
  | _ => rfl

theorem sem_skip {s : Stmt} (h : s.closure? = none) (ρ : SEnv) (l : List Ev) (b : Bool) : sem w b s ρ l = sem w false s ρ l := by
  cases s with
  | lets bs body c =>
    cases c with
    | true => simp [Stmt.closure?] at h
    | false => simp only [sem, Bool.and_false, Bool.false_eq_true, if_false]
  | _ => simp only [sem]

theorem newEnvS_none {s : Stmt} (h : s.closure? = none) (ρ : SEnv) (excl : Option Nat) : newEnvS ρ excl s = some ρ := by
  simp [newEnvS, h]

/-! ## Blocks -/

/-- Statements one after another until the first error; statements that are not defined do nothing. -/
def semSeq (w : World) : List Stmt → SEnv → List Ev → Option (Int × List Ev)
  | [], _, l => some (0, l)
  | .undef :: ss, ρ, l => semSeq w ss ρ l
  | s :: ss, ρ, l => (sem w false s ρ l).bind fun p => if p.1 ≠ 0 then some p else semSeq w ss ρ p.2

theorem semSeq_cons {s : Stmt} (h : s ≠ .undef) (ss : List Stmt) (ρ : SEnv) (l : List Ev) : semSeq w (s :: ss) ρ l =
    (sem w false s ρ l).bind fun p => if p.1 ≠ 0 then some p else semSeq w ss ρ p.2 := by
  cases s <;> first | rfl | exact absurd rfl h

theorem semSeq_append (ρ : SEnv) : ∀ (a b : List Stmt) (l : List Ev), semSeq w (a ++ b) ρ l =
    (semSeq w a ρ l).bind fun p => if p.1 ≠ 0 then some p else semSeq w b ρ p.2
  | [], b, l => by simp [semSeq]
  | s :: a, b, l => by
    by_cases h : s = .undef
    · subst h; simp only [List.cons_append, semSeq]; exact semSeq_append ρ a b l
    · rw [List.cons_append, semSeq_cons h, semSeq_cons h]
      cases sem w false s ρ l with
      | none => rfl
      | some p =>
        simp only [Option.bind_some]
        by_cases h0 : p.1 ≠ 0
        · simp [h0]
        · rw [if_neg h0, if_neg h0]; exact semSeq_append ρ a b p.2

theorem semAll_semSeq {ρ : SEnv} : ∀ {ss : Stmts} {l : List Ev} {p : Int × List Ev}, semAll w ss ρ l = some p → semSeq w ss.toList ρ l = some p
  | .nil, l, p, h => by simpa [semAll, semSeq, Stmts.toList] using h
  | .cons s ss, l, p, h => by
    simp only [semAll, Option.bind_eq_some_iff] at h
    obtain ⟨q, h1, h2⟩ := h
    have hs : s ≠ .undef := by rintro rfl; simp [sem] at h1
    rw [Stmts.toList, semSeq_cons hs, h1, Option.bind_some]
    split at h2
    · rename_i h0; rw [if_pos h0, h2]
    · rename_i h0; rw [if_neg h0]; exact semAll_semSeq h2

theorem semSeq_semAll {ρ : SEnv} : ∀ (ss : List Stmt) (l : List Ev), (∀ s ∈ ss, s ≠ .undef) → semAll w (.ofList ss) ρ l = semSeq w ss ρ l
  | [], _, _ => by simp [Stmts.ofList, semAll, semSeq]
  | s :: ss, l, h => by
    rw [semSeq_cons (h s (by simp)), Stmts.ofList, semAll]
    congr 1
    funext p
    rw [semSeq_semAll ss p.2 fun s hs => h s (by simp [hs])]

theorem semSeq_flatten {ρ : SEnv} : ∀ {ss : List Stmt} {l : List Ev} {p : Int × List Ev}, semSeq w ss ρ l = some p → semSeq w (flattenBlocks ss) ρ l = some p
  | [], _, _, h => h
  | s :: ss, l, p, h => by
    by_cases hu : s = .undef
    · subst hu
      simp only [flattenBlocks, semSeq] at h ⊢
      exact semSeq_flatten h
    · rw [semSeq_cons hu] at h
      obtain ⟨q, h1, h2⟩ := Option.bind_eq_some_iff.1 h
      have key : semSeq w s.flat ρ l = some q := by
        cases s with
        | block b => exact semAll_semSeq (by simpa only [sem] using h1)
        | undef => exact absurd rfl hu
        | _ =>
          simp only [Stmt.flat]
          rw [semSeq_cons (by simp), h1, Option.bind_some]
          obtain ⟨r, l'⟩ := q
          by_cases h0 : r = 0 <;> simp [h0, semSeq]
      have hfl : flattenBlocks (s :: ss) = s.flat ++ flattenBlocks ss := by
        cases s <;> simp [flattenBlocks, Stmt.flat]
      rw [hfl, semSeq_append, key, Option.bind_some]
      split at h2
      · rename_i h0; rw [if_pos h0, h2]
      · rename_i h0; rw [if_neg h0]; exact semSeq_flatten h2

theorem semSeq_erase {ρ : SEnv} : ∀ (ss : List Stmt) (l : List Ev), semSeq w (eraseUndefs ss) ρ l = semSeq w ss ρ l
  | [], _ => rfl
  | s :: ss, l => by
    by_cases hu : s = .undef
    · subst hu; simp only [eraseUndefs, List.filter, Stmt.defined, semSeq]; exact semSeq_erase ss l
    · have : eraseUndefs (s :: ss) = s :: eraseUndefs ss := by
        cases s <;> first | rfl | exact absurd rfl hu
      rw [this, semSeq_cons hu, semSeq_cons hu]
      congr 1
      funext p
      rw [semSeq_erase ss p.2]

theorem sem_blockMake {ss : List Stmt} {ρ : SEnv} {l : List Ev} {p : Int × List Ev} (h : semSeq w ss ρ l = some p) (hu : blockMake ss ≠ .undef) :
    sem w false (blockMake ss) ρ l = some p := by
  have h1 : semSeq w (eraseUndefs (flattenBlocks ss)) ρ l = some p := by rw [semSeq_erase]; exact semSeq_flatten h
  have hd : ∀ s ∈ eraseUndefs (flattenBlocks ss), s ≠ .undef := by
    intro s hs
    simp only [eraseUndefs, List.mem_filter] at hs
    rintro rfl
    simp [Stmt.defined] at hs
  have key : semSeq w [blockMake ss] ρ l = some p := by
    unfold blockMake at hu ⊢
    split
    · rename_i e; rw [e] at hu; exact absurd rfl hu
    · rename_i e; rw [e] at h1; exact h1
    · rw [semSeq_cons (by simp), sem, semSeq_semAll _ _ hd, h1]
      obtain ⟨r, l'⟩ := p
      by_cases h0 : r = 0 <;> simp [h0, semSeq]
  rw [semSeq_cons hu] at key
  obtain ⟨q, k1, k2⟩ := Option.bind_eq_some_iff.1 key
  rw [k1]
  obtain ⟨r, l'⟩ := q
  by_cases h0 : r = 0 <;> simpa [h0, semSeq] using k2

end Slinky
