import Verif.OptSymbolsSubst

/-!
# C42: what `optimize_symbols` makes means the same
-/

namespace Slinky

variable {w : World} {l : List Ev} {T M : Nat → Prop}

/-- All symbols in scope have a value. -/
def SEnv.DefOn (ρ : SEnv) (T : Nat → Prop) : Prop := ∀ y, T y → ρ y ≠ .undef

theorem SEnv.DefOn.set {ρ : SEnv} (h : ρ.DefOn T) {T' : Nat → Prop} {x : Nat} (ht : ∀ y, T' y → y = x ∨ T y) {v : Val} (hv : v ≠ .undef) :
    (ρ.set x v).DefOn T' := fun y hy => by
  rw [SEnv.set_get]
  split
  · exact hv
  · rename_i hne; exact h y ((ht y hy).resolve_left hne)

/-! ## Well-formed expressions -/

section
variable {x src : Nat}

mutual
theorem substE_wf : ∀ (e : Expr), e.WF → (substE x (symE src) e).WF
  | .undef, _ => trivial
  | .var y f d, _ => by
    simp only [substE]
    split
    · cases f <;> trivial
    · trivial
  | .const _, h => h
  | .lets bs b, h => by
    simp only [Expr.WF] at h
    simp only [substE, Expr.WF]
    refine ⟨by rw [(substBinds_wf bs h.2.1).2]; exact h.1, (substBinds_wf bs h.2.1).1, ?_⟩
    split
    · exact substE_wf b h.2.2
    · exact h.2.2
  | .bin op a b, h => by
    simp only [Expr.WF] at h
    simp only [substE]
    exact rebuildBin_pred (P := Expr.WF) (by simp [Expr.WF]) (substE_wf a h.1) (substE_wf b h.2)
  | .not a, h => by
    simp only [substE, Expr.WF]; exact substE_wf a h
  | .select c u v, h => by
    simp only [Expr.WF] at h
    simp only [substE, Expr.WF]
    exact ⟨substE_wf c h.1, substE_wf u h.2.1, substE_wf v h.2.2⟩
  | .call fn as, h => by
    simp only [Expr.WF] at h
    simp only [substE, Expr.WF]
    exact fixBufferAt_pred (P := Expr.WF) (Q := Exprs.WF) (by simp [Exprs.WF]) trivial trivial (substArgs_wf as h)
theorem substArgs_wf : ∀ (es : Exprs), es.WF → (substArgs x (symE src) es).WF
  | .nil, _ => trivial
  | .cons e es, h => by
    simp only [Exprs.WF] at h
    simp only [substArgs, Exprs.WF]
    exact ⟨substE_wf e h.1, substArgs_wf es h.2⟩
theorem substBinds_wf : ∀ (bs : Binds), bs.WF → (substBinds x (symE src) bs).WF ∧ (substBinds x (symE src) bs).syms = bs.syms
  | .nil, _ => ⟨trivial, rfl⟩
  | .cons y e bs, h => by
    simp only [Binds.WF] at h
    simp only [substBinds, Binds.WF, Binds.syms]
    have := substBinds_wf bs h.2
    split
    · exact ⟨⟨substE_wf e h.1, this.1⟩, by rw [this.2]⟩
    · exact ⟨⟨substE_wf e h.1, h.2⟩, rfl⟩
end

theorem substI_wf {i : Interval} (h : i.EndsWF) : (substI x (symE src) i).EndsWF := by
  unfold substI
  split
  · exact ⟨substE_wf _ h.1, substE_wf _ h.1⟩
  · exact ⟨substE_wf _ h.1, substE_wf _ h.2⟩

theorem substD_wf {d : DimE} (h : d.WF) : (substD x (symE src) d).WF := ⟨substI_wf h.1, substE_wf _ h.2.1, substE_wf _ h.2.2⟩

theorem dropOwn_wf {z d : Nat} {i : Interval} (h : i.EndsWF) : (dropOwn z d i).EndsWF := by
  have he : ∀ {f e}, Expr.WF e → (dropEnd z f d e).WF := fun h => by
    unfold dropEnd
    split
    · trivial
    · exact h
  have hm : i.maxEnd.WF := by
    unfold Interval.maxEnd
    split
    · exact h.1
    · exact h.2
  unfold dropOwn
  split
  · exact ⟨he h.1, he hm⟩
  · exact h

theorem substCs_wf {z : Nat} : ∀ {is : List Interval} {d : Nat}, (∀ i ∈ is, i.EndsWF) → ∀ i ∈ substCs x (symE src) z d is, i.EndsWF
  | [], _, _ => by simp [substCs]
  | i :: is, d, h => by
    intro j hj
    simp only [substCs, List.mem_cons] at hj
    rcases hj with rfl | hj
    · exact dropOwn_wf (substI_wf (h i (by simp)))
    · exact substCs_wf (fun k hk => h k (by simp [hk])) j hj

theorem blockMake_wf' {ss : List Stmt} (h : ∀ s ∈ ss, s.WF) : (blockMake ss).WF := by
  refine blockMake_all (P := Stmt.WF) trivial (fun ss hb s hs => Stmts.wf_iff.1 (by simpa only [Stmt.WF] using hb) s hs) (fun ss _ hs => ?_) h
  simp only [Stmt.WF]
  rw [Stmts.wf_iff, Stmts.toList_ofList]
  exact fun s h => (hs s h).2

mutual
theorem substS_wf : ∀ (s : Stmt), s.WF → (substS x (symE src) s).WF
  | .undef, _ => trivial
  | .call f i o xs, h => by
    simp only [Stmt.WF] at h
    simp only [substS, Stmt.WF, List.mem_map, forall_exists_index, and_imp, forall_apply_eq_imp_iff₂]
    exact fun e he => substE_wf e (h e he)
  | .copy .., _ => by simp only [substS]; split <;> trivial
  | .lets bs body c, h => by
    simp only [Stmt.WF] at h
    simp only [substS, Stmt.WF]
    refine ⟨by rw [(substBinds_wf bs h.2.1).2]; exact h.1, (substBinds_wf bs h.2.1).1, ?_⟩
    split
    · exact substS_wf body h.2.2
    · exact h.2.2
  | .block .nil, h => by simpa only [substS] using h
  | .block (.cons s ss), h => by
    simp only [Stmt.WF, Stmts.WF] at h
    simp only [substS]
    refine blockMake_wf' fun u hu => ?_
    rcases List.mem_cons.1 hu with rfl | hu
    · exact substS_wf s h.1
    · exact Stmts.wf_iff.1 (substSs_wf ss h.2) u hu
  | .loop y wk b st body, h => by
    simp only [Stmt.WF] at h
    simp only [substS, Stmt.WF]
    refine ⟨h.1, substI_wf h.2.1, substE_wf _ h.2.2.1, ?_⟩
    split
    · exact substS_wf body h.2.2.2
    · exact h.2.2.2
  | .allocate y sto e ds body, h => by
    simp only [Stmt.WF] at h
    simp only [substS, Stmt.WF, List.mem_map, forall_exists_index, and_imp, forall_apply_eq_imp_iff₂]
    refine ⟨substE_wf _ h.1, fun d hd => substD_wf (h.2.1 d hd), ?_⟩
    split
    · exact substS_wf body h.2.2
    · exact h.2.2
  | .makeBuffer y b e ds body, h => by
    simp only [Stmt.WF] at h
    simp only [substS, Stmt.WF, List.mem_map, forall_exists_index, and_imp, forall_apply_eq_imp_iff₂]
    refine ⟨substE_wf _ h.1, substE_wf _ h.2.1, fun d hd => substD_wf (h.2.2.1 d hd), ?_⟩
    split
    · exact substS_wf body h.2.2.2
    · exact h.2.2.2
  | .constantBuffer y b body, h => by
    simp only [Stmt.WF] at h
    simp only [substS, Stmt.WF]
    split
    · exact substS_wf body h
    · exact h
  | .cloneBuffer y b body, h => by
    simp only [Stmt.WF] at h
    simp only [substS, Stmt.WF]
    split
    · exact substS_wf body h
    · exact h
  | .transpose y b _ body, h => by
    simp only [Stmt.WF] at h
    simp only [substS, Stmt.WF]
    split
    · exact substS_wf body h
    · exact h
  | .cropBuffer y z bs body, h => by
    simp only [Stmt.WF] at h
    simp only [substS, Stmt.WF]
    refine ⟨substCs_wf h.1, ?_⟩
    split
    · exact substS_wf body h.2
    · exact h.2
  | .cropDim y z d b body, h => by
    simp only [Stmt.WF] at h
    simp only [substS, Stmt.WF]
    refine ⟨dropOwn_wf (substI_wf h.1), ?_⟩
    split
    · exact substS_wf body h.2
    · exact h.2
  | .sliceBuffer y z es body, h => by
    simp only [Stmt.WF] at h
    simp only [substS, Stmt.WF, List.mem_map, forall_exists_index, and_imp, forall_apply_eq_imp_iff₂]
    refine ⟨fun e he => substE_wf e (h.1 e he), ?_⟩
    split
    · exact substS_wf body h.2
    · exact h.2
  | .sliceDim y z d e body, h => by
    simp only [Stmt.WF] at h
    simp only [substS, Stmt.WF]
    refine ⟨substE_wf e h.1, ?_⟩
    split
    · exact substS_wf body h.2
    · exact h.2
  | .async none t b, h => by simpa only [substS] using h
  | .async (some y) t b, h => by
    simp only [Stmt.WF] at h
    simp only [substS, Stmt.WF]
    constructor
    · split
      · exact substS_wf t h.1
      · exact h.1
    · split
      · exact substS_wf b h.2
      · exact h.2
  | .check c, h => by
    simp only [Stmt.WF] at h
    simp only [substS, Stmt.WF]
    exact substE_wf c h
termination_by structural s => s
theorem substSs_wf : ∀ (ss : Stmts), ss.WF → (substSs x (symE src) ss).WF
  | .nil, _ => trivial
  | .cons s ss, h => by
    simp only [Stmts.WF] at h
    simp only [substSs, Stmts.WF]
    exact ⟨substS_wf s h.1, substSs_wf ss h.2⟩
termination_by structural s => s
end

end

theorem evalBindsS_def : ∀ {bs : Binds} {ρ ρ' : SEnv}, evalBindsS w l ρ bs = some ρ' → ∀ y, (y ∈ bs.syms ∨ ρ y ≠ .undef) → ρ' y ≠ .undef
  | .nil, ρ, ρ', h, y, hy => by
    simp only [evalBindsS, Option.some.injEq] at h
    subst h
    simpa [Binds.syms] using hy
  | .cons x e bs, ρ, ρ', h, y, hy => by
    simp only [evalBindsS, Option.bind_eq_some_iff] at h
    obtain ⟨v, h1, h2⟩ := h
    split at h2
    · rename_i hb
      refine evalBindsS_def h2 y ?_
      have hv : v ≠ .undef := by rintro rfl; simp [bindable] at hb
      simp only [Binds.syms, List.mem_cons] at hy
      rw [SEnv.set_get]
      by_cases e : y = x
      · right; rw [if_pos e]; exact hv
      · rw [if_neg e]
        rcases hy with (hy | hy) | hy
        · exact absurd hy e
        · exact Or.inl hy
        · exact Or.inr hy
    · cases h2

/-! ## Mutators -/

/-- The symbol and the body of a mutator, in place or not. -/
structure MutOK (T M : Nat → Prop) (x src : Nat) (body : Stmt) (x' : Nat) (body' : Stmt) (T' M' : Nat → Prop) : Prop where
  sym : x' = x ∨ x' = src
  opt : body'.OptOK T' M'
  wf : body.WF → body'.WF
  sub : ∀ y, M' y → T' y
  scope : ∀ y, T' y → y = x' ∨ T y
  here : T' x'
  sem : ∀ (w : World) (ρ : SEnv) (b0 b : Buf) (l : List Ev) (p : Int × List Ev), ρ src = .buf b0 → sem w false body (ρ.set x (.buf b)) l = some p →
    sem w false body' (ρ.set x' (.buf b)) l = some p

theorem substituteS_sym {body : Stmt} {x src : Nat} (hne : src ≠ x) : substituteS body x (symE src) = substS x (symE src) body := by
  simp [substituteS, symE, hne]

theorem rsMutator_ok {cm : CanMutate} {x src : Nat} {body : Stmt} (hM : ∀ y, M y → T y) (hx : ¬ T x) (hs : T src)
    (hb : body.OptOK (withSym T x) (withSym M x)) :
    ∃ T' M', MutOK T M x src body (rsMutator cm x src body).1 (rsMutator cm x src body).2 T' M' ∧
      ((rsMutator cm x src body).1 = x ∧ T' = withSym T x ∨ cm src = true ∧ (rsMutator cm x src body).1 = src ∧ T' = T) := by
  have hne : src ≠ x := fun e => hx (e ▸ hs)
  unfold rsMutator
  split
  · rename_i hr
    simp only [rsReuse, Bool.and_eq_true, List.isEmpty_iff] at hr
    obtain ⟨o1, o2, o3⟩ := hb.out
    have hnu : ∀ p : Dep, ¬ body.Uses (some p) src := fun p hp => by
      have := (dependsOnS_flags body o1 src p).mpr hp
      rw [hr.2] at this
      cases this
    obtain ⟨h1, h2⟩ := hb.subst hne (Or.inl rfl) (Or.inl rfl) (Or.inr hs) hnu
    rw [withoutSym_self hx, withoutSym_self fun h => hx (hM x h)] at h2
    refine ⟨T, M, ⟨Or.inr rfl, ?_, ?_, hM, fun y hy => Or.inr hy, hs, fun w ρ b0 b l p hb0 hp => ?_⟩, Or.inr ⟨hr.1, rfl, rfl⟩⟩
    · show (substituteS body x (symE src)).OptOK T M
      rw [substituteS_sym hne]; exact h2
    · show body.WF → (substituteS body x (symE src)).WF
      rw [substituteS_sym hne]; exact substS_wf body
    · show Slinky.sem w false (substituteS body x (symE src)) _ l = some p
      rw [substituteS_sym hne]
      have h3 : Slinky.sem w false body ((ρ.set src (.buf b)).set x (.buf b)) l = some p := by
        refine sem_congr body o1 o2 (fun y => ?_) hp
        by_cases hyx : y = x
        · exact Or.inl (by simp [SEnv.set_get, hyx])
        · by_cases hys : y = src
          · subst hys
            exact Or.inr ⟨hnu, fun _ => ⟨⟨b0, by simp [SEnv.set_get, hyx, hb0]⟩, ⟨b, by simp [SEnv.set_get, hyx]⟩⟩⟩
          · exact Or.inl (by simp [SEnv.set_get, hyx, hys])
      refine sem_subst (by simp [Expr.BufOK]) rfl h1 ⟨fun y hy => by simp [SEnv.set_get, hy], fun l _ => ?_⟩ h3
      simp [evalS, SEnv.set_get]
  · exact ⟨_, _, ⟨Or.inl rfl, hb, id, fun y hy => hy.imp id (hM y), fun y hy => hy, Or.inl rfl, fun w ρ b0 b l p _ hp => hp⟩, Or.inl ⟨rfl, rfl⟩⟩

/-- A crop in place, if the bounds do not depend on other dimensions of the source. -/
theorem cropSeqS_of_indep {ρ : SEnv} {z : Nat} {B : Buf} (hz : ρ z = .buf B) {bs : List Interval} (hc : CropIndep z 0 bs) {b' : Buf}
    (h : cropS w l ρ 0 bs B = some b') : cropSeqS w l ρ z 0 bs B = some b' := by
  have he : ∀ {d : Nat} {e : Expr} {f : Field}, EndIndep z d e → RenEnd (idScope fun _ => True) ((idScope fun _ => True).without z) z f d e e := by
    intro d e f h
    rcases h with h | rfl | rfl
    · left
      have hw : (idScope fun _ => True).without z = idScope fun y => True ∧ y ≠ z := by simp [Scope.without, idScope]
      rw [hw]
      exact renE_refl e _ fun y hy => ⟨trivial, fun e => h (e ▸ hy)⟩
    · exact Or.inr ⟨z, .min, trivial, rfl, rfl, Or.inl rfl, Or.inl rfl⟩
    · exact Or.inr ⟨z, .max, trivial, rfl, rfl, Or.inr rfl, Or.inl rfl⟩
  have key : ∀ (bs : List Interval) (d : Nat), CropIndep z d bs → RenCs (idScope fun _ => True) ((idScope fun _ => True).without z) z d bs bs := by
    intro bs
    induction bs with
    | nil => exact fun _ _ => rfl
    | cons i is ih =>
      intro d hi
      refine ⟨i, is, ?_, ih (d + 1) hi.2.2, rfl⟩
      by_cases hp : i.isPoint = true
      · exact Or.inl ⟨hp, hp, he hi.1⟩
      · refine Or.inr ⟨by simpa using hp, he hi.1, ?_⟩
        have := hi.2.1
        simp only [Interval.maxEnd, hp] at this
        rw [if_neg hp]
        exact he (by simpa using this)
  exact cropSeqS_of_cropS (sc := idScope fun _ => True) ⟨fun _ _ => rfl, fun _ h => h.elim, fun _ h => h.elim⟩ hz (key bs 0 hc) (fun _ _ => rfl) h

/-! ## Closures -/

theorem selfBinds_syms (sy : List Nat) : (selfBinds sy).syms = sy := by
  induction sy with
  | nil => rfl
  | cons a as ih => simp [selfBinds, Binds.syms, ih]

theorem selfBinds_self (sy : List Nat) : (selfBinds sy).Self := by
  induction sy with
  | nil => trivial
  | cons a as ih => exact ⟨⟨-1, rfl⟩, ih⟩

theorem selfBinds_bufOK (sy : List Nat) : (selfBinds sy).BufOK := by
  induction sy with
  | nil => trivial
  | cons a as ih => exact ⟨trivial, ih⟩

theorem selfBinds_reads {q : Dep} {y : Nat} : ∀ {sy : List Nat}, ReadsBinds q y (selfBinds sy) → y ∈ sy
  | [], h => h.elim
  | z :: sy, h => by
    rcases h with h | h
    · exact List.mem_cons.2 (Or.inl h.1.symm)
    · exact List.mem_cons.2 (Or.inr (selfBinds_reads h.2))

/-- What the result of the pass is. -/
structure OutOK (T : Nat → Prop) (s : Stmt) : Prop where
  buf : s.BufOK
  clos : s.ClosOK
  uses : ∀ p y, s.Uses p y → T y

theorem mem_deps {s : Stmt} (h : s.BufOK) {y : Nat} : y ∈ (findDependenciesS s).dedup ↔ s.Free y := by
  rw [List.mem_dedup]; exact findDependenciesS_iff s h y

theorem mkClosure_out {s : Stmt} (h : OutOK T s) : OutOK T (mkClosure s) := by
  refine ⟨⟨selfBinds_bufOK _, h.buf⟩, ⟨fun _ => selfBinds_self _, h.clos⟩, fun p y hy => ?_⟩
  rcases hy with ⟨q, rfl, hq⟩ | ⟨_, hy⟩
  · obtain ⟨p, hp⟩ := (mem_deps h.buf).1 (selfBinds_reads hq)
    exact h.uses p y hp
  · exact h.uses p y hy

theorem mkClosure_wf {s : Stmt} (h : s.WF) : (mkClosure s).WF := by
  have : ∀ sy, (selfBinds sy).WF := fun sy => by
    induction sy with
    | nil => trivial
    | cons a as ih => exact ⟨trivial, ih⟩
  exact ⟨by rw [selfBinds_syms]; exact List.nodup_dedup _, this _, h⟩

theorem mkClosure_here {s : Stmt} (h : OutOK T s) {ρ : SEnv} (hd : ρ.DefOn T) : sem w false (mkClosure s) ρ l = sem w false s ρ l := by
  simp only [mkClosure, sem, Bool.false_and, Bool.false_eq_true, if_false]
  rw [evalBindsS_self fun z hz => ?_, Option.bind_some]
  obtain ⟨p, hp⟩ := (mem_deps h.buf).1 hz
  exact hd z (h.uses p z hp)

theorem mkClosure_env {s : Stmt} (h : OutOK T s) {ρ : SEnv} {excl : Option Nat} : ∃ ρ1, newEnvS ρ excl (mkClosure s) = some ρ1 ∧
    ∀ y, s.Free y → some y ≠ excl → ρ1 y = ρ y := by
  obtain ⟨ρ1, h1, h2⟩ := initEnvS_self (ρ := ρ) (excl := excl) (List.nodup_dedup (findDependenciesS s))
  refine ⟨ρ1, h1, fun y hy hne => ?_⟩
  rw [h2 y, if_pos ⟨(mem_deps h.buf).2 hy, hne⟩]

theorem sem_free {s : Stmt} (h : OutOK T s) {ρ ρ' : SEnv} (he : ∀ y, s.Free y → ρ y = ρ' y) : sem w false s ρ l = sem w false s ρ' l := by
  refine sem_congr_eq h.buf h.clos fun y => ?_
  by_cases hy : s.Free y
  · exact Or.inl (he y hy)
  · exact Or.inr ⟨fun p hp => hy ⟨_, hp⟩, fun hp => (hy ⟨_, hp⟩).elim⟩

theorem mkClosure_iter {s : Stmt} (h : OutOK T s) {ρ : SEnv} {x : Nat} : ∃ ρ1, newEnvS ρ (some x) (mkClosure s) = some ρ1 ∧
    ∀ v l, sem w true (mkClosure s) (ρ1.set x v) l = sem w false s (ρ.set x v) l := by
  obtain ⟨ρ1, h1, h2⟩ := mkClosure_env h (ρ := ρ) (excl := some x)
  refine ⟨ρ1, h1, fun v l => ?_⟩
  simp only [mkClosure, sem, Bool.and_self, if_true]
  refine sem_free h fun y hy => ?_
  rw [SEnv.set_get, SEnv.set_get]
  split
  · rfl
  · rename_i hne; exact h2 y hy (by simpa using hne)

theorem mkClosure_task {s : Stmt} (h : OutOK T s) {ρ : SEnv} : ∃ ρ1, newEnvS ρ none (mkClosure s) = some ρ1 ∧
    ∀ l, sem w true (mkClosure s) ρ1 l = sem w false s ρ l := by
  obtain ⟨ρ1, h1, h2⟩ := mkClosure_env h (ρ := ρ) (excl := none)
  refine ⟨ρ1, h1, fun l => ?_⟩
  simp only [mkClosure, sem, Bool.and_self, if_true]
  exact sem_free h fun y hy => h2 y hy (by simp)

/-! ## The pass -/

/-- What is proved of the pass with some bound of the depth. -/
structure RsOK (T : Nat → Prop) (s s' : Stmt) : Prop where
  out : OutOK T s'
  solid : s ≠ .undef → s'.Solid
  wf : s.WF → s'.WF
  top : s'.TopOk
  sem : ∀ (w : World) {ρ : SEnv} {l : List Ev} {p : Int × List Ev}, ρ.DefOn T → sem w false s ρ l = some p → sem w false s' ρ l = some p

theorem Stmt.OptOK.closure? {s : Stmt} (h : s.OptOK T M) : s.closure? = none := by
  cases s with
  | lets bs b c => simp only [Stmt.OptOK] at h; rw [h.1]; rfl
  | _ => rfl

theorem Stmt.OptOK.outOK {s : Stmt} (h : s.OptOK T M) : OutOK T s := ⟨h.out.1, h.out.2.1, h.out.2.2⟩

theorem Stmt.OptOK.solid : ∀ {s : Stmt}, s.OptOK T M → s ≠ .undef → s.Solid
  | .undef, _, h => absurd rfl h
  | .block .nil, h, _ => by simp [Stmt.OptOK] at h
  | .block (.cons s ss), h, _ => by
    simp only [Stmt.OptOK] at h
    simp only [Stmt.Solid, Stmts.Solid]
    exact Or.inl (h.2.1.solid h.1)
  | .call .., _, _ => by simp [Stmt.Solid]
  | .copy .., _, _ => by simp [Stmt.Solid]
  | .lets .., _, _ => by simp [Stmt.Solid]
  | .loop .., _, _ => by simp [Stmt.Solid]
  | .allocate .., _, _ => by simp [Stmt.Solid]
  | .makeBuffer .., _, _ => by simp [Stmt.Solid]
  | .constantBuffer .., _, _ => by simp [Stmt.Solid]
  | .cloneBuffer .., _, _ => by simp [Stmt.Solid]
  | .cropBuffer .., _, _ => by simp [Stmt.Solid]
  | .cropDim .., _, _ => by simp [Stmt.Solid]
  | .sliceBuffer .., _, _ => by simp [Stmt.Solid]
  | .sliceDim .., _, _ => by simp [Stmt.Solid]
  | .transpose .., _, _ => by simp [Stmt.Solid]
  | .async .., _, _ => by simp [Stmt.Solid]
  | .check _, _, _ => by simp [Stmt.Solid]
termination_by structural s => s

mutual
theorem Stmt.OptOK.top : ∀ {s : Stmt}, s.OptOK T M → s.TopOk
  | .block .nil, h => by simp [Stmt.OptOK] at h
  | .block (.cons s ss), h => by
    simp only [Stmt.OptOK] at h
    simp only [Stmt.TopOk, Stmts.TopOk]
    exact ⟨h.2.1.top, h.2.2.top⟩
  | .lets _ _ c, h => by simp only [Stmt.OptOK] at h; simpa only [Stmt.TopOk] using h.1
  | .undef, _ => by simp [Stmt.TopOk]
  | .call .., _ => by simp [Stmt.TopOk]
  | .copy .., _ => by simp [Stmt.TopOk]
  | .loop .., _ => by simp [Stmt.TopOk]
  | .allocate .., _ => by simp [Stmt.TopOk]
  | .makeBuffer .., _ => by simp [Stmt.TopOk]
  | .constantBuffer .., _ => by simp [Stmt.TopOk]
  | .cloneBuffer .., _ => by simp [Stmt.TopOk]
  | .cropBuffer .., _ => by simp [Stmt.TopOk]
  | .cropDim .., _ => by simp [Stmt.TopOk]
  | .sliceBuffer .., _ => by simp [Stmt.TopOk]
  | .sliceDim .., _ => by simp [Stmt.TopOk]
  | .transpose .., _ => by simp [Stmt.TopOk]
  | .async .., _ => by simp [Stmt.TopOk]
  | .check _, _ => by simp [Stmt.TopOk]
termination_by structural s => s
theorem Stmts.OptOK.top : ∀ {s : Stmts}, s.OptOK T M → s.TopOk
  | .nil, _ => by simp [Stmts.TopOk]
  | .cons s ss, h => by
    simp only [Stmts.OptOK] at h
    simp only [Stmts.TopOk]
    exact ⟨h.2.1.top, h.2.2.top⟩
termination_by structural s => s
end

theorem RsOK.refl {s : Stmt} (h : s.OptOK T M) : RsOK T s s := ⟨h.outOK, h.solid, id, h.top, fun _ _ _ _ _ hp => hp⟩

theorem Stmts.bufOK_iff : ∀ {ss : Stmts}, ss.BufOK ↔ ∀ s ∈ ss.toList, s.BufOK
  | .nil => by simp [Stmts.BufOK, Stmts.toList]
  | .cons s ss => by simp [Stmts.BufOK, Stmts.toList, Stmts.bufOK_iff (ss := ss)]

theorem Stmts.closOK_iff : ∀ {ss : Stmts}, ss.ClosOK ↔ ∀ s ∈ ss.toList, s.ClosOK
  | .nil => by simp [Stmts.ClosOK, Stmts.toList]
  | .cons s ss => by simp [Stmts.ClosOK, Stmts.toList, Stmts.closOK_iff (ss := ss)]

theorem Stmts.uses_iff {p : DepO} {y : Nat} : ∀ {ss : Stmts}, ss.Uses p y ↔ ∃ s ∈ ss.toList, s.Uses p y
  | .nil => by simp [Stmts.Uses, Stmts.toList]
  | .cons s ss => by simp [Stmts.Uses, Stmts.toList, Stmts.uses_iff (ss := ss)]

theorem outOK_block {ss : Stmts} : OutOK T (.block ss) ↔ ∀ s ∈ ss.toList, OutOK T s := by
  constructor
  · intro h s hs
    exact ⟨Stmts.bufOK_iff.1 h.buf s hs, Stmts.closOK_iff.1 h.clos s hs, fun p y hy => h.uses p y (Stmts.uses_iff.2 ⟨s, hs, hy⟩)⟩
  · intro h
    refine ⟨Stmts.bufOK_iff.2 fun s hs => (h s hs).buf, Stmts.closOK_iff.2 fun s hs => (h s hs).clos, fun p y hy => ?_⟩
    obtain ⟨s, hs, hu⟩ := Stmts.uses_iff.1 hy
    exact (h s hs).uses p y hu

theorem blockMake_out {ss : List Stmt} (h : ∀ s ∈ ss, OutOK T s) : OutOK T (blockMake ss) := by
  refine blockMake_all (P := OutOK T) ⟨trivial, trivial, fun _ _ h => h.elim⟩ (fun ss hb s hs => outOK_block.1 hb s hs) (fun ss _ hs => ?_) h
  rw [outOK_block, Stmts.toList_ofList]
  exact fun s h => (hs s h).2

theorem rsList_ok {f : CanMutate → Stmt → Stmt × CanMutate} (hf : ∀ cm s, s.OptOK T M → RsOK T s (f cm s).1) : ∀ {ss : Stmts} {cm : CanMutate},
    ss.OptOK T M → (∀ s ∈ (rsList f cm ss).1.toList, OutOK T s) ∧
      (∀ (w : World) {ρ : SEnv} {l : List Ev} {p : Int × List Ev}, ρ.DefOn T → semAll w ss ρ l = some p → semAll w (rsList f cm ss).1 ρ l = some p) ∧
      (ss.WF → (rsList f cm ss).1.WF) ∧ (rsList f cm ss).1.TopOk
  | .nil, _, _ => ⟨by simp [rsList, Stmts.toList], fun w _ _ _ _ h => by simpa [rsList] using h, id, by simp [rsList, Stmts.TopOk]⟩
  | .cons s ss, cm, h => by
    simp only [Stmts.OptOK] at h
    have h1 := hf cm s h.2.1
    obtain ⟨h2, h3, h4, h5⟩ := rsList_ok hf (cm := (f cm s).2) h.2.2
    refine ⟨fun u hu => ?_, fun w ρ l p hd hp => ?_, fun hw => ⟨h1.wf hw.1, h4 hw.2⟩, h1.top, h5⟩
    · simp only [rsList, Stmts.toList, List.mem_cons] at hu
      rcases hu with rfl | hu
      · exact h1.out
      · exact h2 u hu
    · simp only [rsList, semAll, Option.bind_eq_some_iff] at hp ⊢
      obtain ⟨q, g1, g2⟩ := hp
      refine ⟨q, h1.sem w hd g1, ?_⟩
      split at g2
      · rename_i h0; rw [if_pos h0]; exact g2
      · rename_i h0; rw [if_neg h0]; exact h3 w hd g2

theorem bufVal_ne {b : Buf} : Val.buf b ≠ .undef := by simp
theorem intVal_ne {i : Int} : Val.int i ≠ .undef := by simp

/-- A loop with another body. -/
theorem sem_loop_mono {x : Nat} {wk : Expr} {b : Interval} {st : Expr} {body body' : Stmt} {ρ : SEnv} (hcl : body.closure? = none)
    (h1 : ∀ (i : Int) (l : List Ev) (p : Int × List Ev), sem w false body (ρ.set x (.int i)) l = some p → sem w false body' (ρ.set x (.int i)) l = some p)
    (h2 : ∃ init, newEnvS ρ (some x) body' = some init ∧ ∀ (i : Int) (l : List Ev) (p : Int × List Ev),
      sem w false body (ρ.set x (.int i)) l = some p → sem w true body' (init.set x (.int i)) l = some p) {p : Int × List Ev}
    (h : sem w false (.loop x wk b st body) ρ l = some p) : sem w false (.loop x wk b st body') ρ l = some p := by
  simp only [sem, Option.bind_eq_bind, Option.bind_eq_some_iff] at h ⊢
  obtain ⟨n, g1, v, g2, s, g3, g4⟩ := h
  refine ⟨n, g1, v, g2, s, g3, ?_⟩
  split at g4
  · cases g4
  · rename_i hs
    rw [if_neg hs]
    split at g4
    · rename_i hn
      rw [if_pos hn]
      simp only [Option.bind_eq_some_iff] at g4 ⊢
      obtain ⟨k, g5, g6⟩ := g4
      refine ⟨k, g5, ?_⟩
      by_cases k0 : k = 0
      · rw [if_pos k0] at g6 ⊢; exact g6
      · rw [if_neg k0] at g6 ⊢
        by_cases k1 : k = 1
        · rw [if_pos k1] at g6 ⊢
          exact h1 _ _ _ g6
        · rw [if_neg k1] at g6 ⊢
          split at g6
          · rename_i hp
            rw [if_pos hp]
            obtain ⟨i1, e0, g7⟩ := Option.bind_eq_some_iff.1 g6
            rw [newEnvS_none hcl] at e0
            cases e0
            obtain ⟨init, e1, e2⟩ := h2
            rw [e1, Option.bind_some]
            exact parS_congr (fun i l p hh => e2 i l p (by rwa [sem_skip hcl] at hh)) g7
          · cases g6
    · rename_i hn
      rw [if_neg hn]
      exact serialS_congr (fun i l p hh => h1 i l p hh) g4

/-- The pass, on a statement in its domain. -/
theorem rsS_ok {serial : Expr → Bool} : ∀ (n : Nat) {cm : CanMutate} {s : Stmt} {T M : Nat → Prop}, (∀ y, M y → T y) → s.OptOK T M →
    RsOK T s (rsS serial n cm s).1
  | 0, _, _, _, _, _, h => .refl h
  | n + 1, cm, s, T, M, hM, h => by
    have IH : ∀ (cm : CanMutate) (s : Stmt) (T M : Nat → Prop), (∀ y, M y → T y) → s.OptOK T M → RsOK T s (rsS serial n cm s).1 :=
      fun cm s T M => rsS_ok n
    have hM' : ∀ x y, M y → withSym T x y := fun x y hy => Or.inr (hM y hy)
    cases s with
    | undef => exact .refl h
    | call => exact .refl h
    | copy => exact .refl h
    | check => exact .refl h
    | lets bs body c =>
      have ho := h.out
      simp only [Stmt.OptOK] at h
      have ih := IH cm body _ M (fun y hy => Or.inr (hM y hy)) h.2.2
      refine ⟨⟨⟨ho.1.1, ih.out.buf⟩, ⟨ho.2.1.1, ih.out.clos⟩, fun p y hy => ?_⟩, fun _ => by simp [rsS, Stmt.Solid], fun hw => ?_, ?_, fun w ρ l p hd hp => ?_⟩
      · rcases hy with hy | ⟨h1, hy⟩
        · exact ho.2.2 p y (Or.inl hy)
        · exact (ih.out.uses p y hy).resolve_left h1
      · exact ⟨hw.1, hw.2.1, ih.wf hw.2.2⟩
      · exact h.1
      · simp only [rsS, sem, Bool.false_and, Bool.false_eq_true, if_false, Option.bind_eq_some_iff] at hp ⊢
        obtain ⟨ρ1, g1, g2⟩ := hp
        refine ⟨ρ1, g1, ih.sem w (fun y hy => ?_) g2⟩
        exact evalBindsS_def g1 y (hy.imp id (hd y))
    | block ss =>
      cases ss with
      | nil => simp [Stmt.OptOK] at h
      | cons s ss =>
        have h' := block_opt h
        obtain ⟨h1, h2, h3, h3'⟩ := rsList_ok (fun cm s hs => IH cm s T M hM hs) (cm := cm) h'
        simp only [Stmt.OptOK] at h
        have hso : (blockMake (rsList (rsS serial n) cm (.cons s ss)).1.toList).Solid := by
          simp only [rsList, Stmts.toList]
          exact blockMake_solid ((IH cm s T M hM h.2.1).solid h.1)
        refine ⟨blockMake_out h1, fun _ => hso, fun hw => blockMake_wf' (Stmts.wf_iff.1 (h3 hw)), blockMake_topOk (Stmts.topOk_iff.1 h3'), fun w ρ l p hd hp => ?_⟩
        exact sem_blockMake (semAll_semSeq (h2 w hd (by simpa only [sem] using hp))) hso.ne
    | loop x wk b st body =>
      have ho := h.out
      simp only [Stmt.OptOK] at h
      obtain ⟨h1, h2, h3, h4, h5, h6⟩ := h
      have hb0 := h6.closure?
      have hset : ∀ {ρ : SEnv}, ρ.DefOn T → ∀ i, (ρ.set x (.int i)).DefOn (withSym T x) := fun hd i => hd.set (fun y hy => hy) intVal_ne
      simp only [rsS]
      split
      · have ih := IH cm body _ M (hM' x) h6
        refine ⟨⟨⟨ho.1.1, ho.1.2.1, ho.1.2.2.1, ih.out.buf⟩, ih.out.clos, fun p y hy => ?_⟩, fun _ => by simp [Stmt.Solid],
          fun hw => ⟨hw.1, hw.2.1, hw.2.2.1, ih.wf hw.2.2.2⟩, by trivial, fun w ρ l p hd hp => ?_⟩
        · rcases hy with hy | hy | hy | ⟨hne, hy⟩
          · exact ho.2.2 p y (Or.inl hy)
          · exact ho.2.2 p y (Or.inr (Or.inl hy))
          · exact ho.2.2 p y (Or.inr (Or.inr (Or.inl hy)))
          · exact (ih.out.uses p y hy).resolve_left hne
        · refine sem_loop_mono hb0 (fun i l p hh => ih.sem w (hset hd i) hh) ?_ hp
          have hc : (rsS serial n cm body).1.closure? = none := ih.top.closure?
          exact ⟨ρ, newEnvS_none hc _ _, fun i l p hh => by rw [sem_skip hc]; exact ih.sem w (hset hd i) hh⟩
      · have ih := IH (fun _ => false) body _ M (hM' x) h6
        have hcl := mkClosure_out ih.out
        refine ⟨⟨⟨ho.1.1, ho.1.2.1, ho.1.2.2.1, hcl.buf⟩, hcl.clos, fun p y hy => ?_⟩, fun _ => by simp [Stmt.Solid],
          fun hw => ⟨hw.1, hw.2.1, hw.2.2.1, mkClosure_wf (ih.wf hw.2.2.2)⟩, by trivial, fun w ρ l p hd hp => ?_⟩
        · rcases hy with hy | hy | hy | ⟨hne, hy⟩
          · exact ho.2.2 p y (Or.inl hy)
          · exact ho.2.2 p y (Or.inr (Or.inl hy))
          · exact ho.2.2 p y (Or.inr (Or.inr (Or.inl hy)))
          · exact (hcl.uses p y hy).resolve_left hne
        · refine sem_loop_mono hb0 (fun i l p hh => by rw [mkClosure_here ih.out (hset hd i)]; exact ih.sem w (hset hd i) hh) ?_ hp
          obtain ⟨init, e1, e2⟩ := mkClosure_iter ih.out (w := w) (ρ := ρ) (x := x)
          exact ⟨init, e1, fun i l p hh => by rw [e2]; exact ih.sem w (hset hd i) hh⟩
    | async x task body =>
      have ho := h.out
      simp only [Stmt.OptOK] at h
      obtain ⟨rfl, h1, h2, h3⟩ := h
      have it := IH (fun _ => false) task T M hM h2
      have ib := IH (fun _ => false) body T M hM h3
      have ct := mkClosure_out it.out
      have cb := mkClosure_out ib.out
      refine ⟨⟨⟨rfl, ct.buf, cb.buf⟩, ⟨ct.clos, cb.clos⟩, fun p y hy => ?_⟩, fun _ => by simp [rsS, Stmt.Solid],
        fun hw => ⟨mkClosure_wf (it.wf hw.1), mkClosure_wf (ib.wf hw.2)⟩, by trivial, fun w ρ l p hd hp => ?_⟩
      · rcases hy.2 with hy | hy
        · exact ct.uses p y hy
        · exact cb.uses p y hy
      · obtain ⟨i1, e1, e2⟩ := mkClosure_task it.out (w := w) (ρ := ρ)
        obtain ⟨i2, e3, e4⟩ := mkClosure_task ib.out (w := w) (ρ := ρ)
        simp only [rsS, sem, asyncOk, if_true, SEnv.setOpt, ite_self, newEnvS_none h2.closure?, newEnvS_none h3.closure?, sem_skip h2.closure?,
          sem_skip h3.closure?, e1, e2, e3, e4, Option.bind_some] at hp ⊢
        split at hp
        · rename_i hc'
          rw [if_pos hc']
          simp only [Option.bind_eq_some_iff, Option.map_eq_some_iff] at hp ⊢
          obtain ⟨q, g2, q2, g4, g5⟩ := hp
          exact ⟨q, it.sem w hd g2, q2, ib.sem w hd g4, g5⟩
        · rename_i hc'
          rw [if_neg hc']
          simp only [Option.bind_eq_some_iff, Option.map_eq_some_iff] at hp ⊢
          obtain ⟨q, g2, q2, g4, g5⟩ := hp
          exact ⟨q, ib.sem w hd g2, q2, it.sem w hd g4, g5⟩
    | allocate x sto e ds body =>
      have ho := h.out
      simp only [Stmt.OptOK] at h
      obtain ⟨h1, h2, h3, h4⟩ := h
      have ih := IH (Function.update cm x true) body _ M (hM' x) h4
      refine ⟨⟨⟨ho.1.1, ho.1.2.1, ih.out.buf⟩, ih.out.clos, fun p y hy => ?_⟩, fun _ => by simp [rsS, Stmt.Solid],
        fun hw => ⟨hw.1, hw.2.1, ih.wf hw.2.2⟩, by trivial, fun w ρ l p hd hp => ?_⟩
      · rcases hy with hy | hy | ⟨hne, hy⟩
        · exact ho.2.2 p y (Or.inl hy)
        · exact ho.2.2 p y (Or.inr (Or.inl hy))
        · exact (ih.out.uses p y hy).resolve_left hne
      · simp only [rsS, sem, Option.bind_eq_bind, Option.bind_eq_some_iff] at hp ⊢
        obtain ⟨n, g1, v, g2, g3⟩ := hp
        refine ⟨n, g1, v, g2, ?_⟩
        split at g3
        · exact g3
        · split at g3
          · rename_i hc'; rw [if_pos hc']; exact g3
          · rename_i hc'
            rw [if_neg hc']
            simp only [Option.map_eq_some_iff] at g3 ⊢
            obtain ⟨q, g4, g5⟩ := g3
            exact ⟨q, ih.sem w (hd.set (fun y hy => hy) bufVal_ne) g4, g5⟩
    | makeBuffer x b e ds body =>
      have ho := h.out
      simp only [Stmt.OptOK] at h
      obtain ⟨h1, h2, h3, h4, h5⟩ := h
      have ih := IH (Function.update cm x true) body _ M (hM' x) h5
      refine ⟨⟨⟨ho.1.1, ho.1.2.1, ho.1.2.2.1, ih.out.buf⟩, ih.out.clos, fun p y hy => ?_⟩, fun _ => by simp [rsS, Stmt.Solid],
        fun hw => ⟨hw.1, hw.2.1, hw.2.2.1, ih.wf hw.2.2.2⟩, by trivial, fun w ρ l p hd hp => ?_⟩
      · rcases hy with hy | hy | hy | ⟨hne, hy⟩
        · exact ho.2.2 p y (Or.inl hy)
        · exact ho.2.2 p y (Or.inr (Or.inl hy))
        · exact ho.2.2 p y (Or.inr (Or.inr (Or.inl hy)))
        · exact (ih.out.uses p y hy).resolve_left hne
      · simp only [rsS, sem, Option.bind_eq_bind, Option.bind_eq_some_iff] at hp ⊢
        obtain ⟨n, g1, v, g2, d, g3, g4⟩ := hp
        refine ⟨n, g1, v, g2, d, g3, ?_⟩
        generalize hB : Buf.mk (if v = 0 then none else some v) n (d.take (trimRank d)) = B at g4 ⊢
        by_cases hv : B.validate = true
        · rw [if_pos hv] at g4 ⊢; exact ih.sem w (hd.set (fun y hy => hy) bufVal_ne) g4
        · rw [if_neg hv] at g4 ⊢; exact g4
    | constantBuffer x b body =>
      simp only [Stmt.OptOK] at h
      have ih := IH (Function.update cm x false) body _ M (hM' x) h.2
      refine ⟨⟨ih.out.buf, ih.out.clos, fun p y hy => (ih.out.uses p y hy.2).resolve_left hy.1⟩, fun _ => by simp [rsS, Stmt.Solid],
        fun hw => ih.wf hw, by trivial, fun w ρ l p hd hp => ?_⟩
      simp only [rsS, sem] at hp ⊢
      exact ih.sem w (hd.set (fun y hy => hy) bufVal_ne) hp
    | cloneBuffer x src body =>
      simp only [Stmt.OptOK] at h
      have ih := IH cm body _ M (hM' x) h.2.2
      refine ⟨⟨ih.out.buf, ih.out.clos, fun p y hy => ?_⟩, fun _ => by simp [rsS, Stmt.Solid], fun hw => ih.wf hw, by trivial, fun w ρ l p hd hp => ?_⟩
      · rcases hy with hy | hy | hy
        · rw [hy.1]; exact h.2.1
        · exact (ih.out.uses p y hy.2).resolve_left hy.1
        · rw [hy.1]; exact h.2.1
      · simp only [rsS, sem, Option.bind_eq_some_iff] at hp ⊢
        obtain ⟨b, g1, g2⟩ := hp
        exact ⟨b, g1, ih.sem w (hd.set (fun y hy => hy) bufVal_ne) g2⟩
    | cropBuffer x src bs body =>
      have ho := h.out
      simp only [Stmt.OptOK] at h
      obtain ⟨h1, h2, h3, h4, h5⟩ := h
      obtain ⟨T', M', hm, _⟩ := rsMutator_ok (cm := cm) hM h1 h2 h5
      simp only [rsS]
      generalize rsMutator cm x src body = m at hm ⊢
      have ih := IH (Function.update cm x true) m.2 T' M' hm.sub hm.opt
      refine ⟨⟨⟨ho.1.1, ih.out.buf⟩, ih.out.clos, fun p y hy => ?_⟩, fun _ => by simp [Stmt.Solid], fun hw => ⟨hw.1, ih.wf (hm.wf hw.2)⟩, by trivial, fun w ρ l p hd hp => ?_⟩
      · rcases hy with hy | hy | hy | hy
        · exact ho.2.2 p y (Or.inl hy)
        · rw [hy.1]; exact h2
        · exact (hm.scope y (ih.out.uses p y hy.2)).resolve_left hy.1
        · rw [hy.1]; exact h2
      · simp only [sem, Option.bind_eq_some_iff] at hp ⊢
        obtain ⟨b, g1, b1, g2, g3⟩ := hp
        have hb := buf?_some g1
        refine ⟨b, g1, b1, g2, ?_⟩
        rw [if_pos]
        · split at g3
          · exact ih.sem w (hd.set hm.scope bufVal_ne) (hm.sem w ρ b b1 l p hb g3)
          · cases g3
        · rintro e; rw [e]; exact cropSeqS_of_indep hb h4 g2
    | cropDim x src d bs body =>
      have ho := h.out
      simp only [Stmt.OptOK] at h
      obtain ⟨h1, h2, h3, h5⟩ := h
      obtain ⟨T', M', hm, _⟩ := rsMutator_ok (cm := cm) hM h1 h2 h5
      simp only [rsS]
      generalize rsMutator cm x src body = m at hm ⊢
      have ih := IH (Function.update cm x true) m.2 T' M' hm.sub hm.opt
      refine ⟨⟨⟨ho.1.1, ih.out.buf⟩, ih.out.clos, fun p y hy => ?_⟩, fun _ => by simp [Stmt.Solid], fun hw => ⟨hw.1, ih.wf (hm.wf hw.2)⟩, by trivial, fun w ρ l p hd hp => ?_⟩
      · rcases hy with hy | hy | hy | hy
        · exact ho.2.2 p y (Or.inl hy)
        · rw [hy.1]; exact h2
        · exact (hm.scope y (ih.out.uses p y hy.2)).resolve_left hy.1
        · rw [hy.1]; exact h2
      · simp only [sem, Option.bind_eq_some_iff] at hp ⊢
        obtain ⟨b, g1, v, g2, g3⟩ := hp
        exact ⟨b, g1, v, g2, ih.sem w (hd.set hm.scope bufVal_ne) (hm.sem w ρ b _ l p (buf?_some g1) g3)⟩
    | sliceBuffer x src es body =>
      have ho := h.out
      simp only [Stmt.OptOK] at h
      obtain ⟨h1, h2, h3, h5⟩ := h
      obtain ⟨T', M', hm, _⟩ := rsMutator_ok (cm := cm) hM h1 h2 h5
      simp only [rsS]
      generalize rsMutator cm x src body = m at hm ⊢
      have ih := IH (Function.update cm x true) m.2 T' M' hm.sub hm.opt
      refine ⟨⟨⟨ho.1.1, ih.out.buf⟩, ih.out.clos, fun p y hy => ?_⟩, fun _ => by simp [Stmt.Solid], fun hw => ⟨hw.1, ih.wf (hm.wf hw.2)⟩, by trivial, fun w ρ l p hd hp => ?_⟩
      · rcases hy with hy | hy | hy | hy
        · exact ho.2.2 p y (Or.inl hy)
        · rw [hy.1]; exact h2
        · exact (hm.scope y (ih.out.uses p y hy.2)).resolve_left hy.1
        · rw [hy.1]; exact h2
      · simp only [sem, Option.bind_eq_some_iff] at hp ⊢
        obtain ⟨b, g1, v, g2, g3⟩ := hp
        exact ⟨b, g1, v, g2, ih.sem w (hd.set hm.scope bufVal_ne) (hm.sem w ρ b _ l p (buf?_some g1) g3)⟩
    | sliceDim x src d e body =>
      have ho := h.out
      simp only [Stmt.OptOK] at h
      obtain ⟨h1, h2, h3, h5⟩ := h
      obtain ⟨T', M', hm, _⟩ := rsMutator_ok (cm := cm) hM h1 h2 h5
      simp only [rsS]
      generalize rsMutator cm x src body = m at hm ⊢
      have ih := IH (Function.update cm x true) m.2 T' M' hm.sub hm.opt
      refine ⟨⟨⟨ho.1.1, ih.out.buf⟩, ih.out.clos, fun p y hy => ?_⟩, fun _ => by simp [Stmt.Solid], fun hw => ⟨hw.1, ih.wf (hm.wf hw.2)⟩, by trivial, fun w ρ l p hd hp => ?_⟩
      · rcases hy with hy | hy | hy | hy
        · exact ho.2.2 p y (Or.inl hy)
        · rw [hy.1]; exact h2
        · exact (hm.scope y (ih.out.uses p y hy.2)).resolve_left hy.1
        · rw [hy.1]; exact h2
      · simp only [sem, Option.bind_eq_some_iff] at hp ⊢
        obtain ⟨b, g1, g2⟩ := hp
        have hb := buf?_some g1
        refine ⟨b, g1, ?_⟩
        by_cases hdr : d ≥ b.rank
        · rw [if_pos hdr] at g2 ⊢
          exact ih.sem w (hd.set hm.scope bufVal_ne) (hm.sem w ρ b _ l p hb g2)
        · rw [if_neg hdr] at g2 ⊢
          cases hbb : b.base with
          | none =>
            simp only [hbb] at g2 ⊢
            exact ih.sem w (hd.set hm.scope bufVal_ne) (hm.sem w ρ b _ l p hb g2)
          | some q =>
            simp only [hbb, Option.bind_eq_some_iff] at g2 ⊢
            obtain ⟨i, g3, g4⟩ := g2
            exact ⟨i, g3, ih.sem w (hd.set hm.scope bufVal_ne) (hm.sem w ρ b _ l p hb g4)⟩
    | transpose x src ds body =>
      have ho := h.out
      simp only [Stmt.OptOK] at h
      obtain ⟨h1, h2, h3, h5⟩ := h
      obtain ⟨T', M', hm, _⟩ := rsMutator_ok (cm := cm) hM h1 h2 h5
      simp only [rsS]
      generalize rsMutator cm x src body = m at hm ⊢
      have ih := IH (Function.update cm x true) m.2 T' M' hm.sub hm.opt
      refine ⟨⟨ih.out.buf, ih.out.clos, fun p y hy => ?_⟩, fun _ => by simp [Stmt.Solid], fun hw => ih.wf (hm.wf hw), by trivial, fun w ρ l p hd hp => ?_⟩
      · rcases hy with hy | hy | hy
        · rw [hy.1]; exact h2
        · exact (hm.scope y (ih.out.uses p y hy.2)).resolve_left hy.1
        · rw [hy.1]; exact h2
      · simp only [sem, Option.bind_eq_some_iff] at hp ⊢
        obtain ⟨b, g1, g2⟩ := hp
        refine ⟨b, g1, ?_⟩
        rw [if_pos (by simp [transposeOk, h3])]
        split at g2
        · exact ih.sem w (hd.set hm.scope bufVal_ne) (hm.sem w ρ b _ l p (buf?_some g1) g2)
        · cases g2

end Slinky
