import Verif.SemExec


/-!
# The evaluator does what the specification says: statements
-/

namespace Slinky

/-- What the evaluator does in the state `st`, if the meaning is the result `r` and the log `l'`. -/
def Out (st : St) (ρ : SEnv) (r : Int) (l' : List Ev) (y : Option (Int × St)) : Prop :=
  ∃ st', y = some (r, st') ∧ st'.objs = st.objs ∧ st.next ≤ st'.next ∧ st'.alog = l' ∧ ∀ x, ρ x ≠ .undef → st'.ctx x = st.ctx x

section
variable {w : World} {g : Env}

theorem Out.self {st : St} {ρ : SEnv} {r : Int} {e : Ev} : Out st ρ r (e.anon :: st.alog) (some (r, st.emit e)) :=
  ⟨_, rfl, rfl, le_refl _, rfl, fun _ _ => rfl⟩

/-- A body that is evaluated with a value for a symbol. -/
theorem Out.withValue {st : St} {ρ : SEnv} {x : Nat} {v : Int} {r : Int} {l' : List Ev} {k : St → Option (Int × St)}
    (h : Out (st.set x v) (ρ.set x (.int v)) r l' (k (st.set x v))) : Out st ρ r l' (withValue st x v k) := by
  obtain ⟨st', h1, h2, h3, h4, h5⟩ := h
  refine ⟨st'.set x (st.ctx x), by simp only [Slinky.withValue, h1], h2, h3, h4, ?_⟩
  intro y hy
  simp only [St.set, Env.set_get]
  split
  · rename_i e; rw [e]
  · rename_i e
    rw [h5 y (by rw [SEnv.set_get, if_neg e]; exact hy)]
    simp only [St.set, Env.set_get, if_neg e]

/-- A body that is evaluated with a new buffer object. -/
theorem Out.withObj {st : St} {ρ : SEnv} (hr : StRel st ρ) {x : Nat} {o : Obj} {b : Buf} {r : Int} {l' : List Ev} {k : St → Option (Int × St)}
    (h : Out (st.push x o) (ρ.set x (.buf b)) r l' (k (st.push x o))) : Out st ρ r l' (withObj st x o k) := by
  obtain ⟨st', h1, h2, h3, h4, h5⟩ := h
  refine ⟨st.pop x st', ?_, ?_, ?_, ?_, ?_⟩
  · have e : ({ (st.setObj st.next (some o)) with next := st.next + 1 } : St).set x st.next = st.push x o := rfl
    simp only [Slinky.withObj, Slinky.withValue, e, h1]
    rfl
  · funext a
    simp only [St.pop, St.setObj, St.set]
    split
    · rename_i e; rw [e, hr.fresh _ (le_refl _)]
    · rename_i e; rw [h2]; simp only [St.push, St.set, St.setObj, if_neg e]
  · have : st.next + 1 ≤ st'.next := h3
    show st.next ≤ st'.next
    omega
  · exact h4
  · intro y hy
    simp only [St.pop, St.setObj, St.set, Env.set_get]
    split
    · rename_i e; rw [e]
    · rename_i e
      rw [h5 y (by rw [SEnv.set_get, if_neg e]; exact hy)]
      simp only [St.push, St.set, St.setObj, Env.set_get, if_neg e]

/-- A body that is evaluated with a buffer object that is modified in place. -/
theorem Out.inPlace {st : St} {ρ : SEnv} {x : Nat} {o o1 : Obj} {b b1 : Buf} {r : Int} {l' : List Ev} {k : St → Option (Int × St)} {undo : Obj → Obj}
    (hx : ρ x = .buf b) (ho : st.objs (st.ctx x).toNat = some o) (hu : undo o1 = o)
    (h : Out (st.setObj (st.ctx x).toNat (some o1)) (ρ.set x (.buf b1)) r l' (k (st.setObj (st.ctx x).toNat (some o1)))) :
    Out st ρ r l' (do
      let (r, st2) ← k (st.setObj (st.ctx x).toNat (some o1))
      match st2.objs (st.ctx x).toNat with
      | none => none
      | some o' => some (r, st2.setObj (st.ctx x).toNat (some (undo o')))) := by
  obtain ⟨st', h1, h2, h3, h4, h5⟩ := h
  have e : st'.objs (st.ctx x).toNat = some o1 := by rw [h2]; simp [St.setObj]
  refine ⟨st'.setObj (st.ctx x).toNat (some o), ?_, ?_, h3, h4, ?_⟩
  · simp only [h1, Option.bind_eq_bind, Option.bind_some, e, hu]
  · funext a
    simp only [St.setObj]
    split
    · rename_i e; rw [e, ho]
    · rename_i e; rw [h2]; simp only [St.setObj, if_neg e]
  · intro y hy
    have : (ρ.set x (.buf b1)) y ≠ .undef := by
      rw [SEnv.set_get]; split
      · simp
      · exact hy
    exact h5 y this

theorem Out.inCtx {st : St} {ρ ρ1 : SEnv} {ctx : Env} {r : Int} {l' : List Ev} {k : St → Option (Int × St)}
    (h : Out { st with ctx := ctx } ρ1 r l' (k { st with ctx := ctx })) :
    ∃ st', inCtx st ctx k = some (r, st') ∧ st'.objs = st.objs ∧ st.next ≤ st'.next ∧ st'.alog = l' ∧ st'.ctx = st.ctx := by
  obtain ⟨st', h1, h2, h3, h4, h5⟩ := h
  exact ⟨{ st' with ctx := st.ctx }, by simp only [Slinky.inCtx, h1], h2, h3, h4, rfl⟩

/-! ## The contexts of tasks -/

theorem initEnvS_rel {st : St} {ρ : SEnv} (h : StRel st ρ) {excl : Option Nat} : ∀ {bs : Binds} {ρ1 : SEnv}, initEnvS ρ excl bs = some ρ1 →
    ∃ ctx, initContext g st.ctx excl bs = some ctx ∧ ERel st.objs ctx ρ1 ∧ ∀ x b, ρ1 x = .buf b → ctx x = st.ctx x ∧ ρ x = .buf b
  | .nil, ρ1, he => by
    simp only [initEnvS, Option.some.injEq] at he
    subst he
    exact ⟨g, rfl, fun _ => trivial, fun x b hx => by cases hx⟩
  | .cons x e bs, ρ1, he => by
    simp only [initEnvS, Option.bind_eq_bind, Option.bind_eq_some_iff] at he
    obtain ⟨ρ2, h1, h2⟩ := he
    obtain ⟨ctx, e1, e2, e3⟩ := initEnvS_rel h h1
    simp only [initContext, e1, Option.bind_eq_bind, Option.bind_some]
    split at h2
    · rename_i hx
      rw [if_pos hx]
      simp only [Option.some.injEq] at h2
      subst h2
      exact ⟨ctx, rfl, e2, e3⟩
    · rename_i hx
      rw [if_neg hx]
      split at h2
      · rename_i y d
        simp only
        split at h2
        · rename_i hm
          rw [if_pos hm]
          simp only [Option.some.injEq] at h2
          subst h2
          exact ⟨ctx, rfl, e2, e3⟩
        · rename_i hm
          rw [if_neg hm]
          refine ⟨ctx.set x (st.ctx y), rfl, ?_⟩
          split at h2
          · rename_i b hy
            split at h2
            · rename_i hxy
              simp only [Option.some.injEq] at h2
              subst h2
              subst hxy
              refine ⟨e2.set y (by have := h.vals y; rw [hy] at this; exact this), ?_⟩
              intro z c hz
              rw [SEnv.set_get] at hz
              rw [Env.set_get]
              split at hz
              · rename_i e; subst e; rw [if_pos rfl]; exact ⟨rfl, by rw [hy, hz]⟩
              · rename_i e; rw [if_neg e]; exact e3 z c hz
            · cases h2
          · rename_i hy
            simp only [Option.some.injEq] at h2
            subst h2
            refine ⟨e2.set x (h.vals y), ?_⟩
            intro z c hz
            rw [SEnv.set_get] at hz
            rw [Env.set_get]
            split at hz
            · exact absurd hz (hy c)
            · rename_i e; rw [if_neg e]; exact e3 z c hz
      · cases h2

theorem newEnvS_rel {st : St} {ρ : SEnv} (h : StRel st ρ) {excl : Option Nat} {body : Stmt} {ρ1 : SEnv} (he : newEnvS ρ excl body = some ρ1) :
    ∃ ctx, newContext g st.ctx excl body = some ctx ∧ StRel { st with ctx := ctx } ρ1 := by
  unfold newEnvS at he
  unfold newContext
  split at he
  · rename_i bs hb
    obtain ⟨ctx, h1, h2, h3⟩ := initEnvS_rel (g := g) h he
    refine ⟨ctx, by simpa [hb] using h1, h.fresh, h2, ?_⟩
    intro x y b c hx hy hxy
    simp only [(h3 x b hx).1, (h3 y c hy).1] at hxy
    exact h.inj x y b c (h3 x b hx).2 (h3 y c hy).2 hxy
  · rename_i hb
    simp only [Option.some.injEq] at he
    subst he
    exact ⟨st.ctx, by simp [hb], h⟩

/-- A task. -/
theorem inNewCtx_sem {s : Stmt} (ih : ∀ st ρ r l', StRel st ρ → sem w true s ρ st.alog = some (r, l') → Out st ρ r l' (run (cfgOf w g) true s st))
    {st : St} {ρ ρ1 : SEnv} (h : StRel st ρ) (he : newEnvS ρ none s = some ρ1) {r : Int} {l' : List Ev} (hs : sem w true s ρ1 st.alog = some (r, l')) :
    ∃ st', inNewCtx (cfgOf w g) st s (run (cfgOf w g) true s) = some (r, st') ∧ st'.objs = st.objs ∧ st.next ≤ st'.next ∧ st'.alog = l' ∧
      st'.ctx = st.ctx := by
  obtain ⟨ctx, h1, h2⟩ := newEnvS_rel (g := g) h he
  have := ih _ _ _ _ h2 hs
  have e : newContext (cfgOf w g).garbage st.ctx none s = some ctx := h1
  simp only [inNewCtx, e]
  exact Out.inCtx (ρ := ρ) this

/-! ## Loops -/

theorem serial_sem {body : Stmt} {x : Nat} {mn mx step : Int} {ρ : SEnv}
    (ih : ∀ st ρ r l', StRel st ρ → sem w false body ρ st.alog = some (r, l') → Out st ρ r l' (run (cfgOf w g) false body st)) :
    ∀ (fuel : Nat) (i : Int) (st : St) (r : Int) (l' : List Ev), (∀ v, StRel (st.set x v) (ρ.set x (.int v))) →
    serialS (fun i l => sem w false body (ρ.set x (.int i)) l) mn mx step fuel i st.alog = some (r, l') →
    ∃ st', serialLoop (fun i st => run (cfgOf w g) false body (st.set x i)) mn mx step fuel i st = some (r, st') ∧ st'.objs = st.objs ∧
      st.next ≤ st'.next ∧ st'.alog = l' ∧ ∀ y, y ≠ x → ρ y ≠ .undef → st'.ctx y = st.ctx y
  | 0, _, _, _, _, _, h => by simp [serialS] at h
  | fuel + 1, i, st, r, l', hR, h => by
    unfold serialS at h
    unfold serialLoop
    split at h
    · rename_i hi
      rw [if_pos hi]
      split at h
      · cases h
      · rename_i r1 l1 h1
        obtain ⟨st1, e1, e2, e3, e4, e5⟩ := ih _ _ _ _ (hR i) h1
        have e5' : ∀ y, y ≠ x → ρ y ≠ .undef → st1.ctx y = st.ctx y := by
          intro y hy hu
          rw [e5 y (by rw [SEnv.set_get, if_neg hy]; exact hu)]
          simp only [St.set, Env.set_get, if_neg hy]
        simp only [e1]
        split at h
        · rename_i hr
          simp only [Option.some.injEq, Prod.mk.injEq] at h
          rw [if_pos hr]
          exact ⟨st1, by rw [h.1], e2, e3, by rw [e4, h.2], e5'⟩
        · rename_i hr
          rw [if_neg hr]
          split at h
          · cases h
          · rename_i j hj
            simp only [hj]
            rw [← e4] at h
            have hR1 : ∀ v, StRel (st1.set x v) (ρ.set x (.int v)) := by
              intro v
              refine (hR v).congr e2 e3 ?_
              intro y hy
              simp only [St.set, Env.set_get]
              split
              · rfl
              · rename_i e
                exact e5' y e (by rw [SEnv.set_get, if_neg e] at hy; exact hy)
            obtain ⟨st', f1, f2, f3, f4, f5⟩ := serial_sem ih fuel j st1 r l' hR1 h
            exact ⟨st', f1, by rw [f2, e2]; rfl, le_trans e3 f3, f4, fun y hy hu => by rw [f5 y hy hu, e5' y hy hu]⟩
    · rename_i hi
      rw [if_neg hi]
      simp only [Option.some.injEq, Prod.mk.injEq] at h
      exact ⟨st, by rw [h.1], rfl, le_refl _, h.2, fun _ _ _ => rfl⟩

theorem par_sem {body : Stmt} {x : Nat} {mn step : Int} {ρ : SEnv}
    (ih : ∀ st ρ r l', StRel st ρ → sem w true body ρ st.alog = some (r, l') → Out st ρ r l' (run (cfgOf w g) true body st)) :
    ∀ (sch : List (Nat × Nat)) (ctxs : Nat → Env) (res : Int) (st : St) (r : Int) (l' : List Ev),
    (∀ k v, StRel { st with ctx := (ctxs k).set x v } (ρ.set x (.int v))) →
    parS (fun v l => sem w true body (ρ.set x (.int v)) l) mn step sch res st.alog = some (r, l') →
    ∃ st', parLoop (run (cfgOf w g) true body) x mn step sch ctxs res st = some (r, st') ∧ st'.objs = st.objs ∧
      st.next ≤ st'.next ∧ st'.alog = l' ∧ st'.ctx = st.ctx
  | [], ctxs, res, st, r, l', hR, h => by
    simp only [parS, Option.some.injEq, Prod.mk.injEq] at h
    exact ⟨st, by simp only [parLoop, h.1], rfl, le_refl _, h.2, rfl⟩
  | (i, k) :: sch, ctxs, res, st, r, l', hR, h => by
    unfold parS at h
    unfold parLoop
    split at h
    · cases h
    · rename_i r1 l1 h1
      obtain ⟨st1, e1, e2, e3, e4, e5⟩ := ih _ _ _ _ (hR k _) h1
      simp only [e1]
      rw [← e4] at h
      have hR1 : ∀ j v, StRel { ({ st1 with ctx := st.ctx } : St) with ctx := ((fun v => if v = k then st1.ctx else ctxs v) j).set x v } (ρ.set x (.int v)) := by
        intro j v
        refine (hR j v).congr e2 e3 ?_
        intro y hy
        simp only [Env.set_get]
        split
        · rfl
        · rename_i e
          split
          · rename_i ek
            rw [e5 y (by rw [SEnv.set_get, if_neg e] at hy ⊢; exact hy)]
            simp only [Env.set_get, if_neg e, ek]
          · rfl
      obtain ⟨st', f1, f2, f3, f4, f5⟩ := par_sem ih sch _ _ { st1 with ctx := st.ctx } r l' hR1 h
      exact ⟨st', f1, by rw [f2, e2], le_trans e3 f3, f4, f5⟩

/-! ## Lets -/

theorem evalBindsS_other {l : List Ev} : ∀ {bs : Binds} {ρ ρ' : SEnv}, evalBindsS w l ρ bs = some ρ' → ∀ y ∉ bs.syms, ρ' y = ρ y
  | .nil, ρ, ρ', h => by simp only [evalBindsS, Option.some.injEq] at h; subst h; intros; rfl
  | .cons x e bs, ρ, ρ', h => by
    simp only [evalBindsS, Option.bind_eq_some_iff] at h
    obtain ⟨v, h1, h2⟩ := h
    split at h2
    · intro y hy
      simp only [Binds.syms, List.mem_cons, not_or] at hy
      rw [evalBindsS_other h2 y hy.2, SEnv.set_get, if_neg hy.1]
    · cases h2

theorem lets_sem {bs : Binds} (hw : bs.WF) (hn : bs.syms.Nodup) {k : St → Option (Int × St)} {st : St} {ρ ρ1 : SEnv} (h : StRel st ρ)
    (hb : evalBindsS w st.alog ρ bs = some ρ1) {r : Int} {l' : List Ev}
    (ih : ∀ ctx, StRel { st with ctx := ctx } ρ1 → Out { st with ctx := ctx } ρ1 r l' (k { st with ctx := ctx })) :
    Out st ρ r l' (do
      let (olds, st1) ← (cfgOf w g).evalBinds st bs
      let (r, st2) ← k st1
      some (r, st2.restore olds)) := by
  obtain ⟨olds, ctx, e1, e2⟩ := StRel.evalBinds (g := g) h hw hb
  obtain ⟨_, f1, f2, f3⟩ := Cfg.evalBinds_state hw hn e1
  obtain ⟨st', g1, g2, g3, g4, g5⟩ := ih ctx e2
  refine ⟨st'.restore olds, by simp only [e1, g1, Option.bind_eq_bind, Option.bind_some], g2, g3, g4, ?_⟩
  intro y hy
  simp only [St.restore]
  by_cases hm : y ∈ olds.map Prod.fst
  · obtain ⟨p, hp, rfl⟩ := List.mem_map.mp hm
    rw [foldl_set_mem _ _ _ (by rw [f1]; exact hn) hp, f2 p hp]
  · rw [foldl_set_other _ _ _ hm]
    rw [f1] at hm
    rw [g5 y (by rw [evalBindsS_other hb y hm]; exact hy)]
    exact f3 y hm

/-! ## Allocations -/

theorem trimRank_le : ∀ ds : List Dim, trimRank ds ≤ ds.length
  | [] => le_refl _
  | d :: ds => by
    have := trimRank_le ds
    unfold trimRank
    split
    · split <;> simp
    · rename_i n h
      rw [h] at this
      simp; omega

theorem initKnown_length (elem : Int) : ∀ (ds : List Dim) (st : IS), (initKnown elem ds st).1.length = ds.length
  | [], st => rfl
  | d :: ds, st => by
    unfold initKnown
    split
    · simp [initKnown_length elem ds]
    · split
      · simp [initKnown_length elem ds]
      · split <;> simp [initKnown_length elem ds]

theorem initUnknown_length (elem al : Int) : ∀ (ds : List Dim) (st : IS), (initUnknown elem al ds st).1.length = ds.length
  | [], st => rfl
  | d :: ds, st => by
    unfold initUnknown
    split
    · simp [initUnknown_length elem al ds]
    · simp [initUnknown_length elem al ds]

theorem initStridesImpl_length {elem al : Int} {ds ds' : List Dim} {size : Int} (h : initStridesImpl elem al ds = some (ds', size)) : ds'.length = ds.length := by
  simp only [initStridesImpl] at h
  split at h
  · cases h
  · simp only [Option.some.injEq, Prod.mk.injEq] at h
    rw [← h.1, initUnknown_length, initKnown_length]

theorem initStrides_length {elem al : Int} {ds ds' : List Dim} {size : Int} (h : initStrides elem al ds = some (ds', size)) : ds'.length = ds.length := by
  unfold initStrides at h
  split at h
  · split at h
    · cases h
    · simp only [Option.some.injEq, Prod.mk.injEq] at h; rw [← h.1]
  · rename_i d
    by_cases c : d.fold = Dim.unfolded ∧ d.stride ≥ 0
    · rw [if_pos c] at h
      generalize (if d.stride = Dim.autoStride then elem else d.stride) = q at h
      simp only at h
      split at h
      · cases h
      · simp only [Option.some.injEq, Prod.mk.injEq] at h; rw [← h.1]; rfl
    · rw [if_neg c] at h
      exact initStridesImpl_length h
  · exact initStridesImpl_length h

theorem Obj.setBuf_buf {o : Obj} {b : Buf} (h : b.dims.length = o.rank) : (o.setBuf b).buf = b := by
  simp only [Obj.setBuf, Obj.buf]
  rw [List.take_append_of_le_length (by omega), List.take_of_length_le (by omega)]

theorem allocMem_none {x : Nat} {sto : Storage} {o : Obj} {st : St} {b : Buf} (h1 : o.buf = b) (h : allocS w sto b st.alog = none) :
    (cfgOf w g).allocMem x sto o st = none := by
  have he : o.elem = b.elem := by rw [← h1]; rfl
  unfold allocS at h
  unfold Cfg.allocMem
  split at h
  · cases h
  · rename_i hs
    split at h
    · rename_i hi
      simp only [h1, he, cfgOf, hi]
    · split at h <;> cases h

theorem allocMem_sem {x : Nat} {sto : Storage} {o : Obj} {st : St} {b b' : Buf} {hd : Int} {l1 : List Ev} (h1 : o.buf = b) (h2 : o.rank = b.dims.length)
    (h : allocS w sto b st.alog = some (b', hd, l1)) :
    ∃ o' st1, (cfgOf w g).allocMem x sto o st = some (o', st1) ∧ o'.buf = b' ∧ o'.rank = b'.dims.length ∧ o'.alloc = some hd ∧
      st1.objs = st.objs ∧ st1.next = st.next ∧ st1.ctx = st.ctx ∧ st1.alog = l1 := by
  have he : o.elem = b.elem := by rw [← h1]; rfl
  have key : ∀ (o : Obj) (b : Buf), o.buf = b → o.rank = b.dims.length →
      ∃ o' st1, some ({ ((cfgOf w g).allocate x o st).1 with alloc := some ((cfgOf w g).allocate x o st).2 }, st.emit (.alloc x ((cfgOf w g).allocate x o st).2)) = some (o', st1) ∧
        o'.buf = (w.allocate b st.alog).1 ∧ o'.rank = (w.allocate b st.alog).1.dims.length ∧ o'.alloc = some (w.allocate b st.alog).2 ∧
        st1.objs = st.objs ∧ st1.next = st.next ∧ st1.ctx = st.ctx ∧ st1.alog = .alloc 0 (w.allocate b st.alog).2 :: st.alog := by
    intro o b h1 h2
    refine ⟨_, _, rfl, ?_, ?_, ?_, rfl, rfl, rfl, ?_⟩
    · have := Obj.setBuf_buf (o := o) (b := (w.allocate b st.alog).1) (by rw [w.allocate_rank, h2])
      simp only [cfgOf, h1]
      exact this
    · rw [w.allocate_rank, ← h2]; rfl
    · simp only [cfgOf, h1]
    · simp only [cfgOf, h1]; rfl
  unfold allocS at h
  unfold Cfg.allocMem
  split at h
  · simp only [Option.some.injEq, Prod.mk.injEq] at h
    obtain ⟨rfl, rfl, rfl⟩ := h
    exact key o b h1 h2
  · rename_i hs
    split at h
    · cases h
    · rename_i ds size hi
      have hlen := initStrides_length hi
      have hi' : initStrides o.elem (cfgOf w g).strideAlign o.buf.dims = some (ds, size) := by rw [h1, he]; exact hi
      simp only [hi']
      split at h
      · rename_i hst
        simp only [Option.some.injEq, Prod.mk.injEq] at h
        obtain ⟨rfl, rfl, rfl⟩ := h
        have hst' : sto = .stack ∨ size ≤ (cfgOf w g).autoStack := hst
        rw [if_pos hst']
        refine ⟨_, _, rfl, ?_, ?_, rfl, rfl, rfl, rfl, rfl⟩
        · simp only [Obj.buf]
          rw [List.take_append_of_le_length (by omega), List.take_of_length_le (by omega), he]
          rfl
        · exact h2.trans hlen.symm
      · rename_i hst
        simp only [Option.some.injEq, Prod.mk.injEq] at h
        obtain ⟨rfl, rfl, rfl⟩ := h
        have hst' : ¬ (sto = .stack ∨ size ≤ (cfgOf w g).autoStack) := hst
        rw [if_neg hst']
        refine key { o with store := ds ++ o.store.drop o.rank } { b with dims := ds } ?_ ?_
        · simp only [Obj.buf]
          rw [List.take_append_of_le_length (by omega), List.take_of_length_le (by omega), ← h1]
          rfl
        · exact h2.trans hlen.symm

theorem mapM_map {α β : Type} {f : α → Option β} {h : α → β} : ∀ {l : List α} {r : List β}, l.mapM f = some r → (∀ a ∈ l, ∀ b, f a = some b → h a = b) → l.map h = r
  | [], r, hm, _ => by simp at hm; rw [hm]; rfl
  | a :: l, r, hm, hh => by
    simp only [List.mapM_cons, Option.bind_eq_bind, Option.bind_eq_some_iff, Option.pure_def, Option.some.injEq] at hm
    obtain ⟨b, h1, r1, h2, rfl⟩ := hm
    rw [List.map_cons, hh a (by simp) b h1, mapM_map h2 (fun a ha => hh a (by simp [ha]))]

theorem buf?_some {ρ : SEnv} {x : Nat} {b : Buf} (h : ρ.buf? x = some b) : ρ x = .buf b := by
  simp only [SEnv.buf?] at h
  cases hv : ρ x <;> rw [hv] at h <;> simp [Val.buf?] at h
  rw [h]

theorem StRel.buf? {st : St} {ρ : SEnv} (hr : StRel st ρ) {x : Nat} {b : Buf} (h : ρ.buf? x = some b) :
    ∃ o, st.obj? (st.ctx x) = some o ∧ o.buf = b ∧ o.rank = b.dims.length ∧ st.objs (st.ctx x).toNat = some o := by
  have := hr.vals x
  rw [buf?_some h] at this
  exact IsPtr.obj? this

theorem map_range_dim {b : Buf} {n : Nat} (h : n ≤ b.rank) : (List.range n).map b.dim = b.dims.take n := by
  have h : n ≤ b.dims.length := h
  apply List.ext_getElem
  · simp; omega
  · intro i h1 h2
    simp only [List.length_map, List.length_range] at h1
    simp [Buf.dim, List.getElem?_eq_getElem (by omega : i < b.dims.length)]

/-! ## Statements -/

theorem ofBuf_ok (b : Buf) : (Obj.ofBuf b).buf = b ∧ (Obj.ofBuf b).rank = b.dims.length := by simp [Obj.ofBuf, Obj.buf]

/-- The result of an `allocate`, without the name of the symbol. -/
theorem freeS_release (st : St) (x : Nat) (h : Int) :
    (if h ≠ 0 then st.emit (.free x h) else st).alog = freeS h st.alog := by
  unfold freeS
  split <;> rfl

mutual
/-- The evaluator computes the meaning of a statement. -/
theorem run_sem : ∀ (s : Stmt), s.WF → ∀ (skip : Bool) (st : St) (ρ : SEnv) (r : Int) (l' : List Ev), StRel st ρ →
    sem w skip s ρ st.alog = some (r, l') → Out st ρ r l' (run (cfgOf w g) skip s st)
  | .undef, _, _, st, ρ, r, l', _, h => by simp [sem] at h
  | .copy .., _, _, st, ρ, r, l', _, h => by simp [sem] at h
  | .call t i o sc, hw, _, st, ρ, r, l', hR, h => by
    simp only [Stmt.WF] at hw
    simp only [sem, Option.bind_eq_bind, Option.bind_eq_some_iff, Option.some.injEq, Prod.mk.injEq] at h
    obtain ⟨is, h1, os, h2, xs, h3, rfl, rfl⟩ := h
    have kb : ∀ a b, ρ.buf? a = some b → st.bufOf a = b := by
      intro a b hb
      obtain ⟨o, e1, e2, _⟩ := hR.buf? hb
      simp only [St.bufOf, e1, Option.map_some, Option.getD_some, e2]
    have e : (cfgOf w g).call t i o sc st = w.call t is os xs st.alog := by
      have f1 := mapM_map h1 (fun a _ => kb a)
      have f2 := mapM_map h2 (fun a _ => kb a)
      have f3 : sc.map (fun e => ((evalM (w.mem st) st.ctx e).map Prod.fst).getD 0) = xs := by
        refine mapM_map h3 ?_
        intro e he v hv
        have := hR.evalI (g := g) (hw e he) hv
        simp only [Cfg.eval, cfgOf_mem] at this
        split at this
        · rename_i v' ctx h4
          simp only [Option.some.injEq, Prod.mk.injEq] at this
          simp only [h4, Option.map_some, Option.getD_some]
          exact this.1
        · cases this
      simp only [cfgOf, f1, f2, f3]
    simp only [run, e]
    exact Out.self
  | .lets bs body c, hw, skip, st, ρ, r, l', hR, h => by
    simp only [Stmt.WF] at hw
    simp only [sem] at h
    simp only [run]
    split at h
    · rename_i hc
      rw [if_pos hc]
      exact run_sem body hw.2.2 false st ρ r l' hR h
    · rename_i hc
      rw [if_neg hc]
      simp only [Option.bind_eq_some_iff] at h
      obtain ⟨ρ1, h1, h2⟩ := h
      exact lets_sem (g := g) hw.2.1 hw.1 hR h1 (fun ctx hc => run_sem body hw.2.2 false _ ρ1 r l' hc h2)
  | .block ss, hw, _, st, ρ, r, l', hR, h => by
    simp only [sem] at h
    simp only [run]
    exact runAll_sem ss hw st ρ r l' hR h
  | .loop x n b s body, hw, _, st, ρ, r, l', hR, h => by
    simp only [Stmt.WF] at hw
    simp only [sem, Option.bind_eq_bind, Option.bind_eq_some_iff] at h
    obtain ⟨n', h1, b', h2, s', h3, h⟩ := h
    simp only [run, hR.evalI (g := g) hw.1 h1, hR.evalIv (g := g) hw.2.1 h2, hR.evalDef (g := g) hw.2.2.1 h3, Option.bind_eq_bind, Option.bind_some]
    have ih := run_sem body hw.2.2.2
    split at h
    · cases h
    · rename_i hs
      rw [if_neg hs]
      split at h
      · rename_i hn
        rw [if_pos hn]
        simp only [Option.bind_eq_some_iff] at h
        obtain ⟨k, h4, h⟩ := h
        simp only [h4, Option.bind_some]
        split at h
        · rename_i hk
          rw [if_pos hk]
          simp only [Option.some.injEq, Prod.mk.injEq] at h
          exact ⟨st, by rw [h.1], rfl, le_refl _, h.2, fun _ _ => rfl⟩
        · rename_i hk
          rw [if_neg hk]
          split at h
          · rename_i hk1
            rw [if_pos hk1]
            exact Out.withValue (ih false _ _ _ _ (hR.set x _) h)
          · rename_i hk1
            rw [if_neg hk1]
            split at h
            · rename_i hp
              have hp' : (cfgOf w g).pool = true := hp
              rw [if_pos hp']
              simp only [Option.bind_eq_some_iff] at h
              obtain ⟨init, h5, h6⟩ := h
              obtain ⟨ctx, e1, e2⟩ := newEnvS_rel (g := g) hR h5
              have e1' : newContext (cfgOf w g).garbage st.ctx (some x) body = some ctx := e1
              simp only [e1']
              obtain ⟨st', f1, f2, f3, f4, f5⟩ := par_sem (fun st ρ r l' => ih true st ρ r l') (w.sched st.alog k) (fun _ => ctx) 0 st r l'
                (fun _ v => e2.set x v) h6
              exact ⟨st', f1, f2, f3, f4, fun y _ => by rw [f5]⟩
            · cases h
      · rename_i hn
        rw [if_neg hn]
        have hset : ∀ v, StRel ((st.set x 0).set x v) (ρ.set x (.int v)) := by
          intro v
          have : (st.set x 0).set x v = st.set x v := by simp only [St.set, Env.set_set]
          rw [this]
          exact hR.set x v
        obtain ⟨st', f1, f2, f3, f4, f5⟩ := serial_sem (fun st ρ r l' => ih false st ρ r l') (serialFuel b'.1 b'.2) b'.1 (st.set x 0) r l' hset h
        simp only [f1]
        refine ⟨st'.set x (st.ctx x), rfl, f2, f3, f4, ?_⟩
        intro y hy
        simp only [St.set, Env.set_get]
        split
        · rename_i e; rw [e]
        · rename_i e
          rw [f5 y e hy]
          simp only [St.set, Env.set_get, if_neg e]
  | .allocate x sto elem dims body, hw, _, st, ρ, r, l', hR, h => by
    simp only [Stmt.WF] at hw
    simp only [sem, Option.bind_eq_bind, Option.bind_eq_some_iff] at h
    obtain ⟨e', h1, ds, h2, h⟩ := h
    simp only [run, hR.evalI (g := g) hw.1 h1, hR.evalDims (g := g) hw.2.1 h2, Option.bind_eq_bind, Option.bind_some]
    have hb : (⟨none, e', ds, trimRank ds, some 0⟩ : Obj).buf = ⟨none, e', ds.take (trimRank ds)⟩ := rfl
    have hr : (⟨none, e', ds, trimRank ds, some 0⟩ : Obj).rank = (⟨none, e', ds.take (trimRank ds)⟩ : Buf).dims.length := by
      simp [trimRank_le ds]
    split at h
    · rename_i ha
      simp only [Option.some.injEq, Prod.mk.injEq] at h
      simp only [allocMem_none (g := g) (x := x) hb ha]
      rw [← h.1, ← h.2]
      exact Out.self (e := .failed x)
    · rename_i b hd l1 ha
      obtain ⟨o, st1, e1, e2, e3, e4, e5, e6, e7, e8⟩ := allocMem_sem (g := g) (x := x) hb hr ha
      simp only [e1]
      have hbase : o.base = b.base := by rw [← e2]; rfl
      rw [hbase, e2, e4]
      split at h
      · rename_i hn
        rw [if_pos hn]
        simp only [Option.some.injEq, Prod.mk.injEq] at h
        rw [← h.1, ← h.2]
        have : (if hd ≠ 0 then some ((-1 : Int), (st1.emit (.failed x)).emit (.free x hd)) else some (-1, st1.emit (.failed x))) =
            some (-1, if hd ≠ 0 then (st1.emit (.failed x)).emit (.free x hd) else st1.emit (.failed x)) := by split <;> rfl
        simp only [this]
        refine ⟨_, rfl, ?_, ?_, ?_, ?_⟩
        · split <;> exact e5
        · split <;> (simp only [St.emit, e6]; exact le_refl _)
        · rw [freeS_release]; congr 1; rw [← e8]; rfl
        · intro y _; split <;> (simp only [St.emit, e7])
      · rename_i hn
        rw [if_neg hn]
        simp only [Option.map_eq_some_iff, Prod.exists, Prod.mk.injEq] at h
        obtain ⟨r1, l2, h3, rfl, rfl⟩ := h
        have hR1 : StRel st1 ρ := hR.congr e5 (by omega) (fun y _ => by rw [e7])
        have := run_sem body hw.2.2 false (st1.push x o) _ r1 l2 (hR1.push x e2 e3) (by rw [← e8] at h3; exact h3)
        obtain ⟨st', f1, f2, f3, f4, f5⟩ := this
        have eq : ({ (st1.setObj st1.next (some o)) with next := st1.next + 1 } : St).set x st1.next = st1.push x o := rfl
        have ho : st'.objs st1.next = some o := by rw [f2]; simp [St.push, St.set, St.setObj]
        have eq2 : (withValue { (st1.setObj st1.next (some o)) with next := st1.next + 1 } x st1.next (run (cfgOf w g) false body)) =
            some (r1, st'.set x (st1.ctx x)) := by
          simp only [Slinky.withValue, eq, f1]
          rfl
        have ho2 : (st'.set x (st1.ctx x)).objs st1.next = some o := ho
        simp only [eq2, ho2, e4]
        have eq3 : (match some hd with
            | some h => if h ≠ 0 then (st'.set x (st1.ctx x)).emit (.free x h) else st'.set x (st1.ctx x)
            | none => st'.set x (st1.ctx x)) = if hd ≠ 0 then (st'.set x (st1.ctx x)).emit (.free x hd) else st'.set x (st1.ctx x) := rfl
        refine ⟨_, rfl, ?_, ?_, ?_, ?_⟩
        · funext a
          simp only [St.setObj]
          split
          · rename_i e
            rw [e, e6, hR.fresh _ (le_refl _)]
          · rename_i e
            have : (if hd ≠ 0 then (st'.set x (st1.ctx x)).emit (.free x hd) else st'.set x (st1.ctx x)).objs a = st'.objs a := by split <;> rfl
            rw [this, f2]
            simp only [St.push, St.set, St.setObj, if_neg e, e5]
        · have e9 : (if hd ≠ 0 then (st'.set x (st1.ctx x)).emit (.free x hd) else st'.set x (st1.ctx x)).next = st'.next := by split <;> rfl
          have f3' : st1.next + 1 ≤ st'.next := f3
          simp only [St.setObj, e9]
          omega
        · have : ∀ s : St, (s.setObj st1.next none).alog = s.alog := fun _ => rfl
          rw [this, freeS_release, ← f4]
          rfl
        · intro y hy
          have e9 : (if hd ≠ 0 then (st'.set x (st1.ctx x)).emit (.free x hd) else st'.set x (st1.ctx x)).ctx = (st'.set x (st1.ctx x)).ctx := by split <;> rfl
          simp only [St.setObj, e9]
          simp only [St.set, Env.set_get]
          split
          · rename_i e; rw [e, e7]
          · rename_i e
            rw [f5 y (by rw [SEnv.set_get, if_neg e]; exact hy)]
            simp only [St.push, St.set, St.setObj, Env.set_get, if_neg e, e7]
  | .makeBuffer x p e ds body, hw, _, st, ρ, r, l', hR, h => by
    simp only [Stmt.WF] at hw
    simp only [sem, Option.bind_eq_bind, Option.bind_eq_some_iff] at h
    obtain ⟨e', h1, p', h2, ds', h3, h⟩ := h
    simp only [run, hR.evalDef (g := g) hw.1 h2, hR.evalDef (g := g) hw.2.1 h1, hR.evalDims (g := g) hw.2.2.1 h3, Option.bind_eq_bind, Option.bind_some]
    by_cases hv : (⟨if p' = 0 then none else some p', e', ds'.take (trimRank ds')⟩ : Buf).validate = true
    · rw [if_pos hv] at h ⊢
      refine Out.withObj hR (run_sem body hw.2.2.2 false _ _ r l' (hR.push x rfl ?_) h)
      simp [Obj.buf, trimRank_le ds']
    · rw [if_neg hv] at h ⊢
      simp only [Option.some.injEq, Prod.mk.injEq] at h
      rw [← h.1, ← h.2]
      exact Out.self (e := .failed x)
  | .constantBuffer x b body, hw, _, st, ρ, r, l', hR, h => by
    simp only [sem] at h
    simp only [run]
    exact Out.withObj hR (run_sem body hw false _ _ r l' (hR.push x (ofBuf_ok b).1 (ofBuf_ok b).2) h)
  | .cloneBuffer x src body, hw, _, st, ρ, r, l', hR, h => by
    simp only [sem, Option.bind_eq_some_iff] at h
    obtain ⟨b, h1, h⟩ := h
    obtain ⟨o, e1, e2, _⟩ := hR.buf? h1
    simp only [run, e1, e2]
    exact Out.withObj hR (run_sem body hw false _ _ r l' (hR.push x (ofBuf_ok b).1 (ofBuf_ok b).2) h)
  | .cropBuffer x src bs body, hw, _, st, ρ, r, l', hR, h => by
    simp only [Stmt.WF] at hw
    simp only [sem, Option.bind_eq_some_iff] at h
    obtain ⟨b, h1, b', h2, h⟩ := h
    obtain ⟨o, e1, e2, e3, e4⟩ := hR.buf? h1
    split at h
    · rename_i hseq
      simp only [run]
      split
      · rename_i hx
        subst hx
        have hx := buf?_some h1
        have s1 : ρ.set x (.buf b) = ρ := by
          funext y; rw [SEnv.set_get]; split
          · rename_i e; rw [e, hx]
          · rfl
        obtain ⟨o1, f1, f2, f3⟩ := StRel.cropAll (g := g) (ρ0 := ρ) (x := x) (by rw [s1]; exact hR) hw.1 e4 e2 e3 (hseq rfl)
        obtain ⟨o2, g1, g2, g3, g4, g5⟩ := Cfg.cropAll_state hw.1 e4 f1 (CB.refl _ o.store)
        have : o2 = o1 := by
          have := congrArg (fun s => s.objs (st.ctx x).toNat) g1
          simpa [St.setObj] using this.symm
        subst this
        have hrev := reverts_cropAll (n := bs.length) g3 g4 (by simpa using g5) o2 rfl
        have hundo : ({ o2 with base := o.base, store := restoreBounds o2.store ((o.buf.dims.take bs.length).map fun d => (d.min, d.max)) } : Obj) = o := by
          have h5 := hrev.1
          simp only [Obj.noAlloc, Obj.mk.injEq] at h5
          obtain ⟨a1, a2, a3, a4, _⟩ := h5
          cases o
          simp_all
        simp only [e1, f1, Option.bind_eq_bind, Option.bind_some]
        exact Out.inPlace (b1 := b') (undo := fun o' => { o' with base := o.base, store := restoreBounds o'.store ((o.buf.dims.take bs.length).map fun d => (d.min, d.max)) })
          hx e4 hundo (run_sem body hw.2 false _ _ r l' (hR.inPlace hx f2 f3) h)
      · simp only [e1, e2, hR.cropCopy (g := g) hw.1 h2, Option.bind_eq_bind, Option.bind_some]
        exact Out.withObj hR (run_sem body hw.2 false _ _ r l' (hR.push x (ofBuf_ok b').1 (ofBuf_ok b').2) h)
    · cases h
  | .cropDim x src d b body, hw, _, st, ρ, r, l', hR, h => by
    simp only [Stmt.WF] at hw
    simp only [sem, Option.bind_eq_some_iff] at h
    obtain ⟨c, h1, v, h2, h⟩ := h
    obtain ⟨o, e1, e2, e3, e4⟩ := hR.buf? h1
    simp only [run]
    split
    · rename_i hx
      subst hx
      have hx := buf?_some h1
      simp only [e1]
      have hrk : o.rank = c.rank := e3
      split
      · rename_i hd
        have hcrop : c.crop d v.1 v.2 = c := by unfold Buf.crop; rw [if_pos (by omega)]
        have s1 : ρ.set x (.buf c) = ρ := by
          funext y; rw [SEnv.set_get]; split
          · rename_i e; rw [e, hx]
          · rfl
        rw [hcrop, s1] at h
        exact run_sem body hw.2 false st ρ r l' hR h
      · rename_i hd
        rw [e2]
        simp only [hR.evalIvDef (g := g) hw.1 h2, Option.bind_eq_bind, Option.bind_some]
        have hlen : (c.crop d v.1 v.2).dims.length = o.rank := by
          rw [e3]
          unfold Buf.crop
          split <;> simp
        have hrev := reverts_crop (o := o) (d := d) v.1 v.2 (by omega) (o.setBuf (o.buf.crop d v.1 v.2)) rfl
        rw [e2] at hrev
        have hundo : ({ (o.setBuf (c.crop d v.1 v.2)) with base := o.base, store := (o.setBuf (c.crop d v.1 v.2)).store.modify d fun d' => { d' with min := (c.dim d).min, max := (c.dim d).max } } : Obj) = o := by
          have h5 := hrev.1
          simp only [Obj.noAlloc, Obj.mk.injEq] at h5
          obtain ⟨a1, a2, a3, a4, _⟩ := h5
          have a5 : (o.setBuf (c.crop d v.1 v.2)).alloc = o.alloc := rfl
          have : ∀ p q : Obj, p.base = q.base → p.elem = q.elem → p.store = q.store → p.rank = q.rank → p.alloc = q.alloc → p = q := by
            intro p q _ _ _ _ _; cases p; cases q; simp_all
          exact this _ _ rfl a2 a3 a4 a5
        exact Out.inPlace (b1 := c.crop d v.1 v.2) (undo := fun o' => { o' with base := o.base, store := o'.store.modify d fun d' => { d' with min := (c.dim d).min, max := (c.dim d).max } })
          hx e4 hundo (run_sem body hw.2 false _ _ r l' (hR.inPlace hx (Obj.setBuf_buf hlen) (by rw [hlen]; rfl)) h)
    · simp only [e1, e2, hR.evalIvDef (g := g) hw.1 h2, Option.bind_eq_bind, Option.bind_some]
      exact Out.withObj hR (run_sem body hw.2 false _ _ r l' (hR.push x (ofBuf_ok _).1 (ofBuf_ok _).2) h)
  | .sliceBuffer x src es body, hw, _, st, ρ, r, l', hR, h => by
    simp only [Stmt.WF] at hw
    simp only [sem, Option.bind_eq_some_iff] at h
    obtain ⟨b, h1, p, h2, h⟩ := h
    obtain ⟨o, e1, e2, _⟩ := hR.buf? h1
    have hb : o.base = b.base := by rw [← e2]; rfl
    have he : o.elem = b.elem := by rw [← e2]; rfl
    simp only [run, e1, e2, hb, he, hR.sliceAll (g := g) hw.1 h2, Option.bind_eq_bind, Option.bind_some]
    exact Out.withObj hR (run_sem body hw.2 false _ _ r l' (hR.push x (by simp [Obj.buf]) rfl) h)
  | .sliceDim x src d e body, hw, _, st, ρ, r, l', hR, h => by
    simp only [Stmt.WF] at hw
    simp only [sem, Option.bind_eq_some_iff] at h
    obtain ⟨b, h1, h⟩ := h
    obtain ⟨o, e1, e2, e3, _⟩ := hR.buf? h1
    have hb : o.base = b.base := by rw [← e2]; rfl
    have hrk : o.rank = b.rank := e3
    have key : ∀ c, sem w false body (ρ.set x (.buf c)) st.alog = some (r, l') → Out st ρ r l' (withObj st x (Obj.ofBuf c) (run (cfgOf w g) false body)) :=
      fun c h => Out.withObj hR (run_sem body hw.2 false _ _ r l' (hR.push x (ofBuf_ok c).1 (ofBuf_ok c).2) h)
    simp only [run, e1, e2, hb, hrk]
    split at h
    · rename_i hd; rw [if_pos hd]; exact key _ h
    · rename_i hd
      rw [if_neg hd]
      split at h
      · rename_i hn; simp only [hn]; exact key _ h
      · rename_i hn
        simp only [Option.bind_eq_some_iff] at h
        obtain ⟨i, h2, h⟩ := h
        simp only [hn, hR.evalI (g := g) hw.1 h2, Option.bind_eq_bind, Option.bind_some]
        exact key _ h
  | .transpose x src dims body, hw, _, st, ρ, r, l', hR, h => by
    simp only [sem, Option.bind_eq_some_iff] at h
    obtain ⟨b, h1, h⟩ := h
    obtain ⟨o, e1, e2, e3, e4⟩ := hR.buf? h1
    have hb : o.base = b.base := by rw [← e2]; rfl
    have he : o.elem = b.elem := by rw [← e2]; rfl
    split at h
    · rename_i hok
      simp only [run, e1]
      split
      · rename_i hx
        simp only [transposeOk, Bool.or_eq_true, Bool.not_eq_true', decide_eq_false_iff_not, decide_eq_true_eq] at hok
        replace hok := hok.resolve_left (fun h => h hx)
        have hst : o.rank ≤ o.store.length := by
          have h3 : o.buf.dims.length = o.rank := by rw [e2, e3]
          simp only [Obj.buf, List.length_take] at h3
          omega
        have hrk : o.rank = b.rank := e3
        rw [if_pos (by omega : dims.length ≤ o.store.length)]
        obtain ⟨hx1, hx2⟩ := hx
        subst hx1
        have hx := buf?_some h1
        have eq1 : dims.map b.dim = b.dims.take dims.length := by
          conv_lhs => rw [hx2]
          exact map_range_dim hok.1
        have eq2 : (dims.map b.dim).take (trimRank (dims.map b.dim)) = o.store.take dims.length := by
          rw [hok.2, eq1, List.take_take, ← e2]
          simp only [Obj.buf, List.take_take]
          congr 1
          omega
        have hundo : ({ ({ o with rank := dims.length } : Obj) with rank := o.rank } : Obj) = o := rfl
        refine Out.inPlace (o1 := { o with rank := dims.length }) (undo := fun o' => { o' with rank := o.rank }) hx e4 hundo
          (run_sem body hw false _ _ r l' (hR.inPlace (b1 := ⟨b.base, b.elem, (dims.map b.dim).take (trimRank (dims.map b.dim))⟩) hx ?_ ?_) h)
        · simp only [Obj.buf, hb, he, eq2]
        · simp only [eq2, List.length_take]
          omega
      · rename_i hx
        simp only [e2, hb, he]
        refine Out.withObj hR (run_sem body hw false _ _ r l' (hR.push x rfl ?_) h)
        have := trimRank_le (dims.map b.dim)
        simp only [Obj.buf, List.length_take]
        omega
    · cases h
  | .async x task body, hw, _, st, ρ, r, l', hR, h => by
    simp only [Stmt.WF] at hw
    have iht := fun st ρ r l' => run_sem task hw.1 true st ρ r l'
    have ihb := fun st ρ r l' => run_sem body hw.2 true st ρ r l'
    simp only [sem] at h
    simp only [run]
    split at h
    · rename_i hok
      have hset : ∀ (st : St), StRel st ρ → ∀ v, StRel (st.setOpt x v) (ρ.setOpt x v) := by
        intro st hq v
        cases x with
        | none => exact hq
        | some y => exact hq.set y v
      have hkeep : ∀ (st : St) (v : Int) (y : Nat), ρ y ≠ .undef → (st.setOpt x v).ctx y = st.ctx y := by
        intro st v y hy
        cases x with
        | none => rfl
        | some z =>
          have : ρ z = .undef := by simpa [asyncOk] using hok
          have : y ≠ z := by rintro rfl; exact hy this
          simp only [St.setOpt, St.set, Env.set_get, if_neg this]
      have hobj : ∀ (st : St) (v : Int), (st.setOpt x v).objs = st.objs ∧ (st.setOpt x v).next = st.next ∧ (st.setOpt x v).alog = st.alog := by
        intro st v; cases x <;> exact ⟨rfl, rfl, rfl⟩
      have hpool : (cfgOf w g).pool = w.pool := rfl
      have hfirst : (cfgOf w g).taskFirst st = w.taskFirst st.alog := rfl
      have hhandle : (cfgOf w g).taskHandle st = w.taskHandle st.alog := rfl
      rw [hpool, hfirst, hhandle]
      generalize (if w.pool = true then w.taskHandle st.alog else 0) = hd at h ⊢
      split at h
      · rename_i hf
        rw [if_pos hf]
        simp only [Option.bind_eq_some_iff, Option.map_eq_some_iff, Prod.mk.injEq] at h
        obtain ⟨ρt, h1, p, h2, ρb, h3, q, h4, h5, h6⟩ := h
        obtain ⟨st1, e1, e2, e3, e4, e5⟩ := inNewCtx_sem (g := g) iht hR h1 (r := p.1) (l' := p.2) (by rw [h2])
        have hR1 : StRel st1 ρ := hR.congr e2 e3 (fun y _ => by rw [e5])
        have hR2 := hset st1 hR1 hd
        obtain ⟨st3, f1, f2, f3, f4, f5⟩ := inNewCtx_sem (g := g) ihb hR2 h3 (r := q.1) (l' := q.2) (by rw [(hobj st1 hd).2.2, e4, h4])
        simp only [e1, f1, Option.bind_eq_bind, Option.bind_some]
        refine ⟨_, by rw [h5], ?_, ?_, ?_, ?_⟩
        · rw [(hobj _ _).1, f2, (hobj _ _).1, e2]
        · rw [(hobj _ _).2.1]
          rw [(hobj _ _).2.1] at f3
          omega
        · rw [(hobj _ _).2.2, f4, h6]
        · intro y hy
          rw [hkeep _ _ y hy, f5, hkeep _ _ y hy, e5]
      · rename_i hf
        rw [if_neg hf]
        simp only [Option.bind_eq_some_iff, Option.map_eq_some_iff, Prod.mk.injEq] at h
        obtain ⟨ρb, h1, q, h2, ρt, h3, p, h4, h5, h6⟩ := h
        have hR1 := hset st hR hd
        obtain ⟨st2, e1, e2, e3, e4, e5⟩ := inNewCtx_sem (g := g) ihb hR1 h1 (r := q.1) (l' := q.2) (by rw [(hobj st hd).2.2, h2])
        have hR2 : StRel st2 (ρ.setOpt x hd) := hR1.congr e2 e3 (fun y _ => by rw [e5])
        have hR2' : StRel st2 ρ := by
          refine hR.congr (by rw [e2, (hobj _ _).1]) (by rw [(hobj _ _).2.1] at e3; exact e3) (fun y hy => by rw [e5, hkeep _ _ y hy])
        have hlate : (cfgOf w g).taskLate st2 = w.taskLate q.2 := by rw [← e4]; rfl
        have hR3 : StRel (if w.taskLate q.2 then st2.setOpt x 0 else st2) (if w.taskLate q.2 then ρ else ρ.setOpt x hd) := by
          split
          · exact hR2'.congr (hobj _ _).1 (by rw [(hobj _ _).2.1]) (fun y hy => hkeep _ _ y hy)
          · exact hR2
        have ho3 : (if w.taskLate q.2 then st2.setOpt x 0 else st2).objs = st2.objs ∧ (if w.taskLate q.2 then st2.setOpt x 0 else st2).next = st2.next ∧
            (if w.taskLate q.2 then st2.setOpt x 0 else st2).alog = st2.alog := by
          split
          · exact hobj _ _
          · exact ⟨rfl, rfl, rfl⟩
        have hk3 : ∀ y, ρ y ≠ .undef → (if w.taskLate q.2 then st2.setOpt x 0 else st2).ctx y = st2.ctx y := by
          intro y hy
          split
          · exact hkeep _ _ y hy
          · rfl
        obtain ⟨st4, f1, f2, f3, f4, f5⟩ := inNewCtx_sem (g := g) iht hR3 h3 (r := p.1) (l' := p.2) (by rw [ho3.2.2, e4, h4])
        simp only [e1, hlate, f1, Option.bind_eq_bind, Option.bind_some]
        refine ⟨_, by rw [h5], ?_, ?_, ?_, ?_⟩
        · rw [(hobj _ _).1, f2, ho3.1, e2, (hobj _ _).1]
        · rw [(hobj _ _).2.1]
          rw [ho3.2.1] at f3
          rw [(hobj _ _).2.1] at e3
          omega
        · rw [(hobj _ _).2.2, f4, h6]
        · intro y hy
          rw [hkeep _ _ y hy, f5, hk3 y hy, e5, hkeep _ _ y hy]
    · cases h
  | .check c, hw, skip, st, ρ, r, l', hR, h => by
    simp only [Stmt.WF] at hw
    simp only [sem] at h
    split at h
    · cases h
    · rename_i hfree
      simp only [Option.map_eq_some_iff] at h
      obtain ⟨v, h1, h2⟩ := h
      have e := hR.evalI (g := g) hw h1
      have : run (cfgOf w g) skip (.check c) st = (do
          let (v, st) ← (cfgOf w g).eval st c
          if v = 0 then some (1, st.emit (.check false)) else some (0, st.emit (.check true))) := by
        unfold run
        split
        · exact absurd rfl hfree
        · rfl
      rw [this, e]
      simp only [Option.bind_eq_bind, Option.bind_some]
      split at h2
      · rename_i hv
        simp only [Prod.mk.injEq] at h2
        rw [if_pos hv, ← h2.1, ← h2.2]
        exact Out.self (e := .check false)
      · rename_i hv
        simp only [Prod.mk.injEq] at h2
        rw [if_neg hv, ← h2.1, ← h2.2]
        exact Out.self (e := .check true)
/-- See `run_sem`. -/
theorem runAll_sem : ∀ (ss : Stmts), ss.WF → ∀ (st : St) (ρ : SEnv) (r : Int) (l' : List Ev), StRel st ρ →
    semAll w ss ρ st.alog = some (r, l') → Out st ρ r l' (runAll (cfgOf w g) ss st)
  | .nil, _, st, ρ, r, l', hR, h => by
    simp only [semAll, Option.some.injEq, Prod.mk.injEq] at h
    exact ⟨st, by simp only [runAll, h.1], rfl, le_refl _, h.2, fun _ _ => rfl⟩
  | .cons s ss, hw, st, ρ, r, l', hR, h => by
    simp only [Stmts.WF] at hw
    simp only [semAll, Option.bind_eq_some_iff] at h
    obtain ⟨p, h1, h2⟩ := h
    obtain ⟨st1, e1, e2, e3, e4, e5⟩ := run_sem s hw.1 false st ρ p.1 p.2 hR h1
    simp only [runAll, e1, Option.bind_eq_bind, Option.bind_some]
    split at h2
    · rename_i hr
      rw [if_pos hr]
      simp only [Option.some.injEq] at h2
      subst h2
      exact ⟨st1, rfl, e2, e3, e4, e5⟩
    · rename_i hr
      rw [if_neg hr]
      rw [← e4] at h2
      obtain ⟨st2, f1, f2, f3, f4, f5⟩ := runAll_sem ss hw.2 st1 ρ r l' (hR.congr e2 e3 e5) h2
      exact ⟨st2, f1, by rw [f2, e2], le_trans e3 f3, f4, fun y hy => by rw [f5 y hy, e5 y hy]⟩
end

end

/-- **The evaluator does what the specification says.** If a statement has a meaning in an environment, then the evaluator, in any state that
represents the environment (each symbol that is in scope has its value, each buffer has its own object), returns the result, asks the world
for the same things in the same order, and leaves the buffer objects and the symbols in scope as they were. -/
theorem exec_sem (w : World) (g : Env) {s : Stmt} (hw : s.WF) {st : St} {ρ : SEnv} (hR : StRel st ρ) {r : Int} {l' : List Ev}
    (h : sem w false s ρ st.alog = some (r, l')) :
    ∃ st', exec (cfgOf w g) s st = some (r, st') ∧ st'.log.map Ev.anon = l' ∧ st'.objs = st.objs ∧ ∀ x, ρ x ≠ .undef → st'.ctx x = st.ctx x := by
  obtain ⟨st', h1, h2, _, h4, h5⟩ := run_sem (g := g) s hw false st ρ r l' hR h
  exact ⟨st', h1, h4, h2, h5⟩

end Slinky
