import Verif.PipeEval

/-!
# C63: a pipeline sees what is passed to it, and nothing else. Theorems
-/

namespace Slinky.PE

open Slinky

variable {w : World} {g : Env}

/-- The buffers that have a name are in `S`. -/
def Known (st : St) (ρ : SEnv) (S : List Nat) : Prop := ∀ y b, ρ y = .buf b → ∃ a ∈ S, st.ctx y = (a : Int)

theorem setZip_objs : ∀ (xs : List Nat) (vs : List Int) (st : St), (setZip xs vs st).objs = st.objs ∧ (setZip xs vs st).log = st.log ∧ (setZip xs vs st).next = st.next
  | [], _, _ => by simp [setZip]
  | _ :: _, [], _ => by simp [setZip]
  | x :: xs, v :: vs, st => by
    obtain ⟨h1, h2, h3⟩ := setZip_objs xs vs (st.set x v)
    exact ⟨h1, h2, h3⟩

theorem setZip_ints : ∀ (xs : List Nat) (vs : List Int) (st : St) (ρ : SEnv) (S : List Nat), StRel st ρ → Known st ρ S →
    StRel (setZip xs vs st) (named xs (vs.map .int) ρ) ∧ Known (setZip xs vs st) (named xs (vs.map .int) ρ) S
  | [], _, _, _, _, h, k => by simp only [setZip, named]; exact ⟨h, k⟩
  | _ :: _, [], _, _, _, h, k => by simp only [setZip, named, List.map_nil]; exact ⟨h, k⟩
  | x :: xs, v :: vs, st, ρ, S, h, k => by
    simp only [setZip, named, List.map_cons]
    refine setZip_ints xs vs _ _ S (h.set x v) ?_
    intro y b hy
    rw [SEnv.set_get] at hy
    split at hy
    · cases hy
    · next e =>
      obtain ⟨a, ha, hc⟩ := k y b hy
      exact ⟨a, ha, by simpa [St.set, Env.set_get, e] using hc⟩

/-- A pointer to a buffer that has no name yet. -/
theorem StRel.ptr {st : St} {ρ : SEnv} {S : List Nat} (h : StRel st ρ) (k : Known st ρ S) (x a : Nat) (ha : a ∉ S) {o : Obj} (ho : st.objs a = some o)
    (hr : o.rank = o.buf.dims.length) :
    StRel (st.set x a) (ρ.set x (.buf (bufAt st.objs a))) ∧ Known (st.set x a) (ρ.set x (.buf (bufAt st.objs a))) (a :: S) := by
  have hb : bufAt st.objs a = o.buf := by simp [bufAt, ho]
  rw [hb]
  have hc : ∀ y, (st.set x (a : Int)).ctx y = if y = x then (a : Int) else st.ctx y := fun y => by simp [St.set, Env.set_get]
  refine ⟨⟨h.fresh, ?_, ?_⟩, ?_⟩
  · exact h.vals.set x ⟨a, o, rfl, ho, rfl, hr⟩
  · intro y z b c hy hz
    rw [hc, hc]
    rw [SEnv.set_get] at hy hz
    split at hy <;> split at hz
    · rename_i e1 e2; intro _; rw [e1, e2]
    · rename_i e1 e2
      obtain ⟨a', ha', he⟩ := k z c hz
      rw [if_pos e1, if_neg e2, he]
      intro e; exact absurd (by exact_mod_cast e) (fun e : a = a' => ha (e ▸ ha'))
    · rename_i e1 e2
      obtain ⟨a', ha', he⟩ := k y b hy
      rw [if_neg e1, if_pos e2, he]
      intro e; exact absurd (by exact_mod_cast e) (fun e : a' = a => ha (e ▸ ha'))
    · rename_i e1 e2
      rw [if_neg e1, if_neg e2]
      exact h.inj y z b c hy hz
  · intro y b hy
    rw [SEnv.set_get] at hy
    rw [hc]
    split at hy
    · rename_i e; exact ⟨a, by simp, by simp [e]⟩
    · rename_i e
      obtain ⟨a', ha', he⟩ := k y b hy
      exact ⟨a', by simp [ha'], by simp [e, he]⟩

theorem setZip_bufs : ∀ (xs vs : List Nat) (st : St) (ρ : SEnv) (S : List Nat), StRel st ρ → Known st ρ S → (∀ a ∈ vs, a ∉ S) → vs.Nodup →
    (∀ a ∈ vs, ∃ o, st.objs a = some o ∧ o.rank = o.buf.dims.length) →
    StRel (setZip xs (vs.map Int.ofNat) st) (named xs (vs.map fun a => .buf (bufAt st.objs a)) ρ) ∧
      Known (setZip xs (vs.map Int.ofNat) st) (named xs (vs.map fun a => .buf (bufAt st.objs a)) ρ) (vs.reverse ++ S)
  | [], vs, st, ρ, S, h, k, _, _, _ => by
    simp only [setZip, named]
    exact ⟨h, fun y b hy => by obtain ⟨a, ha, e⟩ := k y b hy; exact ⟨a, by simp [ha], e⟩⟩
  | _ :: _, [], _, _, _, h, k, _, _, _ => by simp only [setZip, named, List.map_nil]; exact ⟨h, by simpa using k⟩
  | x :: xs, a :: vs, st, ρ, S, h, k, hS, hn, ho => by
    simp only [setZip, named, List.map_cons]
    obtain ⟨o, ho1, ho2⟩ := ho a (by simp)
    obtain ⟨h', k'⟩ := StRel.ptr h k x a (hS a (by simp)) ho1 ho2
    have hn' := List.nodup_cons.1 hn
    have := setZip_bufs xs vs (st.set x a) (ρ.set x (.buf (bufAt st.objs a))) (a :: S) h' k'
      (fun c hc => by
        simp only [List.mem_cons, not_or]
        exact ⟨fun e => hn'.1 (e ▸ hc), hS c (by simp [hc])⟩) hn'.2 (fun c hc => ho c (by simp [hc]))
    simpa [St.set] using this

theorem setup_objs (P : Pipe) (q : Req) (st : St) : (P.setup q st).objs = st.objs ∧ (P.setup q st).log = st.log ∧ (P.setup q st).next = st.next := by
  obtain ⟨a1, a2, a3⟩ := setZip_objs P.args q.args st
  obtain ⟨b1, b2, b3⟩ := setZip_objs P.inputs (q.inputs.map Int.ofNat) (setZip P.args q.args st)
  obtain ⟨c1, c2, c3⟩ := setZip_objs P.outputs (q.outputs.map Int.ofNat) (setZip P.inputs (q.inputs.map Int.ofNat) (setZip P.args q.args st))
  exact ⟨c1.trans (b1.trans a1), c2.trans (b2.trans a2), c3.trans (b3.trans a3)⟩

/-- After `setup`, the context is what is passed, whatever it was before. -/
theorem setup_env {P : Pipe} {q : Req} {st : St} (hf : st.Fresh) (hq : q.Ok st.objs) : StRel (P.setup q st) (P.env q st.objs) := by
  have h0 : StRel st (fun _ => .undef) := ⟨hf, fun _ => trivial, fun x y b c hx => by cases hx⟩
  obtain ⟨h1, k1⟩ := setZip_ints P.args q.args st _ [] h0 (fun y b hy => by cases hy)
  have o1 := (setZip_objs P.args q.args st).1
  have hd := List.nodup_append.1 hq.distinct
  obtain ⟨h2, k2⟩ := setZip_bufs P.inputs q.inputs _ _ [] h1 k1 (by simp) hd.1 (fun a ha => by rw [o1]; exact hq.exist a (by simp [ha]))
  have o2 := (setZip_objs P.inputs (q.inputs.map Int.ofNat) (setZip P.args q.args st)).1.trans o1
  obtain ⟨h3, -⟩ := setZip_bufs P.outputs q.outputs _ _ _ h2 k2
    (fun a ha hm => hd.2.2 a (by simpa using hm) a ha rfl) hd.2.1
    (fun a ha => by rw [o2]; exact hq.exist a (by simp [ha]))
  rw [o2, o1] at h3
  exact h3

/-- C63: a run of a pipeline, in a context with any contents. -/
theorem evaluate_sem_partial {P : Pipe} (hw : P.body.WF) {q : Req} {st : St} (hf : st.Fresh) (hq : q.Ok st.objs) {r : Int} {l' : List Ev}
    (h : sem w false P.body (P.env q st.objs) st.alog = some (r, l')) :
    ∃ st', P.evaluate (cfgOf w g) q st = some (r, st') ∧ st'.alog = l' ∧ st'.objs = st.objs ∧ st'.Fresh ∧ StRel st' (P.env q st.objs) := by
  obtain ⟨o1, o2, o3⟩ := setup_objs P q st
  have hR := setup_env (P := P) hf hq
  have e : (P.setup q st).alog = st.alog := by simp [St.alog, o2]
  obtain ⟨st', h1, h2, h3, h4, h5⟩ := run_sem (w := w) (g := g) P.body hw false (P.setup q st) _ r l' hR (by rw [e]; exact h)
  have hR' := hR.congr h2 h3 h5
  exact ⟨st', h1, h4, h2.trans o1, hR'.fresh, hR'⟩

/-- C63: a pipeline with a context of its own. -/
theorem evaluateNew_sem_partial {P : Pipe} (hw : P.body.WF) {q : Req} {st : St} (hf : st.Fresh) (hq : q.Ok st.objs) {r : Int} {l' : List Ev}
    (h : sem w false P.body (P.env q st.objs) st.alog = some (r, l')) (garbage : Env) :
    ∃ st', P.evaluateNew (cfgOf w g) garbage q st = some (r, st') ∧ st'.alog = l' ∧ st'.objs = st.objs ∧ st'.ctx = st.ctx ∧ st'.Fresh := by
  obtain ⟨st', h1, h2, h3, h4, -⟩ := evaluate_sem_partial (w := w) (g := g) hw (st := { st with ctx := garbage }) hf hq h
  exact ⟨{ st' with ctx := st.ctx }, by simp [Pipe.evaluateNew, h1], h2, h3, rfl, h4⟩

/-- C63: any number of runs of any pipelines in one context. -/
theorem session_sem_partial : ∀ (rs : List (Pipe × Req)) (st : St) (vs : List Int) (l' : List Ev), st.Fresh → (∀ p ∈ rs, p.1.body.WF ∧ p.2.Ok st.objs) →
    sessionSem w st.objs rs st.alog = some (vs, l') →
    ∃ st', session (cfgOf w g) rs st = some (vs, st') ∧ st'.alog = l' ∧ st'.objs = st.objs
  | [], st, vs, l', _, _, h => by
    simp only [sessionSem, Option.some.injEq, Prod.mk.injEq] at h
    obtain ⟨rfl, rfl⟩ := h
    exact ⟨st, rfl, rfl, rfl⟩
  | (P, q) :: rs, st, vs, l', hf, hp, h => by
    simp only [sessionSem, Option.bind_eq_some_iff, Option.map_eq_some_iff, Prod.mk.injEq] at h
    obtain ⟨⟨r, l1⟩, h1, ⟨vs', l2⟩, h2, rfl, rfl⟩ := h
    obtain ⟨hw, hq⟩ := hp (P, q) (by simp)
    obtain ⟨st1, e1, e2, e3, e4, -⟩ := evaluate_sem_partial (w := w) (g := g) hw hf hq h1
    obtain ⟨st2, f1, f2, f3⟩ := session_sem_partial rs st1 vs' l2 e4 (fun p hm => by rw [e3]; exact hp p (by simp [hm])) (by rw [e2, e3]; exact h2)
    exact ⟨st2, by simp [session, e1, f1], f2, f3.trans e3⟩

/-- C63: a pipeline that is set up once can be run again. -/
theorem again_sem_partial {P : Pipe} (hw : P.body.WF) {q : Req} : ∀ (n : Nat) (st : St) (vs : List Int) (l' : List Ev), StRel st (P.env q st.objs) →
    sessionSem w st.objs (List.replicate n (P, q)) st.alog = some (vs, l') →
    ∃ st', again (cfgOf w g) P n st = some (vs, st') ∧ st'.alog = l' ∧ st'.objs = st.objs
  | 0, st, vs, l', _, h => by
    simp only [List.replicate, sessionSem, Option.some.injEq, Prod.mk.injEq] at h
    obtain ⟨rfl, rfl⟩ := h
    exact ⟨st, rfl, rfl, rfl⟩
  | n + 1, st, vs, l', hR, h => by
    simp only [List.replicate, sessionSem, Option.bind_eq_some_iff, Option.map_eq_some_iff, Prod.mk.injEq] at h
    obtain ⟨⟨r, l1⟩, h1, ⟨vs', l2⟩, h2, rfl, rfl⟩ := h
    obtain ⟨st1, e1, e2, e3, e4, e5⟩ := run_sem (w := w) (g := g) P.body hw false st _ r l1 hR h1
    have hR' := hR.congr e2 e3 e5
    have e4 : st1.alog = l1 := e4
    obtain ⟨st2, f1, f2, f3⟩ := again_sem_partial hw n st1 vs' l2 (by rw [e2]; exact hR') (by rw [e2, e4]; exact h2)
    refine ⟨st2, ?_, f2, f3.trans e2⟩
    have e1 : P.run (cfgOf w g) st = some (r, st1) := e1
    simp [again, e1, f1]

/-- C63: the result and what is done do not depend on the contents of the context. -/
theorem evaluate_context_partial {P : Pipe} (hw : P.body.WF) {q : Req} {st : St} (hf : st.Fresh) (hq : q.Ok st.objs) {r : Int} {l' : List Ev}
    (h : sem w false P.body (P.env q st.objs) st.alog = some (r, l')) (c1 c2 : Env) :
    ∃ s1 s2, P.evaluate (cfgOf w g) q { st with ctx := c1 } = some (r, s1) ∧ P.evaluate (cfgOf w g) q { st with ctx := c2 } = some (r, s2) ∧
      s1.alog = l' ∧ s2.alog = l' := by
  obtain ⟨s1, a1, a2, -⟩ := evaluate_sem_partial (w := w) (g := g) hw (st := { st with ctx := c1 }) hf hq h
  obtain ⟨s2, b1, b2, -⟩ := evaluate_sem_partial (w := w) (g := g) hw (st := { st with ctx := c2 }) hf hq h
  exact ⟨s1, s2, a1, b1, a2, b2⟩

end Slinky.PE
