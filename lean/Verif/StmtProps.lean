import Verif.StmtExec
import Mathlib.Algebra.BigOperators.Group.Finset.Basic
import Mathlib.Data.Finset.Card
import Mathlib.Data.Finset.Range

/-!
# What the evaluation of a statement leaves behind (C31), errors (C33), and allocations (C34)
-/

namespace Slinky

/-! ## C31: symbols and buffers -/

mutual
/-- The symbols of the `async` statements in a statement. -/
def Stmt.asyncSyms : Stmt → List Nat
  | .lets _ b _ | .loop _ _ _ _ b | .allocate _ _ _ _ b | .makeBuffer _ _ _ _ b | .constantBuffer _ _ b | .cloneBuffer _ _ b
  | .cropBuffer _ _ _ b | .cropDim _ _ _ _ b | .sliceBuffer _ _ _ b | .sliceDim _ _ _ _ b | .transpose _ _ _ b => b.asyncSyms
  | .block ss => ss.asyncSyms
  | .async x t b => x.toList ++ t.asyncSyms ++ b.asyncSyms
  | _ => []
/-- The symbols of the `async` statements in statements. -/
def Stmts.asyncSyms : Stmts → List Nat
  | .nil => []
  | .cons s ss => s.asyncSyms ++ ss.asyncSyms
end

/-- Memory at and after `next` is not in use. -/
def St.Fresh (st : St) : Prop := ∀ a ≥ st.next, st.objs a = none

/-- What the evaluation keeps of the buffer objects: everything but the ownership of allocations. -/
def SameObjs (st st' : St) : Prop := ∀ a, (st'.objs a).map Obj.noAlloc = (st.objs a).map Obj.noAlloc

/-- The symbol has the same value, or it is in the list and the value is 0. -/
def Kept (xs : List Nat) (ρ ρ' : Env) (y : Nat) : Prop := ρ' y = ρ y ∨ (y ∈ xs ∧ ρ' y = 0)

theorem Kept.trans {xs ys zs : List Nat} {ρ ρ' ρ'' : Env} {y : Nat} (h1 : Kept xs ρ ρ' y) (h2 : Kept ys ρ' ρ'' y) (hx : ∀ z ∈ xs, z ∈ zs)
    (hy : ∀ z ∈ ys, z ∈ zs) : Kept zs ρ ρ'' y := by
  rcases h2 with h2 | ⟨h2, h3⟩
  · rcases h1 with h1 | ⟨h1, h4⟩
    · exact .inl (by rw [h2, h1])
    · exact .inr ⟨hx _ h1, by rw [h2, h4]⟩
  · exact .inr ⟨hy _ h2, h3⟩

/-- What each job keeps in the context. -/
def Job.Keeps : Job → Env → Env → Prop
  | .stmt s, ρ, ρ' | .clo s, ρ, ρ' => ∀ y, Kept s.asyncSyms ρ ρ' y
  | .all ss, ρ, ρ' => ∀ y, Kept ss.asyncSyms ρ ρ' y
  | .serial x _ _ _ _ b, ρ, ρ' => ∀ y ≠ x, Kept b.asyncSyms ρ ρ' y
  | .par .., ρ, ρ' | .new .., ρ, ρ' => ρ' = ρ

theorem Env.set_get (ρ : Env) (x : Nat) (v : Int) (y : Nat) : ρ.set x v y = if y = x then v else ρ y := rfl

theorem Stmt.isObj_syms {x : Nat} {body s : Stmt} (h : Stmt.isObj x body s) : s.asyncSyms = body.asyncSyms := by
  cases s <;> simp only [Stmt.isObj] at h <;> first | (obtain ⟨_, rfl⟩ := h; simp only [Stmt.asyncSyms]) | exact h.elim
theorem Stmt.isInPlace_syms {body s : Stmt} (h : Stmt.isInPlace body s) : s.asyncSyms = body.asyncSyms := by
  cases s <;> simp only [Stmt.isInPlace] at h <;> first | (subst h; simp only [Stmt.asyncSyms]) | exact h.elim

theorem foldl_set_other (olds : List (Nat × Int)) : ∀ (ρ : Env) (y : Nat), y ∉ olds.map Prod.fst → olds.foldl (fun ρ p => ρ.set p.1 p.2) ρ y = ρ y := by
  induction olds with
  | nil => intros; rfl
  | cons p olds ih =>
    intro ρ y hy
    simp only [List.map_cons, List.mem_cons, not_or] at hy
    rw [List.foldl_cons, ih _ _ hy.2, Env.set_get, if_neg hy.1]

theorem foldl_set_mem (olds : List (Nat × Int)) : ∀ (ρ : Env) (p : Nat × Int), (olds.map Prod.fst).Nodup → p ∈ olds →
    olds.foldl (fun ρ p => ρ.set p.1 p.2) ρ p.1 = p.2 := by
  induction olds with
  | nil => intro _ _ _ h; cases h
  | cons q olds ih =>
    intro ρ p hn hp
    simp only [List.map_cons, List.nodup_cons] at hn
    rw [List.foldl_cons]
    rcases List.mem_cons.mp hp with rfl | hp
    · rw [foldl_set_other _ _ _ hn.1, Env.set_get, if_pos rfl]
    · exact ih _ _ hn.2 hp

theorem kept_set_back {xs : List Nat} {ρ ρ' : Env} {x : Nat} {v : Int} (h : ∀ y, y ≠ x → Kept xs (ρ.set x v) ρ' y) (y : Nat) : Kept xs ρ (ρ'.set x (ρ x)) y := by
  by_cases e : y = x
  · subst e; exact .inl (by rw [Env.set_get, if_pos rfl])
  · rcases h y e with h | ⟨h1, h2⟩
    · exact .inl (by rw [Env.set_get, if_neg e, h, Env.set_get, if_neg e])
    · exact .inr ⟨h1, by rw [Env.set_get, if_neg e, h2]⟩

theorem St.setOpt_ctx (st : St) (x : Option Nat) (v : Int) (y : Nat) : (st.setOpt x v).ctx y = if x = some y then v else st.ctx y := by
  cases x with
  | none => simp [St.setOpt]
  | some z => by_cases e : y = z
              · subst e; simp [St.setOpt, St.set, Env.set]
              · simp [St.setOpt, St.set, Env.set, e, Ne.symm e]

/-- Every job keeps the context. -/
theorem Big.keeps {cfg : Cfg} {j : Job} {st : St} {r : Int} {st' : St} (h : Big cfg j st r st') : j.Keeps st.ctx st'.ctx := by
  induction h with
  | call | nil | loopZero | allocOverflow | makeFail | checkFail | checkOk => intros; exact fun y => .inl rfl
  | serialDone => exact fun y _ => .inl rfl
  | parDone => rfl
  | checkFree => exact fun y => .inl rfl
  | allocNull ho =>
    intro y
    left
    simp only [St.release]
    split
    · split <;> rfl
    · rfl
  | @lets bs body c st r st2 olds ctx1 h1 h2 h3 hb ih =>
    intro y
    simp only [St.restore]
    by_cases hy : y ∈ olds.map Prod.fst
    · obtain ⟨p, hp, rfl⟩ := List.mem_map.mp hy
      left
      rw [foldl_set_mem _ _ _ h1 hp, h2 p hp]
    · have := ih y
      simp only [Kept] at this ⊢
      rw [foldl_set_other _ _ _ hy]
      rw [h3 y hy] at this
      simpa only [Stmt.asyncSyms] using this
  | block hb ih => exact fun y => by simpa only [Stmt.asyncSyms] using ih y
  | consFail hb hr ih => exact fun y => (ih y).trans (.inl rfl : Kept [] _ _ y) (by simp +contextual [Stmts.asyncSyms]) (by simp)
  | cons hb hs ih1 ih2 => exact fun y => (ih1 y).trans (ih2 y) (by simp +contextual [Stmts.asyncSyms]) (by simp +contextual [Stmts.asyncSyms])
  | loopOne hw hv hb ih => simp only [Job.Keeps, Stmt.asyncSyms]; exact kept_set_back fun y _ => ih y
  | loopPar hw hv hp ih => intro y; left; rw [ih]
  | loopSerial hs ih => simp only [Job.Keeps, Stmt.asyncSyms]; exact kept_set_back fun y hy => ih y hy
  | serialFail h hb hr ih =>
    intro y hy
    have := ih y
    simp only [Kept, St.set, Env.set_get, if_neg hy] at this
    exact this
  | serialNext h hb hs ih1 ih2 =>
    intro y hy
    have := ih1 y
    simp only [Kept, St.set, Env.set_get, if_neg hy] at this
    exact Kept.trans this (ih2 y hy) (fun _ h => h) (fun _ h => h)
  | parNext hb hp ih1 ih2 => simp only [Job.Keeps] at ih2 ⊢; rw [ih2]
  | @allocHeap x sto e ds body st h o r st' o' ho hb ho' ih =>
    have : ((st.pop x st').release x o').ctx = (st.pop x st').ctx := by
      simp only [St.release]; split
      · split <;> rfl
      · rfl
    simp only [Job.Keeps]
    rw [this]
    simp only [Stmt.asyncSyms]; exact kept_set_back fun y _ => ih y
  | @allocStack x sto e ds body st o r st' o' ho hb ho' ih =>
    have : ((st.pop x st').release x o').ctx = (st.pop x st').ctx := by
      simp only [St.release]; split
      · split <;> rfl
      · rfl
    simp only [Job.Keeps]
    rw [this]
    simp only [Stmt.asyncSyms]; exact kept_set_back fun y _ => ih y
  | obj ho hs hb ih =>
    simp only [Job.Keeps, Stmt.isObj_syms hs]
    exact kept_set_back fun y _ => ih y
  | inPlace hs ho h1 hu hb ho' ih => simp only [Job.Keeps, Stmt.isInPlace_syms hs]; exact ih
  | same hs hb ih => simp only [Job.Keeps, Stmt.isInPlace_syms hs]; exact ih
  | asyncFirst ht hb iht ihb =>
    intro y
    simp only [Job.Keeps] at iht ihb
    simp only [Kept, St.setOpt_ctx, ihb, iht]
    split
    · rename_i e; exact .inr ⟨by simp [Stmt.asyncSyms, e], rfl⟩
    · exact .inl rfl
  | asyncAfter hb ht ihb iht =>
    intro y
    simp only [Job.Keeps] at iht ihb
    simp only [Kept, St.setOpt_ctx, ihb, iht]
    split
    · rename_i e; exact .inr ⟨by simp [Stmt.asyncSyms, e], rfl⟩
    · exact .inl rfl
  | asyncLate hb ht ihb iht =>
    intro y
    simp only [Job.Keeps] at iht ihb
    simp only [Kept, St.setOpt_ctx, ihb, iht]
    split
    · rename_i e; exact .inr ⟨by simp [Stmt.asyncSyms, e], rfl⟩
    · exact .inl rfl
  | new hb ih => rfl
  | cloBody hb ih => exact fun y => by simpa only [Stmt.asyncSyms] using ih y
  | cloSame hb ih => exact ih

/-- What is known of the objects after a job. -/
structure Keep (st st' : St) : Prop where
  fresh : st'.Fresh
  next : st.next ≤ st'.next
  objs : SameObjs st st'

theorem St.release_objs (st : St) (x : Nat) (o : Obj) : (st.release x o).objs = st.objs ∧ (st.release x o).next = st.next := by
  simp only [St.release]
  split
  · split <;> exact ⟨rfl, rfl⟩
  · exact ⟨rfl, rfl⟩

theorem Fresh.push {st : St} (h : st.Fresh) (x : Nat) (o : Obj) : (st.push x o).Fresh := by
  intro a ha
  simp only [St.push, St.setObj, St.set] at ha ⊢
  rw [if_neg (by omega)]
  exact h a (by omega)

theorem Keep.pop {st st' : St} {x : Nat} {o : Obj} (hf : st.Fresh) (h : Keep (st.push x o) st') : Keep st (st.pop x st') := by
  have hn : st.next + 1 ≤ st'.next := h.next
  refine ⟨?_, ?_, ?_⟩
  · intro a ha
    simp only [St.pop, St.setObj, St.set] at ha ⊢
    split
    · rfl
    · exact h.fresh a ha
  · simp only [St.pop, St.setObj, St.set]; omega
  · intro a
    simp only [St.pop, St.setObj, St.set]
    split
    · rename_i e; subst e; rw [hf _ (le_refl _)]
    · rename_i e
      have := h.objs a
      simp only [St.push, St.setObj, St.set, if_neg e] at this
      exact this

theorem Keep.trans {a b c : St} (h1 : Keep a b) (h2 : Keep b c) : Keep a c :=
  ⟨h2.fresh, le_trans h1.next h2.next, fun x => (h2.objs x).trans (h1.objs x)⟩

/-- `Keep` only depends on the objects. -/
theorem Keep.congr {a b a' b' : St} (h : Keep a b) (h1 : a'.objs = a.objs) (h2 : a'.next = a.next) (h3 : b'.objs = b.objs) (h4 : b'.next = b.next) : Keep a' b' := by
  refine ⟨?_, by rw [h2, h4]; exact h.next, ?_⟩
  · intro x hx; rw [h3]; exact h.fresh x (by rw [← h4]; exact hx)
  · intro x; rw [h1, h3]; exact h.objs x

theorem Keep.rfl' {a b : St} (h : a.Fresh) (h1 : b.objs = a.objs) (h2 : b.next = a.next) : Keep a b := by
  refine ⟨?_, by rw [h2], ?_⟩
  · intro x hx; rw [h1]; exact h x (by rw [← h2]; exact hx)
  · intro x; rw [h1]

theorem St.setOpt_objs (st : St) (x : Option Nat) (v : Int) : (st.setOpt x v).objs = st.objs ∧ (st.setOpt x v).next = st.next := by
  cases x <;> exact ⟨rfl, rfl⟩

theorem Fresh.congr {a b : St} (h : a.Fresh) (h1 : b.objs = a.objs) (h2 : b.next = a.next) : b.Fresh := by
  intro x hx; rw [h1]; exact h x (by rw [← h2]; exact hx)

/-- Every job keeps the objects. -/
theorem Big.keep {cfg : Cfg} {j : Job} {st : St} {r : Int} {st' : St} (h : Big cfg j st r st') : st.Fresh → Keep st st' := by
  induction h with
  | call | nil | loopZero | serialDone | allocOverflow | makeFail | checkFail | checkOk | parDone => intro hf; exact .rfl' hf rfl rfl
  | @checkFree x d st o h ho hh =>
    intro hf
    have ho2 : st.objs (st.ctx x).toNat = some o := by
      unfold St.obj? at ho
      split at ho
      · cases ho
      · exact ho
    refine ⟨?_, le_refl _, ?_⟩
    · intro a ha
      simp only [St.setObj, St.emit] at ha ⊢
      split
      · rename_i e; subst e; rw [hf _ ha] at ho2; cases ho2
      · exact hf a ha
    · intro a
      simp only [St.setObj, St.emit]
      split
      · rename_i e; rw [e, ho2]; rfl
      · rfl
  | @allocNull x sto e ds body st h o ho => intro hf; exact .rfl' hf (St.release_objs _ _ _).1 (St.release_objs _ _ _).2
  | lets h1 h2 h3 hb ih => intro hf; exact (ih hf).congr rfl rfl rfl rfl
  | block hb ih => exact ih
  | consFail hb hr ih => exact ih
  | cons hb hs ih1 ih2 => intro hf; exact (ih1 hf).trans (ih2 (ih1 hf).fresh)
  | loopOne hw hv hb ih => intro hf; exact (ih hf).congr rfl rfl rfl rfl
  | loopPar hw hv hp ih => exact ih
  | loopSerial hs ih => intro hf; exact (ih hf).congr rfl rfl rfl rfl
  | serialFail h hb hr ih => intro hf; exact (ih hf).congr rfl rfl rfl rfl
  | serialNext h hb hs ih1 ih2 => intro hf; exact ((ih1 hf).trans (ih2 (ih1 hf).fresh)).congr rfl rfl rfl rfl
  | parNext hb hp ih1 ih2 => 
    intro hf
    have k1 := ih1 hf
    have k2 := ih2 k1.fresh
    exact (Keep.trans k1 (k2.congr rfl rfl rfl rfl)).congr rfl rfl rfl rfl
  | @allocHeap x sto e ds body st h o r st' o' ho hb ho' ih =>
    intro hf
    have hf2 : (st.emit (.alloc x h)).Fresh := hf
    refine Keep.congr (Keep.pop hf2 (ih (Fresh.push hf2 x o))) rfl rfl ?_ ?_
    · rw [(St.release_objs _ _ _).1]; rfl
    · rw [(St.release_objs _ _ _).2]; rfl
  | @allocStack x sto e ds body st o r st' o' ho hb ho' ih =>
    intro hf
    refine Keep.congr (Keep.pop hf (ih (Fresh.push hf x o))) rfl rfl ?_ ?_
    · rw [(St.release_objs _ _ _).1]
    · rw [(St.release_objs _ _ _).2]
  | obj ho hs hb ih => intro hf; exact Keep.pop hf (ih (Fresh.push hf _ _))
  | @inPlace s body st a o o1 undo r st' o' hs ho h1 hu hb ho' ih =>
    intro hf
    have ha : a < st.next := by
      by_contra hn
      rw [hf a (by omega)] at ho
      cases ho
    have := ih (by
      intro b hb
      simp only [St.setObj] at hb ⊢
      rw [if_neg (by omega)]
      exact hf b hb)
    have hn : st.next ≤ st'.next := this.next
    refine ⟨?_, hn, ?_⟩
    · intro b hb
      simp only [St.setObj] at hb ⊢
      rw [if_neg (by omega)]
      exact this.fresh b hb
    · intro b
      simp only [St.setObj]
      have hb' := this.objs b
      simp only [St.setObj] at hb'
      split
      · rename_i e
        subst e
        rw [if_pos rfl, ho', Option.map_some, Option.map_some, Option.some.injEq] at hb'
        rw [ho, Option.map_some, Option.map_some, (hu o' hb').1]
      · rename_i e
        rw [if_neg e] at hb'
        exact hb'
  | same hs hb ih => exact ih
  | asyncFirst ht hb iht ihb =>
    intro hf
    have k1 := iht hf
    have k2 := ihb (Fresh.congr k1.fresh (St.setOpt_objs _ _ _).1 (St.setOpt_objs _ _ _).2)
    exact (k1.trans (k2.congr (St.setOpt_objs _ _ _).1.symm (St.setOpt_objs _ _ _).2.symm rfl rfl)).congr rfl rfl (St.setOpt_objs _ _ _).1 (St.setOpt_objs _ _ _).2
  | asyncAfter hb ht ihb iht =>
    intro hf
    have k1 := ihb (Fresh.congr hf (St.setOpt_objs _ _ _).1 (St.setOpt_objs _ _ _).2)
    have k2 := iht k1.fresh
    exact ((k1.congr (St.setOpt_objs _ _ _).1.symm (St.setOpt_objs _ _ _).2.symm rfl rfl).trans k2).congr rfl rfl (St.setOpt_objs _ _ _).1 (St.setOpt_objs _ _ _).2
  | asyncLate hb ht ihb iht =>
    intro hf
    have k1 := ihb (Fresh.congr hf (St.setOpt_objs _ _ _).1 (St.setOpt_objs _ _ _).2)
    have k2 := iht (Fresh.congr k1.fresh (St.setOpt_objs _ _ _).1 (St.setOpt_objs _ _ _).2)
    exact ((k1.congr (St.setOpt_objs _ _ _).1.symm (St.setOpt_objs _ _ _).2.symm (St.setOpt_objs _ _ _).1 (St.setOpt_objs _ _ _).2).trans k2).congr rfl rfl
      (St.setOpt_objs _ _ _).1 (St.setOpt_objs _ _ _).2
  | new hb ih => intro hf; exact (ih hf).congr rfl rfl rfl rfl
  | cloBody hb ih => exact ih
  | cloSame hb ih => exact ih

/-- **C31.** Whatever a statement does (calls that fail, allocations that fail, nested scopes, parallel loops in any order, tasks), after it is
evaluated, every symbol has the value it had before, except that the symbols of `async` statements can be 0; and every buffer object is
as it was before (the base, the dimensions, the rank), except that an allocation can have been given back; no new object exists. -/
theorem exec_restores {cfg : Cfg} {s : Stmt} (hw : s.WF) {st : St} (hf : st.Fresh) {r : Int} {st' : St} (h : exec cfg s st = some (r, st')) :
    (∀ x, st'.ctx x = st.ctx x ∨ (x ∈ s.asyncSyms ∧ st'.ctx x = 0)) ∧
    (∀ a, (st'.objs a).map Obj.noAlloc = (st.objs a).map Obj.noAlloc) :=
  ⟨(exec_big hw h).keeps, ((exec_big hw h).keep hf).objs⟩

/-- **C31** without `async`: the context is the same. -/
theorem exec_restores_context {cfg : Cfg} {s : Stmt} (hw : s.WF) (ha : s.asyncSyms = []) {st : St} {r : Int} {st' : St} (h : exec cfg s st = some (r, st')) :
    st'.ctx = st.ctx := by
  funext x
  rcases (exec_big hw h).keeps x with h | ⟨h, _⟩
  · exact h
  · rw [ha] at h; cases h

/-! ## C33: errors -/

/-- The error that an event is: a call that returns something other than 0, a check that fails, an allocation or a `make_buffer` that
fails. -/
def Ev.error : Ev → Option Int
  | .call _ r => if r = 0 then none else some r
  | .check ok => if ok then none else some 1
  | .failed _ => some (-1)
  | .alloc .. | .free .. => none

theorem Ev.error_ne {e : Ev} {r : Int} (h : e.error = some r) : r ≠ 0 := by
  cases e <;> simp only [Ev.error] at h
  · split at h
    · cases h
    · simp only [Option.some.injEq] at h; omega
  · split at h
    · cases h
    · simp only [Option.some.injEq] at h; omega
  · cases h
  · cases h
  · simp only [Option.some.injEq] at h; omega

/-- The result `r` is explained by the events `l`, and by an error `res` from before. -/
def Explains (res r : Int) (l : List Ev) : Prop :=
  (r = 0 → res = 0 ∧ ∀ e ∈ l, e.error = none) ∧ (r ≠ 0 → r = res ∨ ∃ e ∈ l, e.error = some r)

theorem Explains.append {a b c : Int} {l m : List Ev} (h1 : Explains a b l) (h2 : Explains b c m) : Explains a c (m ++ l) := by
  constructor
  · intro h
    have := h2.1 h
    have := h1.1 this.1
    exact ⟨this.1, by intro e he; rcases List.mem_append.mp he with he | he; exacts [(h2.1 h).2 e he, this.2 e he]⟩
  · intro h
    rcases h2.2 h with e | ⟨e, h3, h4⟩
    · subst e
      rcases h1.2 h with e | ⟨e, h3, h4⟩
      · exact .inl e
      · exact .inr ⟨e, List.mem_append.mpr (.inr h3), h4⟩
    · exact .inr ⟨e, List.mem_append.mpr (.inl h3), h4⟩

theorem Explains.quiet {a : Int} {l : List Ev} (h : ∀ e ∈ l, e.error = none) : Explains a a l := ⟨fun h1 => ⟨h1, h⟩, fun _ => .inl rfl⟩

/-- The error from before a job. -/
def Job.before : Job → Int
  | .par _ _ _ _ _ res _ => res
  | _ => 0

theorem St.release_log (st : St) (x : Nat) (o : Obj) : ∃ l, (st.release x o).log = l ++ st.log ∧ ∀ e ∈ l, ∃ h, e = .free x h := by
  simp only [St.release]
  split
  · split
    · exact ⟨[_], rfl, by simp⟩
    · exact ⟨[], rfl, by simp⟩
  · exact ⟨[], rfl, by simp⟩

theorem St.setOpt_log (st : St) (x : Option Nat) (v : Int) : (st.setOpt x v).log = st.log := by cases x <;> rfl

theorem explains_async {t r : Int} {l1 l2 l : List Ev} (h1 : Explains 0 t l1) (h2 : Explains 0 r l2) (hl : ∀ e, e ∈ l ↔ e ∈ l1 ∨ e ∈ l2) :
    Explains 0 (asyncResult t r) l := by
  unfold asyncResult
  by_cases h0 : t = 0
  · subst h0
    simp only [ne_eq, not_true_eq_false, if_false]
    refine ⟨fun h => ⟨rfl, fun e he => ?_⟩, fun h => ?_⟩
    · rcases (hl e).mp he with he | he
      · exact (h1.1 rfl).2 e he
      · exact (h2.1 h).2 e he
    · rcases h2.2 h with e | ⟨e, he, h'⟩
      · exact .inl e
      · exact .inr ⟨e, (hl e).mpr (.inr he), h'⟩
  · simp only [ne_eq, h0, not_false_eq_true, if_true]
    refine ⟨fun h => absurd h h0, fun _ => ?_⟩
    rcases h1.2 h0 with e | ⟨e, he, h'⟩
    · exact .inl e
    · exact .inr ⟨e, (hl e).mpr (.inl he), h'⟩

/-- The result of every job is explained by the events. -/
theorem Big.explains {cfg : Cfg} {j : Job} {st : St} {r : Int} {st' : St} (h : Big cfg j st r st') :
    ∃ l, st'.log = l ++ st.log ∧ Explains j.before r l := by
  induction h with
  | call t i o sc st =>
    refine ⟨[_], rfl, ?_⟩
    simp [Explains, Ev.error, Job.before, em]
  | nil | loopZero | serialDone | parDone => exact ⟨[], rfl, .quiet (by simp)⟩
  | allocOverflow | makeFail => exact ⟨[_], rfl, by simp [Explains, Ev.error]⟩
  | checkFail => exact ⟨[_], rfl, by simp [Explains, Ev.error]⟩
  | checkOk => exact ⟨[_], rfl, by simp [Explains, Ev.error, Job.before]⟩
  | checkFree => exact ⟨[_, _], rfl, by simp [Explains, Ev.error, Job.before]⟩
  | @allocNull x sto e ds body st h o ho =>
    obtain ⟨l, h1, h2⟩ := St.release_log ((st.emit (.alloc x h)).emit (.failed x)) x o
    refine ⟨l ++ [.failed x, .alloc x h], by rw [h1]; simp [St.emit], ⟨fun h => absurd h (by decide), fun _ => .inr ⟨.failed x, by simp, rfl⟩⟩⟩
  | lets h1 h2 h3 hb ih => exact ih
  | block hb ih => exact ih
  | consFail hb hr ih => exact ih
  | cons hb hs ih1 ih2 =>
    obtain ⟨l1, e1, f1⟩ := ih1
    obtain ⟨l2, e2, f2⟩ := ih2
    exact ⟨l2 ++ l1, by rw [e2, e1, List.append_assoc], f1.append f2⟩
  | loopOne hw hv hb ih => exact ih
  | loopPar hw hv hp ih => exact ih
  | loopSerial hs ih => exact ih
  | serialFail h hb hr ih => exact ih
  | serialNext h hb hs ih1 ih2 =>
    obtain ⟨l1, e1, f1⟩ := ih1
    obtain ⟨l2, e2, f2⟩ := ih2
    exact ⟨l2 ++ l1, by rw [e2, e1, List.append_assoc]; rfl, f1.append f2⟩
  | @parNext x mn step i w sch ctxs res body st r st' r' st'' hb hp ih1 ih2 =>
    obtain ⟨l1, e1, f1⟩ := ih1
    obtain ⟨l2, e2, f2⟩ := ih2
    refine ⟨l2 ++ l1, by rw [e2]; simp only; rw [e1, List.append_assoc], Explains.append (b := if res = 0 then r else res) ?_ f2⟩
    simp only [Job.before] at f1 ⊢
    by_cases h0 : res = 0
    · rw [if_pos h0, h0]; exact f1
    · rw [if_neg h0]; exact ⟨fun h => absurd h h0, fun _ => .inl rfl⟩
  | @allocHeap x sto e ds body st h o r st' o' ho hb ho' ih =>
    obtain ⟨l1, e1, f1⟩ := ih
    obtain ⟨l2, e2, f2⟩ := St.release_log (st.pop x st') x o'
    refine ⟨l2 ++ (l1 ++ [.alloc x h]), ?_, ?_⟩
    · rw [e2]
      show l2 ++ st'.log = _
      rw [e1]
      simp [St.push, St.emit, St.setObj, St.set]
    · have h1 : Explains 0 0 [Ev.alloc x h] := .quiet (by simp [Ev.error])
      exact (h1.append f1).append (.quiet (by intro e he; obtain ⟨_, rfl⟩ := f2 e he; rfl))
  | @allocStack x sto e ds body st o r st' o' ho hb ho' ih =>
    obtain ⟨l1, e1, f1⟩ := ih
    obtain ⟨l2, e2, f2⟩ := St.release_log (st.pop x st') x o'
    refine ⟨l2 ++ l1, ?_, ?_⟩
    · rw [e2]
      show l2 ++ st'.log = _
      rw [e1]
      simp [St.push, St.setObj, St.set]
    · exact f1.append (.quiet (by intro e he; obtain ⟨_, rfl⟩ := f2 e he; rfl))
  | obj ho hs hb ih => exact ih
  | inPlace hs ho h1 hu hb ho' ih => exact ih
  | same hs hb ih => exact ih
  | @asyncFirst x task body st t st1 h r st3 ht hb iht ihb =>
    obtain ⟨l1, e1, f1⟩ := iht
    obtain ⟨l2, e2, f2⟩ := ihb
    refine ⟨l2 ++ l1, by rw [St.setOpt_log, e2, St.setOpt_log, e1, List.append_assoc], explains_async f1 f2 (by simp [or_comm])⟩
  | @asyncAfter x task body st t st1 h r st3 hb ht ihb iht =>
    obtain ⟨l1, e1, f1⟩ := ihb
    obtain ⟨l2, e2, f2⟩ := iht
    refine ⟨l2 ++ l1, by rw [St.setOpt_log, e2, e1, St.setOpt_log, List.append_assoc], explains_async f2 f1 (by simp)⟩
  | @asyncLate x task body st t st1 h r st3 hb ht ihb iht =>
    obtain ⟨l1, e1, f1⟩ := ihb
    obtain ⟨l2, e2, f2⟩ := iht
    refine ⟨l2 ++ l1, by rw [St.setOpt_log, e2, St.setOpt_log, e1, St.setOpt_log, List.append_assoc], explains_async f2 f1 (by simp)⟩
  | new hb ih => exact ih
  | cloBody hb ih => exact ih
  | cloSame hb ih => exact ih

/-- **C33.** The result of the evaluation of any statement is 0 exactly if nothing failed while it was evaluated (no call returned an error, no check
failed, no allocation or `make_buffer` failed); otherwise it is the error of something that failed. -/
theorem exec_result {cfg : Cfg} {s : Stmt} (hw : s.WF) {st : St} {r : Int} {st' : St} (h : exec cfg s st = some (r, st')) :
    ∃ l, st'.log = l ++ st.log ∧ (r = 0 ↔ ∀ e ∈ l, e.error = none) ∧ (r ≠ 0 → ∃ e ∈ l, e.error = some r) := by
  obtain ⟨l, e, f⟩ := (exec_big hw h).explains
  have key : r ≠ 0 → ∃ e ∈ l, e.error = some r := by
    intro h0
    rcases f.2 h0 with e | e
    · exact absurd e h0
    · exact e
  refine ⟨l, e, ⟨fun h0 => (f.1 h0).2, fun hn => ?_⟩, key⟩
  by_contra h0
  obtain ⟨e, he, h1⟩ := key h0
  rw [hn e he] at h1
  cases h1

mutual
/-- No `async`, and the loops are serial. -/
def Stmt.Serial : Stmt → Prop
  | .loop _ w _ _ b => (∃ c, w = .const c ∧ c ≤ 1) ∧ b.Serial
  | .lets _ b _ | .allocate _ _ _ _ b | .makeBuffer _ _ _ _ b | .constantBuffer _ _ b | .cloneBuffer _ _ b
  | .cropBuffer _ _ _ b | .cropDim _ _ _ _ b | .sliceBuffer _ _ _ b | .sliceDim _ _ _ _ b | .transpose _ _ _ b => b.Serial
  | .block ss => ss.Serial
  | .async .. => False
  | .undef | .call .. | .copy .. | .check .. => True
/-- No `async`, and the loops are serial. -/
def Stmts.Serial : Stmts → Prop
  | .nil => True
  | .cons s ss => s.Serial ∧ ss.Serial
end

/-- The job is serial. -/
def Job.Serial : Job → Prop
  | .stmt s => s.Serial
  | .all ss => ss.Serial
  | .serial _ _ _ _ _ b => b.Serial
  | _ => False

theorem Stmt.isObj_serial {x : Nat} {body s : Stmt} (h : Stmt.isObj x body s) : s.Serial ↔ body.Serial := by
  cases s <;> simp only [Stmt.isObj] at h <;> first | (obtain ⟨_, rfl⟩ := h; simp only [Stmt.Serial]) | exact h.elim
theorem Stmt.isInPlace_serial {body s : Stmt} (h : Stmt.isInPlace body s) : s.Serial ↔ body.Serial := by
  cases s <;> simp only [Stmt.isInPlace] at h <;> first | (subst h; simp only [Stmt.Serial]) | exact h.elim

/-- The events, newest first: either no error and the result is 0, or an error that is the result and that is the last thing that happened,
except that allocations were freed. -/
def Stops (r : Int) (l : List Ev) : Prop :=
  (r = 0 ∧ ∀ e ∈ l, e.error = none) ∨
  ∃ post e pre, l = post ++ e :: pre ∧ (∀ f ∈ post, ∃ x h, f = .free x h) ∧ e.error = some r ∧ ∀ f ∈ pre, f.error = none

theorem Stops.append {r : Int} {l m : List Ev} (h1 : ∀ e ∈ l, e.error = none) (h2 : Stops r m) : Stops r (m ++ l) := by
  rcases h2 with ⟨h2, h3⟩ | ⟨post, e, pre, rfl, h3, h4, h5⟩
  · exact .inl ⟨h2, by intro e he; rcases List.mem_append.mp he with he | he; exacts [h3 e he, h1 e he]⟩
  · refine .inr ⟨post, e, pre ++ l, by simp, h3, h4, ?_⟩
    intro f hf; rcases List.mem_append.mp hf with hf | hf; exacts [h5 f hf, h1 f hf]

theorem Stops.frees {r : Int} {l m : List Ev} (h1 : Stops r l) (h2 : ∀ f ∈ m, ∃ x h, f = .free x h) : Stops r (m ++ l) := by
  rcases h1 with ⟨h1, h3⟩ | ⟨post, e, pre, rfl, h3, h4, h5⟩
  · refine .inl ⟨h1, ?_⟩
    intro e he; rcases List.mem_append.mp he with he | he
    · obtain ⟨_, _, rfl⟩ := h2 e he; rfl
    · exact h3 e he
  · refine .inr ⟨m ++ post, e, pre, by simp, ?_, h4, h5⟩
    intro f hf; rcases List.mem_append.mp hf with hf | hf; exacts [h2 f hf, h3 f hf]

theorem Stops.ok {l : List Ev} (h : Stops 0 l) : ∀ e ∈ l, e.error = none := by
  rcases h with h | ⟨_, e, _, _, _, h, _⟩
  · exact h.2
  · exact absurd rfl (Ev.error_ne h)

theorem Stops.single {e : Ev} {r : Int} (h : e.error = some r) : Stops r [e] := .inr ⟨[], e, [], rfl, by simp, h, by simp⟩

/-- Serial jobs stop at the first error. -/
theorem Big.stops {cfg : Cfg} {j : Job} {st : St} {r : Int} {st' : St} (h : Big cfg j st r st') : j.Serial → ∃ l, st'.log = l ++ st.log ∧ Stops r l := by
  induction h with
  | call t i o sc st =>
    intro _
    refine ⟨[_], rfl, ?_⟩
    by_cases h0 : cfg.call t i o sc st = 0
    · exact .inl ⟨h0, by simp [Ev.error, h0]⟩
    · exact .single (by simp [Ev.error, h0])
  | nil | loopZero | serialDone => intro _; exact ⟨[], rfl, .inl ⟨rfl, by simp⟩⟩
  | allocOverflow | makeFail | checkFail => intro _; exact ⟨[_], rfl, .single rfl⟩
  | checkOk => intro _; exact ⟨[_], rfl, .inl ⟨rfl, by simp [Ev.error]⟩⟩
  | checkFree => intro _; exact ⟨[_, _], rfl, .inl ⟨rfl, by simp [Ev.error]⟩⟩
  | @allocNull x sto e ds body st h o ho =>
    intro _
    obtain ⟨l, h1, h2⟩ := St.release_log ((st.emit (.alloc x h)).emit (.failed x)) x o
    exact ⟨l ++ [.failed x, .alloc x h], by rw [h1]; simp [St.emit],
      .inr ⟨l, .failed x, [.alloc x h], rfl, fun f hf => ⟨x, h2 f hf⟩, rfl, by simp [Ev.error]⟩⟩
  | lets h1 h2 h3 hb ih => intro hs; simp only [Job.Serial, Stmt.Serial] at hs; exact ih hs
  | block hb ih => intro hs; simp only [Job.Serial, Stmt.Serial] at hs; exact ih hs
  | consFail hb hr ih => intro hs; simp only [Job.Serial, Stmts.Serial] at hs; exact ih hs.1
  | cons hb hs ih1 ih2 =>
    intro hs
    simp only [Job.Serial, Stmts.Serial] at hs
    obtain ⟨l1, e1, f1⟩ := ih1 hs.1
    obtain ⟨l2, e2, f2⟩ := ih2 hs.2
    exact ⟨l2 ++ l1, by rw [e2, e1, List.append_assoc], f2.append f1.ok⟩
  | loopOne hw hv hb ih => intro hs; simp only [Job.Serial, Stmt.Serial] at hs; exact ih hs.2
  | loopPar hw hv hp ih =>
    intro hs
    simp only [Job.Serial, Stmt.Serial] at hs
    obtain ⟨⟨c, rfl, hc⟩, _⟩ := hs
    simp only [Cfg.eval, evalM, Option.some.injEq, Prod.mk.injEq] at hw
    omega
  | loopSerial hs ih => intro hs; simp only [Job.Serial, Stmt.Serial] at hs; exact ih hs.2
  | serialFail h hb hr ih => exact ih
  | serialNext h hb hs ih1 ih2 =>
    intro hs
    obtain ⟨l1, e1, f1⟩ := ih1 hs
    obtain ⟨l2, e2, f2⟩ := ih2 hs
    exact ⟨l2 ++ l1, by rw [e2, e1, List.append_assoc]; rfl, f2.append f1.ok⟩
  | parDone | parNext | new | cloBody | cloSame => intro hs; exact hs.elim
  | @allocHeap x sto e ds body st h o r st' o' ho hb ho' ih =>
    intro hs
    simp only [Job.Serial, Stmt.Serial] at hs
    obtain ⟨l1, e1, f1⟩ := ih hs
    obtain ⟨l2, e2, f2⟩ := St.release_log (st.pop x st') x o'
    refine ⟨l2 ++ (l1 ++ [.alloc x h]), ?_, (f1.append (by simp [Ev.error])).frees fun f hf => ⟨x, f2 f hf⟩⟩
    rw [e2]
    show l2 ++ st'.log = _
    rw [e1]
    simp [St.push, St.emit, St.setObj, St.set]
  | @allocStack x sto e ds body st o r st' o' ho hb ho' ih =>
    intro hs
    simp only [Job.Serial, Stmt.Serial] at hs
    obtain ⟨l1, e1, f1⟩ := ih hs
    obtain ⟨l2, e2, f2⟩ := St.release_log (st.pop x st') x o'
    refine ⟨l2 ++ l1, ?_, f1.frees fun f hf => ⟨x, f2 f hf⟩⟩
    rw [e2]
    show l2 ++ st'.log = _
    rw [e1]
    simp [St.push, St.setObj, St.set]
  | obj ho hs hb ih => intro h; exact ih ((Stmt.isObj_serial hs).mp h)
  | inPlace hs ho h1 hu hb ho' ih => intro h; exact ih ((Stmt.isInPlace_serial hs).mp h)
  | same hs hb ih => intro h; exact ih ((Stmt.isInPlace_serial hs).mp h)
  | asyncFirst | asyncAfter | asyncLate => intro hs; simp only [Job.Serial, Stmt.Serial] at hs

/-- **C33** for serial statements: nothing is called, checked or allocated after the first error (the allocations are given back), and that error is
the result. -/
theorem exec_stops {cfg : Cfg} {s : Stmt} (hw : s.WF) (hs : s.Serial) {st : St} {r : Int} {st' : St} (h : exec cfg s st = some (r, st')) (hr : r ≠ 0) :
    ∃ post e pre, st'.log = post ++ e :: pre ++ st.log ∧ e.error = some r ∧ (∀ f ∈ pre, f.error = none) ∧ ∀ f ∈ post, ∃ x h, f = .free x h := by
  obtain ⟨l, e, f⟩ := (exec_big hw h).stops hs
  rcases f with ⟨h0, _⟩ | ⟨post, ev, pre, rfl, h1, h2, h3⟩
  · exact absurd h0 hr
  · exact ⟨post, ev, pre, e, h2, h3, h1⟩

end Slinky
