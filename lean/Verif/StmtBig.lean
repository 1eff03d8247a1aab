import Verif.StmtSem

/-!
# A big-step relation for the evaluation of statements

One rule for each way a statement can be evaluated. `exec_big`: the relation covers everything that `exec` does on well-formed statements.
-/

namespace Slinky

/-- What is being evaluated: a statement, the statements of a block, the rest of a serial loop, the rest of the schedule of a parallel
loop, a statement or the body of a closure, or a statement in a new context. -/
inductive Job
  | stmt (s : Stmt)
  | all (ss : Stmts)
  | serial (x : Nat) (mn mx step i : Int) (body : Stmt)
  | par (x : Nat) (mn step : Int) (sch : List (Nat × Nat)) (ctxs : Nat → Env) (res : Int) (body : Stmt)
  | clo (s : Stmt)
  | new (s : Stmt)

/-- The job that `run` does. -/
def Job.of (skip : Bool) (s : Stmt) : Job := if skip then .clo s else .stmt s

/-- The object without the allocation. -/
def Obj.noAlloc (o : Obj) : Obj := { o with alloc := none }

/-- The state with a new object that a symbol points to. -/
def St.push (st : St) (x : Nat) (o : Obj) : St := { (st.setObj st.next (some o)).set x st.next with next := st.next + 1 }
/-- The state `st'` without the object that was pushed in `st`. -/
def St.pop (st : St) (x : Nat) (st' : St) : St := (st'.set x (st.ctx x)).setObj st.next none

/-- `undo` reverts what was done to `o` to get `o1`. -/
def Reverts (undo : Obj → Obj) (o o1 : Obj) : Prop :=
  ∀ o', o'.noAlloc = o1.noAlloc → (undo o').noAlloc = o.noAlloc ∧ (undo o').alloc = o'.alloc

/-- `allocation` is released at the end of the scope, unless it is null. -/
def St.release (st : St) (x : Nat) (o : Obj) : St := match o.alloc with
  | some h => if h ≠ 0 then st.emit (.free x h) else st
  | none => st

/-- The statements that make a new buffer object for `x` and run a body. -/
def Stmt.isObj (x : Nat) (body : Stmt) : Stmt → Prop
  | .makeBuffer y _ _ _ b | .constantBuffer y _ b | .cloneBuffer y _ b | .cropBuffer y _ _ b | .cropDim y _ _ _ b
  | .sliceBuffer y _ _ b | .sliceDim y _ _ _ b | .transpose y _ _ b => y = x ∧ b = body
  | _ => False
/-- The statements that modify a buffer object in place and run a body. -/
def Stmt.isInPlace (body : Stmt) : Stmt → Prop
  | .cropBuffer _ _ _ b | .cropDim _ _ _ _ b | .transpose _ _ _ b => b = body
  | _ => False

/-- The relation: job, state before, result, state after. -/
inductive Big (cfg : Cfg) : Job → St → Int → St → Prop
  | call (t i o sc st) : Big cfg (.stmt (.call t i o sc)) st (cfg.call t i o sc st) (st.emit (.call t (cfg.call t i o sc st)))
  | lets {bs body c st r st2 olds ctx1} (h1 : (olds.map Prod.fst).Nodup) (h2 : ∀ p ∈ olds, p.2 = st.ctx p.1)
      (h3 : ∀ y ∉ olds.map Prod.fst, ctx1 y = st.ctx y) (hb : Big cfg (.stmt body) { st with ctx := ctx1 } r st2) :
      Big cfg (.stmt (.lets bs body c)) st r (st2.restore olds)
  | block {ss st r st'} (hb : Big cfg (.all ss) st r st') : Big cfg (.stmt (.block ss)) st r st'
  | nil {st} : Big cfg (.all .nil) st 0 st
  | consFail {s ss st r st'} (hb : Big cfg (.stmt s) st r st') (hr : r ≠ 0) : Big cfg (.all (.cons s ss)) st r st'
  | cons {s ss st r st' st''} (hb : Big cfg (.stmt s) st 0 st') (hs : Big cfg (.all ss) st' r st'') : Big cfg (.all (.cons s ss)) st r st''
  | loopZero {x w b s body st v} (hw : cfg.eval st w = some (v, st)) (hv : v > 1) : Big cfg (.stmt (.loop x w b s body)) st 0 st
  | loopOne {x w b s body st v i r st'} (hw : cfg.eval st w = some (v, st)) (hv : v > 1) (hb : Big cfg (.stmt body) (st.set x i) r st') :
      Big cfg (.stmt (.loop x w b s body)) st r (st'.set x (st.ctx x))
  | loopPar {x w b s body st v sch ctxs mn step r st'} (hw : cfg.eval st w = some (v, st)) (hv : v > 1) (hp : Big cfg (.par x mn step sch ctxs 0 body) st r st') :
      Big cfg (.stmt (.loop x w b s body)) st r st'
  | loopSerial {x w b s body st mn mx step r st'} (hs : Big cfg (.serial x mn mx step mn body) (st.set x 0) r st') :
      Big cfg (.stmt (.loop x w b s body)) st r (st'.set x (st.ctx x))
  | serialDone {x mn mx step i body st} (h : ¬ (mn ≤ i ∧ i ≤ mx)) : Big cfg (.serial x mn mx step i body) st 0 st
  | serialFail {x mn mx step i body st r st'} (h : mn ≤ i ∧ i ≤ mx) (hb : Big cfg (.stmt body) (st.set x i) r st') (hr : r ≠ 0) :
      Big cfg (.serial x mn mx step i body) st r st'
  | serialNext {x mn mx step i body st r st' st''} (h : mn ≤ i ∧ i ≤ mx) (hb : Big cfg (.stmt body) (st.set x i) 0 st')
      (hs : Big cfg (.serial x mn mx step (i + step) body) st' r st'') : Big cfg (.serial x mn mx step i body) st r st''
  | parDone {x mn step ctxs res body st} : Big cfg (.par x mn step [] ctxs res body) st res st
  | parNext {x mn step i w sch ctxs res body st r st' r' st''} (hb : Big cfg (.clo body) { st with ctx := (ctxs w).set x (i * step + mn) } r st')
      (hp : Big cfg (.par x mn step sch (fun v => if v = w then st'.ctx else ctxs v) (if res = 0 then r else res) body) { st' with ctx := st.ctx } r' st'') :
      Big cfg (.par x mn step ((i, w) :: sch) ctxs res body) st r' st''
  | allocOverflow {x sto e ds body st} : Big cfg (.stmt (.allocate x sto e ds body)) st (-1) (st.emit (.failed x))
  | allocNull {x sto e ds body st h o} (ho : o.alloc = some h) :
      Big cfg (.stmt (.allocate x sto e ds body)) st (-1) (((st.emit (.alloc x h)).emit (.failed x)).release x o)
  | allocHeap {x sto e ds body st h o r st' o'} (ho : o.alloc = some h) (hb : Big cfg (.stmt body) ((st.emit (.alloc x h)).push x o) r st')
      (ho' : st'.objs st.next = some o') : Big cfg (.stmt (.allocate x sto e ds body)) st r (((st.pop x st').release x o'))
  | allocStack {x sto e ds body st o r st' o'} (ho : o.alloc = some 0) (hb : Big cfg (.stmt body) (st.push x o) r st')
      (ho' : st'.objs st.next = some o') : Big cfg (.stmt (.allocate x sto e ds body)) st r (((st.pop x st').release x o'))
  | makeFail {x p e ds body st} : Big cfg (.stmt (.makeBuffer x p e ds body)) st (-1) (st.emit (.failed x))
  | obj {s x body st o r st'} (ho : o.alloc = none) (hs : Stmt.isObj x body s) (hb : Big cfg (.stmt body) (st.push x o) r st') :
      Big cfg (.stmt s) st r (st.pop x st')
  | inPlace {s body st a o o1 undo r st' o'} (hs : Stmt.isInPlace body s) (ho : st.objs a = some o) (h1 : o1.alloc = o.alloc) (hu : Reverts undo o o1)
      (hb : Big cfg (.stmt body) (st.setObj a (some o1)) r st') (ho' : st'.objs a = some o') :
      Big cfg (.stmt s) st r (st'.setObj a (some (undo o')))
  | same {s body st r st'} (hs : Stmt.isInPlace body s) (hb : Big cfg (.stmt body) st r st') : Big cfg (.stmt s) st r st'
  | asyncFirst {x task body st t st1 h r st3} (ht : Big cfg (.new task) st t st1) (hb : Big cfg (.new body) (st1.setOpt x h) r st3) :
      Big cfg (.stmt (.async x task body)) st (asyncResult t r) (st3.setOpt x 0)
  | asyncAfter {x task body st t st1 h r st3} (hb : Big cfg (.new body) (st.setOpt x h) r st1) (ht : Big cfg (.new task) st1 t st3) :
      Big cfg (.stmt (.async x task body)) st (asyncResult t r) (st3.setOpt x 0)
  | asyncLate {x task body st t st1 h r st3} (hb : Big cfg (.new body) (st.setOpt x h) r st1) (ht : Big cfg (.new task) (st1.setOpt x 0) t st3) :
      Big cfg (.stmt (.async x task body)) st (asyncResult t r) (st3.setOpt x 0)
  | new {s st init r st'} (hb : Big cfg (.clo s) { st with ctx := init } r st') : Big cfg (.new s) st r { st' with ctx := st.ctx }
  | cloBody {bs body st r st'} (hb : Big cfg (.stmt body) st r st') : Big cfg (.clo (.lets bs body true)) st r st'
  | cloSame {s st r st'} (hb : Big cfg (.stmt s) st r st') : Big cfg (.clo s) st r st'
  | checkFree {x d st o h} (ho : st.obj? (st.ctx x) = some o) (hh : o.alloc = some h) :
      Big cfg (.stmt (.check (.call .free (.cons (.var x .none d) .nil)))) st 0
        (((st.emit (.free x h)).setObj (st.ctx x).toNat (some { o with alloc := some 0 })).emit (.check true))
  | checkFail {c st} : Big cfg (.stmt (.check c)) st 1 (st.emit (.check false))
  | checkOk {c st} : Big cfg (.stmt (.check c)) st 0 (st.emit (.check true))

/-! ## `exec` is covered by the rules -/

theorem St.setObj_setObj (st : St) (a : Nat) (o o' : Option Obj) : (st.setObj a o).setObj a o' = st.setObj a o' := by
  simp only [St.setObj]
  congr 1
  funext b
  split <;> rfl

theorem St.setObj_same {st : St} {a : Nat} {o : Obj} (h : st.objs a = some o) : st.setObj a (some o) = st := by
  simp only [St.setObj]
  have : (fun b => if b = a then some o else st.objs b) = st.objs := by
    funext b
    split
    · rename_i e; rw [e, h]
    · rfl
  rw [this]

theorem St.setObj_get (st : St) (a : Nat) (o : Option Obj) : (st.setObj a o).objs a = o := by simp [St.setObj]

/-- The first `n` dimensions of two arrays may differ in their bounds, the others are equal. -/
def CB : Nat → List Dim → List Dim → Prop
  | 0, s, s' => s' = s
  | _ + 1, [], s' => s' = []
  | _ + 1, _ :: _, [] => False
  | n + 1, d :: s, d' :: s' => d'.stride = d.stride ∧ d'.fold = d.fold ∧ CB n s s'

theorem CB.refl : ∀ (n : Nat) (s : List Dim), CB n s s
  | 0, _ => rfl
  | _ + 1, [] => rfl
  | n + 1, _ :: s => ⟨rfl, rfl, CB.refl n s⟩

theorem CB.modify (mn mx : Int) : ∀ {n i : Nat} {s s' : List Dim}, CB n s s' → i < n → CB n s (s'.modify i fun d => { d with min := mn, max := mx })
  | 0, _, _, _, _, h => absurd h (by omega)
  | _ + 1, i, [], s', h, _ => by
    have : s' = [] := h
    subst this
    cases i <;> simp [CB]
  | _ + 1, _, _ :: _, [], h, _ => h.elim
  | n + 1, 0, _ :: _, _ :: _, h, _ => by
    simpa [CB] using h
  | n + 1, i + 1, _ :: _, _ :: _, h, hi => by
    simp only [List.modify_succ_cons]
    exact ⟨h.1, h.2.1, CB.modify mn mx h.2.2 (by omega)⟩

theorem CB.restore : ∀ {n : Nat} {s s' : List Dim}, CB n s s' → restoreBounds s' ((s.take n).map fun d => (d.min, d.max)) = s
  | 0, s, s', h => by
    have : s' = s := h
    subst this
    cases s' <;> simp [restoreBounds]
  | n + 1, [], s', h => by
    have : s' = [] := h
    subst this
    simp [restoreBounds]
  | n + 1, d :: s, [], h => h.elim
  | n + 1, d :: s, d' :: s', h => by
    simp only [List.take_succ_cons, List.map_cons, restoreBounds]
    rw [CB.restore h.2.2]
    have h1 := h.1
    have h2 := h.2.1
    cases d; cases d'
    simp_all

theorem Obj.crop_store (o : Obj) (d : Nat) (mn mx : Int) : ∃ mn' mx', (o.setBuf (o.buf.crop d mn mx)).store =
    if d < o.rank then o.store.modify d fun x => { x with min := mn', max := mx' } else o.store := by
  unfold Buf.crop
  split
  · rename_i h
    have e : (o.setBuf o.buf).store = o.store := by simp [Obj.setBuf, Obj.buf]
    refine ⟨0, 0, ?_⟩
    rw [e]
    split
    · have : o.store.length ≤ d := by simp [Obj.buf, Buf.rank] at h; omega
      rw [List.modify_eq_set_getElem?]
      simp [List.getElem?_eq_none this]
    · rfl
  · rename_i h
    simp only [Buf.rank, Obj.buf, List.length_take, ge_iff_le, not_le] at h
    have hd : d < o.store.length := by omega
    have hr : d < o.rank := by omega
    refine ⟨max mn (o.buf.dim d).min, min mx (o.buf.dim d).max, ?_⟩
    rw [if_pos hr]
    simp only [Obj.setBuf, Obj.buf]
    rw [List.modify_eq_set_getElem?, List.getElem?_eq_getElem hd]
    simp only [Option.map_eq_map, Option.map_some, Option.getD_some]
    rw [← List.take_append_drop o.rank (o.store.set d _), List.take_set, List.drop_set, if_pos hr]
    have : (⟨o.base, o.elem, o.store.take o.rank⟩ : Buf).dim d = o.store[d] := by
      simp [Buf.dim, List.getElem?_take, hr, hd]
    rw [this]

theorem Obj.crop_rest (o : Obj) (d : Nat) (mn mx : Int) : (o.setBuf (o.buf.crop d mn mx)).alloc = o.alloc ∧
    (o.setBuf (o.buf.crop d mn mx)).rank = o.rank ∧ (o.setBuf (o.buf.crop d mn mx)).elem = o.elem := by
  refine ⟨rfl, rfl, ?_⟩
  simp only [Obj.setBuf, Buf.crop]
  split <;> rfl

theorem Cfg.cropAll_state {cfg : Cfg} {a : Nat} {s0 : List Dim} : ∀ {l : List Interval} {d : Nat} {st st1 : St} {o : Obj}, (∀ i ∈ l, i.EndsWF) →
    st.objs a = some o → cfg.cropAll a d l st = some st1 → CB (min (d + l.length) o.rank) s0 o.store →
    ∃ o1, st1 = st.setObj a (some o1) ∧ o1.alloc = o.alloc ∧ o1.rank = o.rank ∧ o1.elem = o.elem ∧ CB (min (d + l.length) o.rank) s0 o1.store
  | [], _, st, st1, o, _, ho, h, hc => by
    simp [Cfg.cropAll] at h
    exact ⟨o, by rw [← h, St.setObj_same ho], rfl, rfl, rfl, hc⟩
  | i :: l, d, st, st1, o, hw, ho, h, hc => by
    simp only [Cfg.cropAll, ho] at h
    split at h
    · rename_i hd
      simp only [Option.bind_eq_bind, Option.bind_eq_some_iff, Prod.exists] at h
      obtain ⟨x, y, st2, h1, h2⟩ := h
      have := Cfg.evalIvDef_state (hw i (by simp)) h1
      subst this
      obtain ⟨e1, e2, e3⟩ := o.crop_rest d x y
      obtain ⟨mn, mx, e4⟩ := o.crop_store d x y
      rw [if_pos hd] at e4
      have hlen : d + (i :: l).length = d + 1 + l.length := by simp; omega
      obtain ⟨o1, f1, f2, f3, f4, f5⟩ := Cfg.cropAll_state (fun x hx => hw x (by simp [hx])) (St.setObj_get _ _ _) h2
        (by
          rw [e2, e4, ← hlen]
          refine hc.modify mn mx ?_
          simp; omega)
      refine ⟨o1, by rw [f1, St.setObj_setObj], by rw [f2, e1], by rw [f3, e2], by rw [f4, e3], ?_⟩
      rw [hlen, ← e2]
      exact f5
    · simp at h
      exact ⟨o, by rw [← h, St.setObj_same ho], rfl, rfl, rfl, hc⟩

theorem reverts_cropAll {o o1 : Obj} {n : Nat} (h1 : o1.rank = o.rank) (h2 : o1.elem = o.elem) (h3 : CB (min n o.rank) o.store o1.store) :
    Reverts (fun o' => { o' with base := o.base, store := restoreBounds o'.store ((o.buf.dims.take n).map fun d => (d.min, d.max)) }) o o1 := by
  intro o' ho'
  simp only [Obj.noAlloc, Obj.mk.injEq] at ho'
  obtain ⟨_, e1, e2, e3, _⟩ := ho'
  refine ⟨?_, rfl⟩
  simp only [Obj.noAlloc, Obj.buf, List.take_take]
  rw [e2, h3.restore, e1, h2, e3, h1]

theorem reverts_crop {o : Obj} {d : Nat} (mn mx : Int) (hd : d < o.rank) :
    Reverts (fun o' => { o' with base := o.base, store := o'.store.modify d fun d' => { d' with min := (o.buf.dim d).min, max := (o.buf.dim d).max } }) o
      (o.setBuf (o.buf.crop d mn mx)) := by
  intro o' ho'
  obtain ⟨e1, e2, e3⟩ := o.crop_rest d mn mx
  obtain ⟨a, b, e4⟩ := o.crop_store d mn mx
  rw [if_pos hd] at e4
  simp only [Obj.noAlloc, Obj.mk.injEq] at ho'
  obtain ⟨_, f1, f2, f3, _⟩ := ho'
  refine ⟨?_, rfl⟩
  simp only [Obj.noAlloc]
  rw [f2, e4, f1, e3, f3, e2]
  congr 1
  by_cases hl : d < o.store.length
  · rw [List.modify_eq_set_getElem?, List.modify_eq_set_getElem?]
    simp only [Obj.buf, Buf.dim, List.getElem?_take, hd, if_true, List.getElem?_eq_getElem hl, Option.getD_some, Option.map_eq_map, Option.map_some,
      List.getElem?_set_self hl, List.set_set]
    exact List.set_getElem_self hl
  · rw [List.modify_eq_set_getElem?, List.modify_eq_set_getElem?]
    simp [List.getElem?_eq_none (by omega : o.store.length ≤ d)]

end Slinky
