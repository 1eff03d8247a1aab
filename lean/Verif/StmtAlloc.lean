import Verif.StmtProps
import Mathlib.Algebra.BigOperators.Group.Finset.Basic
import Mathlib.Algebra.BigOperators.Group.Finset.Piecewise
import Mathlib.Algebra.BigOperators.Intervals

/-!
# C34: allocations are given back exactly once
-/

namespace Slinky

open Finset

/-- How often `config->allocate` returned `h`. -/
def allocs (h : Int) (log : List Ev) : Nat := log.countP fun e => match e with
  | .alloc _ g => g == h
  | _ => false
/-- How often `config->free` was called with `h`. -/
def frees (h : Int) (log : List Ev) : Nat := log.countP fun e => match e with
  | .free _ g => g == h
  | _ => false

/-- The allocation that an object owns. -/
def St.owns (st : St) (a : Nat) : Option Int := (st.objs a).bind Obj.alloc

/-- How many objects own the allocation `h`. -/
def St.live (st : St) (h : Int) : Nat := ∑ a ∈ range st.next, if st.owns a = some h then 1 else 0

/-- At every moment, every allocation was given back at most as often as it was made. -/
def NoDoubleFree (log : List Ev) : Prop := ∀ l, l <:+ log → ∀ h ≠ 0, frees h l ≤ allocs h l

/-- The allocations that were not given back are owned by objects. -/
structure Bal (st : St) : Prop where
  fresh : st.Fresh
  ok : NoDoubleFree st.log
  eq : ∀ h ≠ 0, frees h st.log + st.live h = allocs h st.log

/-- The owner of an allocation can only give it up. -/
def OwnsLess (st st' : St) : Prop := ∀ a, st'.owns a = st.owns a ∨ (st.owns a ≠ none ∧ st'.owns a = some 0)

theorem OwnsLess.refl (st : St) : OwnsLess st st := fun _ => .inl rfl
theorem OwnsLess.trans {a b c : St} (h1 : OwnsLess a b) (h2 : OwnsLess b c) : OwnsLess a c := by
  intro x
  rcases h2 x with h | ⟨h, h'⟩
  · rw [h]; exact h1 x
  · refine .inr ⟨?_, h'⟩
    rcases h1 x with e | ⟨e, _⟩
    · rw [← e]; exact h
    · exact e

theorem NoDoubleFree.cons {log : List Ev} {e : Ev} (h : NoDoubleFree log) (he : ∀ h ≠ 0, frees h (e :: log) ≤ allocs h (e :: log)) : NoDoubleFree (e :: log) := by
  intro l hl
  rcases List.suffix_cons_iff.mp hl with rfl | hl
  · exact he
  · exact h l hl

theorem live_congr {st st' : St} (h1 : st'.objs = st.objs) (h2 : st'.next = st.next) (h : Int) : st'.live h = st.live h := by
  have : st'.owns = st.owns := by funext a; rw [St.owns, St.owns, h1]
  rw [St.live, St.live, this, h2]

theorem live_setObj {st : St} {a : Nat} (ha : a < st.next) (o : Option Obj) (h : Int) :
    (st.setObj a o).live h + (if st.owns a = some h then 1 else 0) = st.live h + (if o.bind Obj.alloc = some h then 1 else 0) := by
  have hm : a ∈ range st.next := by simpa using ha
  simp only [St.live]
  rw [show (st.setObj a o).next = st.next from rfl, ← add_sum_erase _ _ hm, ← add_sum_erase (range st.next) (fun a => if st.owns a = some h then 1 else 0) hm]
  have e1 : (st.setObj a o).owns a = o.bind Obj.alloc := by simp [St.owns, St.setObj]
  have e2 : ∑ x ∈ (range st.next).erase a, (if (st.setObj a o).owns x = some h then 1 else 0) = ∑ x ∈ (range st.next).erase a, (if st.owns x = some h then 1 else 0) := by
    refine sum_congr rfl fun x hx => ?_
    have : x ≠ a := ne_of_mem_erase hx
    have : (st.setObj a o).owns x = st.owns x := by simp [St.owns, St.setObj, this]
    rw [this]
  rw [e1, e2]
  omega

theorem live_push {st : St} (x : Nat) (o : Obj) (h : Int) : (st.push x o).live h = st.live h + (if o.alloc = some h then 1 else 0) := by
  simp only [St.live]
  rw [show (st.push x o).next = st.next + 1 from rfl, sum_range_succ]
  congr 1
  · refine sum_congr rfl fun a ha => ?_
    have : a ≠ st.next := by simp at ha; omega
    have : (st.push x o).owns a = st.owns a := by simp [St.owns, St.push, St.setObj, St.set, this]
    rw [this]
  · simp [St.owns, St.push, St.setObj, St.set]

theorem Bal.congr {st st' : St} (h : Bal st) (h1 : st'.objs = st.objs) (h2 : st'.next = st.next) (h3 : st'.log = st.log) : Bal st' :=
  ⟨Fresh.congr h.fresh h1 h2, by rw [h3]; exact h.ok, fun g hg => by rw [h3, live_congr h1 h2]; exact h.eq g hg⟩

theorem OwnsLess.congr {a b a' b' : St} (h : OwnsLess a b) (h1 : a'.objs = a.objs) (h2 : b'.objs = b.objs) : OwnsLess a' b' := by
  intro x; have := h x; simp only [St.owns, h1, h2] at this ⊢; exact this

/-- An event that is not about allocations. -/
theorem Bal.emit {st : St} (h : Bal st) (e : Ev) (h1 : ∀ x g, e ≠ .alloc x g) (h2 : ∀ x g, e ≠ .free x g) : Bal (st.emit e) := by
  have e1 : ∀ g, frees g (e :: st.log) = frees g st.log := by
    intro g; cases e <;> simp [frees] at h2 ⊢
  have e2 : ∀ g, allocs g (e :: st.log) = allocs g st.log := by
    intro g; cases e <;> simp [allocs] at h1 ⊢
  refine ⟨h.fresh, h.ok.cons ?_, ?_⟩
  · intro g hg; rw [e1, e2]; have := h.eq g hg; omega
  · intro g hg
    show frees g (e :: st.log) + st.live g = allocs g (e :: st.log)
    rw [e1, e2]; exact h.eq g hg

theorem frees_free (x : Nat) (g h : Int) (l : List Ev) : frees h (.free x g :: l) = frees h l + (if g = h then 1 else 0) := by
  by_cases e : g = h <;> simp [frees, e]
theorem allocs_free (x : Nat) (g h : Int) (l : List Ev) : allocs h (.free x g :: l) = allocs h l := by simp [allocs]
theorem allocs_alloc (x : Nat) (g h : Int) (l : List Ev) : allocs h (.alloc x g :: l) = allocs h l + (if g = h then 1 else 0) := by
  by_cases e : g = h <;> simp [allocs, e]
theorem frees_alloc (x : Nat) (g h : Int) (l : List Ev) : frees h (.alloc x g :: l) = frees h l := by simp [frees]

/-- An object with a new allocation. -/
theorem Bal.allocPush {st : St} (h : Bal st) (x : Nat) (g : Int) {o : Obj} (ho : o.alloc = some g) : Bal ((st.emit (.alloc x g)).push x o) := by
  refine ⟨Fresh.push (st := st.emit (.alloc x g)) h.fresh x o, ?_, ?_⟩
  · refine h.ok.cons ?_
    intro k hk
    rw [frees_alloc, allocs_alloc]
    have := h.eq k hk
    omega
  · intro k hk
    rw [live_push, ho]
    show frees k (.alloc x g :: st.log) + _ = allocs k (.alloc x g :: st.log)
    rw [frees_alloc, allocs_alloc, live_congr (st := st) (st' := st.emit (.alloc x g)) rfl rfl]
    have := h.eq k hk
    simp only [Option.some.injEq]
    omega

theorem Bal.push {st : St} (h : Bal st) (x : Nat) {o : Obj} (ho : ∀ g ≠ 0, o.alloc ≠ some g) : Bal (st.push x o) := by
  refine ⟨Fresh.push h.fresh x o, h.ok, ?_⟩
  intro k hk
  rw [live_push, if_neg (ho k hk)]
  exact h.eq k hk

/-- An object that goes away and gives back its allocation. -/
theorem Bal.popRelease {st st' : St} (x : Nat) {o : Obj} (h : Bal st') (hn : st.next < st'.next) (ho : st'.objs st.next = some o) :
    Bal ((st.pop x st').release x o) := by
  have hf : (st.pop x st').Fresh := by
    intro a ha
    simp only [St.pop, St.setObj, St.set] at ha ⊢
    split
    · rfl
    · exact h.fresh a ha
  have hl : ∀ k, (st.pop x st').live k + (if o.alloc = some k then 1 else 0) = st'.live k := by
    intro k
    have := live_setObj (st := st'.set x (st.ctx x)) (a := st.next) hn none k
    simp only [Option.bind_none, reduceCtorEq, if_false, add_zero] at this
    rw [live_congr (st := st') (st' := st'.set x (st.ctx x)) rfl rfl] at this
    rw [← this]
    simp [St.pop, St.owns, St.set, ho]
  refine ⟨Fresh.congr hf (St.release_objs _ _ _).1 (St.release_objs _ _ _).2, ?_, ?_⟩
  · simp only [St.release]
    split
    · rename_i g hg
      split
      · refine NoDoubleFree.cons (log := st'.log) h.ok ?_
        intro k hk
        show frees k (.free x g :: st'.log) ≤ allocs k (.free x g :: st'.log)
        rw [frees_free, allocs_free]
        have := h.eq k hk
        have := hl k
        simp only [hg, Option.some.injEq] at this
        omega
      · exact h.ok
    · exact h.ok
  · intro k hk
    rw [live_congr (St.release_objs _ _ _).1 (St.release_objs _ _ _).2]
    have h1 := hl k
    have h2 := h.eq k hk
    simp only [St.release]
    split
    · rename_i g hg
      simp only [hg, Option.some.injEq] at h1
      split
      · show frees k (.free x g :: st'.log) + _ = allocs k (.free x g :: st'.log)
        rw [frees_free, allocs_free]
        omega
      · rename_i h0
        simp only [ne_eq, not_not] at h0
        rw [if_neg (by omega)] at h1
        show frees k st'.log + _ = allocs k st'.log
        omega
    · rename_i hg
      simp only [hg, reduceCtorEq, if_false] at h1
      show frees k st'.log + _ = allocs k st'.log
      omega

theorem OwnsLess.pop {st st' : St} {x : Nat} {o : Obj} (hf : st.Fresh) (h : OwnsLess (st.push x o) st') : OwnsLess st (st.pop x st') := by
  intro a
  have := h a
  simp only [St.owns, St.push, St.pop, St.setObj, St.set] at this ⊢
  split
  · rename_i e; subst e; left; rw [hf _ (le_refl _)]
  · rename_i e; rw [if_neg e] at this; exact this

/-- Without an allocation there is nothing to release. -/
theorem popRelease_none {st st' : St} (x : Nat) {o : Obj} (ho : o.alloc = none) : (st.pop x st').release x o = st.pop x st' := by
  simp [St.release, ho]

/-- Every job keeps the balance. -/
theorem Big.bal {cfg : Cfg} {j : Job} {st : St} {r : Int} {st' : St} (h : Big cfg j st r st') : Bal st → Bal st' ∧ OwnsLess st st' := by
  induction h with
  | call | checkFail | checkOk | makeFail | allocOverflow => intro hb; exact ⟨hb.emit _ (by simp) (by simp), fun _ => .inl rfl⟩
  | nil | loopZero | serialDone | parDone => intro hb; exact ⟨hb, .refl _⟩
  | @checkFree x d st o h ho hh =>
    intro hb
    have ho2 : st.objs (st.ctx x).toNat = some o := by
      unfold St.obj? at ho
      split at ho
      · cases ho
      · exact ho
    have hn : (st.ctx x).toNat < st.next := by
      by_contra hn
      rw [hb.fresh _ (by omega)] at ho2
      cases ho2
    have ow : st.owns (st.ctx x).toNat = some h := by simp [St.owns, ho2, hh]
    have hl : ∀ k, k ≠ 0 → (st.setObj (st.ctx x).toNat (some { o with alloc := some 0 })).live k + (if h = k then 1 else 0) = st.live k := by
      intro k hk
      have := live_setObj hn (some { o with alloc := some 0 }) k
      simp only [ow, Option.bind_some, Option.some.injEq] at this
      rw [if_neg (Ne.symm hk)] at this
      omega
    constructor
    · refine Bal.emit ?_ _ (by simp) (by simp)
      refine ⟨?_, ?_, ?_⟩
      · intro a ha
        simp only [St.setObj, St.emit] at ha ⊢
        rw [if_neg (by omega)]
        exact hb.fresh a ha
      · refine hb.ok.cons ?_
        intro k hk
        rw [frees_free, allocs_free]
        have := hb.eq k hk
        have := hl k hk
        omega
      · intro k hk
        have h1 := hl k hk
        have h2 := hb.eq k hk
        have h3 : ((st.emit (.free x h)).setObj (st.ctx x).toNat (some { o with alloc := some 0 })).live k = (st.setObj (st.ctx x).toNat (some { o with alloc := some 0 })).live k :=
          live_congr rfl rfl k
        rw [h3]
        show frees k (.free x h :: st.log) + _ = allocs k (.free x h :: st.log)
        rw [frees_free, allocs_free]
        omega
    · intro a
      by_cases e : a = (st.ctx x).toNat
      · subst e
        right
        exact ⟨by rw [ow]; simp, by simp [St.owns, St.setObj, St.emit]⟩
      · left
        simp [St.owns, St.setObj, St.emit, e]
  | @allocNull x sto e ds body st h o ho =>
    intro hb
    refine ⟨?_, fun a => .inl (by simp only [St.owns, (St.release_objs _ _ _).1]; rfl)⟩
    -- as if the object had existed
    have b1 := (hb.allocPush x h ho).emit (.failed x) (by simp) (by simp)
    have b2 := b1.popRelease (st := st) x (o := o) (by simp [St.push, St.emit]) (by simp [St.push, St.emit, St.setObj, St.set])
    have hne : st.objs = ((st.pop x ((st.emit (.alloc x h)).push x o |>.emit (.failed x)))).objs := by
      funext a
      simp only [St.pop, St.setObj, St.set, St.push, St.emit]
      split
      · rename_i e; subst e; exact hb.fresh _ (le_refl _)
      · rename_i e; exact (if_neg e).symm
    refine ⟨Fresh.congr hb.fresh (St.release_objs _ _ _).1 (St.release_objs _ _ _).2, ?_, ?_⟩
    · have := b2.ok
      simp only [St.release, ho] at this ⊢
      split at this
      · rw [if_pos (by assumption)]; exact this
      · rw [if_neg (by assumption)]; exact this
    · intro k hk
      have := b2.eq k hk
      rw [live_congr (St.release_objs _ _ _).1 (St.release_objs _ _ _).2] at this ⊢
      have e1 : (st.pop x ((st.emit (.alloc x h)).push x o |>.emit (.failed x))).live k = ((st.emit (.alloc x h)).emit (.failed x)).live k := by
        have h1 : (st.pop x ((st.emit (.alloc x h)).push x o |>.emit (.failed x))).owns = st.owns := by funext a; rw [St.owns, St.owns, hne]
        have h2 : st.owns st.next = none := by rw [St.owns, hb.fresh _ (le_refl _)]; rfl
        rw [live_congr (st := st) (st' := (st.emit (.alloc x h)).emit (.failed x)) rfl rfl, St.live, St.live, h1]
        show ∑ a ∈ range (st.next + 1), _ = ∑ a ∈ range st.next, _
        rw [sum_range_succ, h2]
        simp
      rw [e1] at this
      rw [← (show (((st.pop x ((st.emit (.alloc x h)).push x o |>.emit (.failed x))).release x o).log = (((st.emit (.alloc x h)).emit (.failed x)).release x o).log) by
        simp only [St.release, ho]; split <;> rfl)]
      exact this
  | lets h1 h2 h3 hb ih => intro h; exact ⟨(ih (h.congr rfl rfl rfl)).1.congr rfl rfl rfl, (ih (h.congr rfl rfl rfl)).2.congr rfl rfl⟩
  | block hb ih => exact ih
  | consFail hb hr ih => exact ih
  | cons hb hs ih1 ih2 => intro h; exact ⟨(ih2 (ih1 h).1).1, (ih1 h).2.trans (ih2 (ih1 h).1).2⟩
  | loopOne hw hv hb ih => intro h; exact ⟨(ih (h.congr rfl rfl rfl)).1.congr rfl rfl rfl, (ih (h.congr rfl rfl rfl)).2.congr rfl rfl⟩
  | loopPar hw hv hp ih => exact ih
  | loopSerial hs ih => intro h; exact ⟨(ih (h.congr rfl rfl rfl)).1.congr rfl rfl rfl, (ih (h.congr rfl rfl rfl)).2.congr rfl rfl⟩
  | serialFail h hb hr ih => intro h; exact ⟨(ih (h.congr rfl rfl rfl)).1.congr rfl rfl rfl, (ih (h.congr rfl rfl rfl)).2.congr rfl rfl⟩
  | serialNext h hb hs ih1 ih2 =>
    intro h
    have k1 := ih1 (h.congr rfl rfl rfl)
    have k2 := ih2 k1.1
    exact ⟨k2.1, (k1.2.congr rfl rfl).trans k2.2⟩
  | parNext hb hp ih1 ih2 =>
    intro h
    have k1 := ih1 (h.congr rfl rfl rfl)
    have k2 := ih2 (k1.1.congr rfl rfl rfl)
    exact ⟨k2.1, (k1.2.trans (k2.2.congr rfl rfl)).congr rfl rfl⟩
  | @allocHeap x sto e ds body st h o r st' o' ho hb ho' ih =>
    intro h1
    have k := ih (h1.allocPush x h ho)
    have hn : st.next < st'.next := (hb.keep (h1.allocPush x h ho).fresh).next
    refine ⟨k.1.popRelease x hn ho', ?_⟩
    exact (OwnsLess.pop (st := st.emit (.alloc x h)) h1.fresh k.2).congr rfl (by rw [(St.release_objs _ _ _).1]; rfl)
  | @allocStack x sto e ds body st o r st' o' ho hb ho' ih =>
    intro h1
    have hp : Bal (st.push x o) := h1.push x (by rw [ho]; intro g hg; simpa using Ne.symm hg)
    have k := ih hp
    have hn : st.next < st'.next := (hb.keep hp.fresh).next
    exact ⟨k.1.popRelease x hn ho', (OwnsLess.pop h1.fresh k.2).congr rfl (by rw [(St.release_objs _ _ _).1])⟩
  | @obj s x body st o r st' ho hs hb ih =>
    intro h1
    have hp : Bal (st.push x o) := h1.push x (by rw [ho]; simp)
    have k := ih hp
    have kk := hb.keep hp.fresh
    have hn : st.next < st'.next := kk.next
    have hob := kk.objs st.next
    have how := k.2 st.next
    simp only [St.push, St.setObj, St.set, if_true, Option.map_some, Option.map_eq_some_iff] at hob
    obtain ⟨o', e1, e2⟩ := hob
    have e3 : o'.alloc = none := by
      rcases how with h | ⟨h, _⟩
      · simpa [St.owns, e1, St.push, St.setObj, St.set, ho] using h
      · simp [St.owns, St.push, St.setObj, St.set, ho] at h
    have := k.1.popRelease x hn e1
    rw [popRelease_none x e3] at this
    exact ⟨this, OwnsLess.pop h1.fresh k.2⟩
  | @inPlace s body st a o o1 undo r st' o' hs ho h1 hu hb ho' ih =>
    intro h
    have ha : a < st.next := by
      by_contra hn
      rw [h.fresh a (by omega)] at ho
      cases ho
    have b1 : Bal (st.setObj a (some o1)) := by
      refine ⟨?_, h.ok, ?_⟩
      · intro b hb
        simp only [St.setObj] at hb ⊢
        rw [if_neg (by omega)]
        exact h.fresh b hb
      · intro k hk
        have := live_setObj ha (some o1) k
        simp only [St.owns, ho, Option.bind_some, h1] at this
        have h2 := h.eq k hk
        show frees k st.log + _ = allocs k st.log
        omega
    have k := ih b1
    have kk := hb.keep b1.fresh
    have hn : a < st'.next := lt_of_lt_of_le ha kk.next
    have e1 : (undo o').alloc = o'.alloc := by
      have hob := kk.objs a
      simp only [St.setObj, if_true, ho', Option.map_some, Option.some.injEq] at hob
      exact (hu o' hob).2
    refine ⟨⟨?_, k.1.ok, ?_⟩, ?_⟩
    · intro b hb
      simp only [St.setObj] at hb ⊢
      rw [if_neg (by omega)]
      exact k.1.fresh b hb
    · intro g hg
      have := live_setObj hn (some (undo o')) g
      simp only [St.owns, ho', Option.bind_some, e1] at this
      have h2 := k.1.eq g hg
      show frees g st'.log + _ = allocs g st'.log
      omega
    · intro b
      have := k.2 b
      by_cases e : b = a
      · subst e
        simpa [St.owns, St.setObj, ho, ho', e1, h1] using this
      · simpa [St.owns, St.setObj, e] using this
  | same hs hb ih => exact ih
  | @asyncFirst x task body st t st1 h r st3 ht hb iht ihb =>
    intro h1
    have k1 := iht h1
    have k2 := ihb (k1.1.congr (St.setOpt_objs _ _ _).1 (St.setOpt_objs _ _ _).2 (St.setOpt_log _ _ _))
    exact ⟨k2.1.congr (St.setOpt_objs _ _ _).1 (St.setOpt_objs _ _ _).2 (St.setOpt_log _ _ _),
      k1.2.trans (k2.2.congr (St.setOpt_objs _ _ _).1.symm (St.setOpt_objs _ _ _).1)⟩
  | @asyncAfter x task body st t st1 h r st3 hb ht ihb iht =>
    intro h1
    have k1 := ihb (h1.congr (St.setOpt_objs _ _ _).1 (St.setOpt_objs _ _ _).2 (St.setOpt_log _ _ _))
    have k2 := iht k1.1
    exact ⟨k2.1.congr (St.setOpt_objs _ _ _).1 (St.setOpt_objs _ _ _).2 (St.setOpt_log _ _ _),
      (k1.2.congr (St.setOpt_objs _ _ _).1.symm rfl).trans (k2.2.congr rfl (St.setOpt_objs _ _ _).1)⟩
  | @asyncLate x task body st t st1 h r st3 hb ht ihb iht =>
    intro h1
    have k1 := ihb (h1.congr (St.setOpt_objs _ _ _).1 (St.setOpt_objs _ _ _).2 (St.setOpt_log _ _ _))
    have k2 := iht (k1.1.congr (St.setOpt_objs _ _ _).1 (St.setOpt_objs _ _ _).2 (St.setOpt_log _ _ _))
    exact ⟨k2.1.congr (St.setOpt_objs _ _ _).1 (St.setOpt_objs _ _ _).2 (St.setOpt_log _ _ _),
      (k1.2.congr (St.setOpt_objs _ _ _).1.symm rfl).trans (k2.2.congr (St.setOpt_objs _ _ _).1.symm (St.setOpt_objs _ _ _).1)⟩
  | new hb ih => intro h; exact ⟨(ih (h.congr rfl rfl rfl)).1.congr rfl rfl rfl, (ih (h.congr rfl rfl rfl)).2.congr rfl rfl⟩
  | cloBody hb ih => exact ih
  | cloSame hb ih => exact ih

/-- **C34.** Evaluate a statement in a state in which nothing is allocated (the log is empty, and no buffer that exists owns an allocation). Whatever
happens (errors, explicit `free`, parallel loops in any order, tasks), at the end every allocation was given back exactly as often as it
was made; and at no moment before was one given back more often than it was made. -/
theorem exec_allocations {cfg : Cfg} {s : Stmt} (hw : s.WF) {st : St} (hf : st.Fresh) (hlog : st.log = [])
    (hown : ∀ a o, st.objs a = some o → o.alloc = none) {r : Int} {st' : St} (h : exec cfg s st = some (r, st')) (k : Int) (hk : k ≠ 0) :
    frees k st'.log = allocs k st'.log ∧ ∀ l, l <:+ st'.log → frees k l ≤ allocs k l := by
  have ho : ∀ a, st.owns a = none := by
    intro a
    rw [St.owns]
    cases e : st.objs a with
    | none => rfl
    | some o => exact hown a o e
  have hl : ∀ g, st.live g = 0 := by
    intro g
    simp only [St.live]
    exact sum_eq_zero fun a _ => by rw [ho]; simp
  have hb : Bal st := by
    refine ⟨hf, ?_, ?_⟩
    · intro l hl g hg
      rw [hlog] at hl
      have := List.suffix_nil.mp hl
      subst this
      simp [frees, allocs]
    · intro g hg
      rw [hlog, hl]
      simp [frees, allocs]
  obtain ⟨b, ow⟩ := (exec_big hw h).bal hb
  refine ⟨?_, fun l hl => b.ok l hl k hk⟩
  have h0 : st'.live k = 0 := by
    simp only [St.live]
    refine sum_eq_zero fun a _ => ?_
    rw [if_neg]
    rcases ow a with e | ⟨_, e⟩
    · rw [e, ho]; simp
    · rw [e]
      simpa using Ne.symm hk
  have := b.eq k hk
  omega

/-! ## The memory exists while the body runs -/

mutual
/-- There is no explicit `free` in the statement. -/
def Stmt.NoFree : Stmt → Prop
  | .lets _ b _ | .loop _ _ _ _ b | .allocate _ _ _ _ b | .makeBuffer _ _ _ _ b | .constantBuffer _ _ b | .cloneBuffer _ _ b
  | .cropBuffer _ _ _ b | .cropDim _ _ _ _ b | .sliceBuffer _ _ _ b | .sliceDim _ _ _ _ b | .transpose _ _ _ b => b.NoFree
  | .block ss => ss.NoFree
  | .async _ t b => t.NoFree ∧ b.NoFree
  | .check (.call .free _) => False
  | .undef | .call .. | .copy .. | .check _ => True
/-- There is no explicit `free` in the statements. -/
def Stmts.NoFree : Stmts → Prop
  | .nil => True
  | .cons s ss => s.NoFree ∧ ss.NoFree
end

/-- There is no explicit `free` in the job. -/
def Job.NoFree : Job → Prop
  | .stmt s | .clo s | .new s | .serial _ _ _ _ _ s | .par _ _ _ _ _ _ s => s.NoFree
  | .all ss => ss.NoFree

theorem Stmt.isObj_noFree {x : Nat} {body s : Stmt} (h : Stmt.isObj x body s) : s.NoFree ↔ body.NoFree := by
  cases s <;> simp only [Stmt.isObj] at h <;> first | (obtain ⟨_, rfl⟩ := h; simp only [Stmt.NoFree]) | exact h.elim
theorem Stmt.isInPlace_noFree {body s : Stmt} (h : Stmt.isInPlace body s) : s.NoFree ↔ body.NoFree := by
  cases s <;> simp only [Stmt.isInPlace] at h <;> first | (subst h; simp only [Stmt.NoFree]) | exact h.elim

theorem owns_congr {a b : St} (h : b.objs = a.objs) (x : Nat) : b.owns x = a.owns x := by simp only [St.owns, h]

theorem owns_push {st : St} {x : Nat} {o : Obj} {a : Nat} (ha : a < st.next) : (st.push x o).owns a = st.owns a := by
  have : a ≠ st.next := by omega
  simp [St.owns, St.push, St.setObj, St.set, this]
theorem owns_pop {st st' : St} {x : Nat} {a : Nat} (ha : a < st.next) : (st.pop x st').owns a = st'.owns a := by
  have : a ≠ st.next := by omega
  simp [St.owns, St.pop, St.setObj, St.set, this]

/-- Without an explicit `free`, objects keep their allocations. -/
theorem Big.ownsSame {cfg : Cfg} {j : Job} {st : St} {r : Int} {st' : St} (h : Big cfg j st r st') : st.Fresh → j.NoFree → ∀ a < st.next, st'.owns a = st.owns a := by
  induction h with
  | call | checkFail | checkOk | makeFail | allocOverflow | nil | loopZero | serialDone | parDone => intros; rfl
  | checkFree => intro _ hn; simp only [Job.NoFree, Stmt.NoFree] at hn
  | @allocNull x sto e ds body st h o ho => intro _ _ a _; rw [owns_congr (St.release_objs _ _ _).1]; rfl
  | lets h1 h2 h3 hb ih => intro hf hn a ha; simp only [Job.NoFree, Stmt.NoFree] at hn; exact ih hf hn a ha
  | block hb ih => intro hf hn a ha; simp only [Job.NoFree, Stmt.NoFree] at hn; exact ih hf hn a ha
  | consFail hb hr ih => intro hf hn a ha; simp only [Job.NoFree, Stmts.NoFree] at hn; exact ih hf hn.1 a ha
  | cons hb hs ih1 ih2 =>
    intro hf hn a ha
    simp only [Job.NoFree, Stmts.NoFree] at hn
    have k := hb.keep hf
    rw [ih2 k.fresh hn.2 a (lt_of_lt_of_le ha k.next), ih1 hf hn.1 a ha]
  | loopOne hw hv hb ih => intro hf hn a ha; simp only [Job.NoFree, Stmt.NoFree] at hn; exact ih hf hn a ha
  | loopPar hw hv hp ih => intro hf hn a ha; simp only [Job.NoFree, Stmt.NoFree] at hn; exact ih hf hn a ha
  | loopSerial hs ih => intro hf hn a ha; simp only [Job.NoFree, Stmt.NoFree] at hn; exact ih hf hn a ha
  | serialFail h hb hr ih => exact ih
  | serialNext h hb hs ih1 ih2 =>
    intro hf hn a ha
    have k := hb.keep hf
    rw [ih2 k.fresh hn a (lt_of_lt_of_le ha k.next), ih1 hf hn a ha]
    rfl
  | parNext hb hp ih1 ih2 =>
    intro hf hn a ha
    have k := hb.keep hf
    rw [ih2 k.fresh hn a (lt_of_lt_of_le ha k.next)]
    exact ih1 hf hn a ha
  | @allocHeap x sto e ds body st h o r st' o' ho hb ho' ih =>
    intro hf hn a ha
    simp only [Job.NoFree, Stmt.NoFree] at hn
    rw [owns_congr (St.release_objs _ _ _).1, owns_pop ha, ih (Fresh.push (st := st.emit (.alloc x h)) hf x o) hn a (Nat.lt_succ_of_lt ha)]
    exact owns_push (st := st.emit (.alloc x h)) ha
  | @allocStack x sto e ds body st o r st' o' ho hb ho' ih =>
    intro hf hn a ha
    simp only [Job.NoFree, Stmt.NoFree] at hn
    rw [owns_congr (St.release_objs _ _ _).1, owns_pop ha, ih (Fresh.push hf x o) hn a (Nat.lt_succ_of_lt ha), owns_push ha]
  | @obj s x body st o r st' ho hs hb ih =>
    intro hf hn a ha
    rw [owns_pop ha, ih (Fresh.push hf x o) ((Stmt.isObj_noFree hs).mp hn) a (Nat.lt_succ_of_lt ha), owns_push ha]
  | @inPlace s body st b o o1 undo r st' o' hs ho h1 hu hb ho' ih =>
    intro hf hn a ha
    have hb' : b < st.next := by
      by_contra hn
      rw [hf b (by omega)] at ho
      cases ho
    have hf2 : (st.setObj b (some o1)).Fresh := by
      intro c hc
      simp only [St.setObj] at hc ⊢
      rw [if_neg (by omega)]
      exact hf c hc
    have k := hb.keep hf2
    have e1 : (undo o').alloc = o'.alloc := by
      have hob := k.objs b
      simp only [St.setObj, if_true, ho', Option.map_some, Option.some.injEq] at hob
      exact (hu o' hob).2
    have := ih hf2 ((Stmt.isInPlace_noFree hs).mp hn) a ha
    by_cases e : a = b
    · subst e
      simpa [St.owns, St.setObj, ho, ho', e1, h1] using this
    · simpa [St.owns, St.setObj, e] using this
  | same hs hb ih => intro hf hn a ha; exact ih hf ((Stmt.isInPlace_noFree hs).mp hn) a ha
  | @asyncFirst x task body st t st1 h r st3 ht hb iht ihb =>
    intro hf hn a ha
    simp only [Job.NoFree, Stmt.NoFree] at hn
    have k := ht.keep hf
    have hn' : a < (st1.setOpt x h).next := by rw [(St.setOpt_objs _ _ _).2]; exact lt_of_lt_of_le ha k.next
    rw [owns_congr (St.setOpt_objs _ _ _).1, ihb (Fresh.congr k.fresh (St.setOpt_objs _ _ _).1 (St.setOpt_objs _ _ _).2) hn.2 a hn',
      owns_congr (St.setOpt_objs _ _ _).1, iht hf hn.1 a ha]
  | @asyncAfter x task body st t st1 h r st3 hb ht ihb iht =>
    intro hf hn a ha
    simp only [Job.NoFree, Stmt.NoFree] at hn
    have hf2 : (st.setOpt x h).Fresh := Fresh.congr hf (St.setOpt_objs _ _ _).1 (St.setOpt_objs _ _ _).2
    have ha2 : a < (st.setOpt x h).next := by rw [(St.setOpt_objs _ _ _).2]; exact ha
    have k := hb.keep hf2
    rw [owns_congr (St.setOpt_objs _ _ _).1, iht k.fresh hn.1 a (lt_of_lt_of_le ha2 k.next), ihb hf2 hn.2 a ha2, owns_congr (St.setOpt_objs _ _ _).1]
  | @asyncLate x task body st t st1 h r st3 hb ht ihb iht =>
    intro hf hn a ha
    simp only [Job.NoFree, Stmt.NoFree] at hn
    have hf2 : (st.setOpt x h).Fresh := Fresh.congr hf (St.setOpt_objs _ _ _).1 (St.setOpt_objs _ _ _).2
    have ha2 : a < (st.setOpt x h).next := by rw [(St.setOpt_objs _ _ _).2]; exact ha
    have k := hb.keep hf2
    have ha3 : a < (st1.setOpt x 0).next := by rw [(St.setOpt_objs _ _ _).2]; exact lt_of_lt_of_le ha2 k.next
    rw [owns_congr (St.setOpt_objs _ _ _).1, iht (Fresh.congr k.fresh (St.setOpt_objs _ _ _).1 (St.setOpt_objs _ _ _).2) hn.1 a ha3,
      owns_congr (St.setOpt_objs _ _ _).1, ihb hf2 hn.2 a ha2, owns_congr (St.setOpt_objs _ _ _).1]
  | new hb ih => intro hf hn a ha; exact ih hf hn a ha
  | cloBody hb ih => intro hf hn a ha; simp only [Job.NoFree, Stmt.NoFree] at hn; exact ih hf hn a ha
  | cloSame hb ih => exact ih

/-- **C34**, scopes: an allocation on the heap that succeeds exists exactly while the body runs. If the body has no explicit `free`, then what happens is:
the allocation, then all that the body does, then the memory is given back. -/
theorem allocate_scope {cfg : Cfg} {x : Nat} {elem : Expr} {dims : List DimE} {body : Stmt} (hw : (Stmt.allocate x .heap elem dims body).WF) (hn : body.NoFree)
    {st : St} (hf : st.Fresh) {r : Int} {st' : St} (h : exec cfg (.allocate x .heap elem dims body) st = some (r, st')) (hr : r = 0) :
    ∃ g o st1, o.alloc = some g ∧ exec cfg body ((st.emit (.alloc x g)).push x o) = some (r, st1) ∧
      st'.log = (if g ≠ 0 then [.free x g] else []) ++ st1.log := by
  simp only [Stmt.WF] at hw
  simp only [exec, run, Option.bind_eq_bind, Option.bind_eq_some_iff, Prod.exists] at h
  obtain ⟨v, st1, h1, ds, st2, h2, h⟩ := h
  have := Cfg.eval_state hw.1 h1
  subst this
  have := Cfg.evalDims_state hw.2.1 h2
  subst this
  split at h
  · simp only [Option.some.injEq, Prod.mk.injEq] at h; omega
  · rename_i o st3 h3
    simp only [Cfg.allocMem, Option.some.injEq, Prod.mk.injEq] at h3
    obtain ⟨e1, e2⟩ := h3
    generalize (cfg.allocate x ⟨none, v, ds, trimRank ds, some 0⟩ st2).2 = g at e1 e2
    have ha : o.alloc = some g := by rw [← e1]
    split at h
    · split at h
      · split at h <;> simp only [Option.some.injEq, Prod.mk.injEq] at h <;> omega
      · simp only [Option.some.injEq, Prod.mk.injEq] at h; omega
    · split at h
      · cases h
      · rename_i r1 st4 h4
        split at h
        · cases h
        · rename_i o' ho'
          simp only [Option.some.injEq, Prod.mk.injEq] at h
          obtain ⟨st5, h5, rfl⟩ := withValue_some h4
          obtain ⟨rfl, h6⟩ := h
          subst e2
          have hb : exec cfg body ((st2.emit (.alloc x g)).push x o) = some (r1, st5) := h5
          refine ⟨g, o, st5, ha, hb, ?_⟩
          have ow := (exec_big hw.2.2 hb).ownsSame (Fresh.push (st := st2.emit (.alloc x g)) hf x o) hn st2.next (Nat.lt_succ_self _)
          have ho5 : st5.objs st2.next = some o' := ho'
          have ha' : o'.alloc = some g := by
            have e : ((st2.emit (.alloc x g)).push x o).owns st2.next = some g := by simp [St.owns, St.push, St.setObj, St.set, St.emit, ha]
            rw [e] at ow
            simpa [St.owns, ho5] using ow
          rw [← h6, ha']
          simp only
          split <;> rfl

end Slinky
