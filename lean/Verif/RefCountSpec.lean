import Verif.RefCountProps

/-!
# Reference counting: what a user relies on

For every layout of member handles, any number of threads and handles, and every interleaving of
their operations.
-/

namespace Slinky.RC

variable {Obj Slot Tid : Type} [DecidableEq Obj] [DecidableEq Slot] [DecidableEq Tid]
variable [Fintype Slot] [Fintype Tid]
variable {ly : Layout Obj Slot} {σ σ' : State Obj Slot Tid}

/-- Some handle points to `o`, or a pointer obtained from `take()` is outstanding, or a thread has
not finished giving up its reference. -/
def Referenced (σ : State Obj Slot Tid) (o : Obj) : Prop :=
  (∃ s, σ.val s = some o) ∨ o ∈ σ.raw ∨ ∃ t, .release o ∈ σ.pc t

/-- A step of the client or of the implementation. -/
def AnyStep (ly : Layout Obj Slot) (σ σ' : State Obj Slot Tid) : Prop :=
  Client.Step ly σ σ' ∨ Micro.Step ly σ σ'

omit [Fintype Slot] [Fintype Tid] in
theorem Reachable.step (h : Reachable ly σ) (hs : AnyStep ly σ σ') : Reachable ly σ' := by
  rcases hs with hs | hs
  · exact .client h hs
  · exact .micro h hs

/-- C35: an object is never destroyed while a reference to it exists: every handle points to a live
object whose destructor has not been called. -/
theorem rc_no_dangling (h : Reachable ly σ) {o : Obj} (hr : Referenced σ o) :
    σ.status o = .live ∧ σ.destroyed o = 0 := by
  have I := inv_reachable h
  have hl : σ.status o = .live := by
    rcases hr with ⟨s, hs⟩ | hs | ⟨t, hs⟩
    · exact I.live_of_val hs
    · exact I.live_of_raw hs
    · exact I.live_of_release hs
  refine ⟨hl, ?_⟩
  rw [I.destr, hl]; simp

theorem exists_of_sum_pos {A : Type} [Fintype A] {f : A → Int}
    (h : 1 ≤ ∑ a, f a) : ∃ a, 0 < f a := by
  by_contra hc
  push Not at hc
  have := Finset.sum_nonpos (s := Finset.univ) (f := f) (fun a _ => hc a)
  omega

/-- C35: an object that has been allocated is either referenced, or it has been destroyed. -/
theorem rc_no_leak (h : Reachable ly σ) {o : Obj} (ha : σ.status o ≠ .unborn) :
    Referenced σ o ∨ σ.destroyed o = 1 := by
  have I := inv_reachable h
  cases hs : σ.status o with
  | unborn => exact absurd hs ha
  | dying => right; rw [I.destr, hs]; simp
  | freed => right; rw [I.destr, hs]; simp
  | live =>
    left
    have h1 := (I.live o).mp hs
    rw [I.cntEq] at h1
    by_cases c1 : 1 ≤ held σ o
    · obtain ⟨s, hs⟩ := exists_of_sum_pos c1
      left
      refine ⟨s, ?_⟩
      unfold contrib at hs
      split at hs
      · next hh => exact hh.1
      · omega
    · by_cases c2 : 1 ≤ pend σ.pc o
      · obtain ⟨t, ht⟩ := exists_of_sum_pos c2
        right; right
        exact ⟨t, List.count_pos_iff.mp (by omega)⟩
      · right; left
        have := held_nonneg σ o
        have := pend_nonneg σ.pc o
        exact List.count_pos_iff.mp (by omega)

/-- C35: the destructor is called at most once. -/
theorem rc_destroyed_at_most_once (h : Reachable ly σ) (o : Obj) : σ.destroyed o ≤ 1 := by
  rw [(inv_reachable h).destr]; split <;> simp

/-- C35: the destructor is called only in the step in which the last reference goes away: before the
step the object is referenced (and not destroyed), after the step it is not referenced. -/
theorem rc_destroyed_by_last (h : Reachable ly σ) (hs : AnyStep ly σ σ') {o : Obj}
    (hd : σ'.destroyed o ≠ σ.destroyed o) :
    Referenced σ o ∧ ¬ Referenced σ' o ∧ σ.destroyed o = 0 ∧ σ'.destroyed o = 1 := by
  have h' := h.step hs
  have I := inv_reachable h
  have I' := inv_reachable h'
  have h1 := rc_destroyed_at_most_once h o
  have h2 := rc_destroyed_at_most_once h' o
  have hn : σ'.destroyed o ≠ 0 → ¬ Referenced σ' o := fun hz hr => hz (rc_no_dangling h' hr).2
  -- the only step that changes `destroyed` is a release
  rcases hs with hs | hs
  · exfalso
    cases hs <;> first | exact hd rfl | (unfold assign at hd; split at hd <;> exact hd rfl)
  · cases hs with
    | addRef t d o' L rest e => exact absurd rfl hd
    | field t o' s ss rest e => exact absurd rfl hd
    | free t o' rest e => exact absurd rfl hd
    | release t o' rest e =>
      have hr : Referenced σ o' := Or.inr (Or.inr ⟨t, by rw [e]; simp⟩)
      by_cases ho : o = o'
      · subst ho
        have h0 := (rc_no_dangling h hr).2
        rw [h0] at hd
        exact ⟨hr, hn hd, h0, by omega⟩
      · exfalso
        unfold doRelease at hd
        split at hd
        · exact hd (upd_ne _ _ ho)
        · exact hd rfl

/-- C35: no operation in progress touches (`add_ref`, `release`) an object that is not alive, and the
counter of an object is never negative. -/
theorem rc_no_use_after_destroy (h : Reachable ly σ) {t : Tid} {m : Micro Obj Slot} {rest}
    (hp : σ.pc t = m :: rest) :
    match m with
    | .addRef _ o _ => σ.status o = .live ∧ 1 ≤ σ.cnt o
    | .release o => σ.status o = .live ∧ 1 ≤ σ.cnt o
    | .dtor o _ => σ.status o = .dying ∧ σ.destroyed o = 1 ∧ ¬ Referenced σ o := by
  have I := inv_reachable h
  cases m with
  | addRef d o L =>
    have hl := I.live_of_val (I.addOK _ _ _ _ _ hp).2.1
    exact ⟨hl, (I.live o).mp hl⟩
  | release o =>
    have hl : σ.status o = .live := I.live_of_release (t := t) (by rw [hp]; simp)
    exact ⟨hl, (I.live o).mp hl⟩
  | dtor o ss =>
    have hl := dying_of_dtor I (t := t) (o := o) (ss := ss) (by rw [hp]; simp)
    have hd : σ.destroyed o = 1 := by rw [I.destr, hl]; simp
    refine ⟨hl, hd, ?_⟩
    intro hr
    have := (rc_no_dangling h hr).1
    rw [hl] at this; cases this

/-- The number of handles that point to `o`. -/
def numHandles (σ : State Obj Slot Tid) (o : Obj) : Nat :=
  (Finset.univ.filter (fun s => σ.val s = some o)).card

/-- C35: when no operation is in progress, `ref_count()` is the number of handles that point to the
object plus the number of outstanding `take()`s. -/
theorem rc_count (h : Reachable ly σ) (hq : Quiescent σ) (o : Obj) :
    σ.cnt o = numHandles σ o + σ.raw.count o := by
  have I := inv_reachable h
  rw [I.cntEq]
  have e1 : pend σ.pc o = 0 := by
    unfold pend
    apply Finset.sum_eq_zero
    intro t _
    rw [hq t]; simp
  have hm : ∀ s, σ.mid s = false := by
    intro s
    cases hm : σ.mid s with
    | false => rfl
    | true =>
      obtain ⟨t, o', L, rest, e⟩ := I.midOK s hm
      rw [hq t] at e; cases e
  have e2 : held σ o = numHandles σ o := by
    unfold held numHandles contrib
    rw [Finset.card_filter]
    push_cast
    apply Finset.sum_congr rfl
    intro s _
    simp [hm s]
  rw [e1, e2, add_zero]

/-- C35: when no operation is in progress and no *usable* handle (a local, or a member of a live
object) points to an allocated object, and no `take()` of it is outstanding, it has been destroyed
exactly once and its memory has been freed. -/
theorem rc_freed (h : Reachable ly σ) (hq : Quiescent σ) {o : Obj} (ha : σ.status o ≠ .unborn)
    (hn : ∀ s, (∀ p, ly.owner s = some p → σ.status p = .live) → σ.val s ≠ some o)
    (hr : o ∉ σ.raw) : σ.status o = .freed ∧ σ.destroyed o = 1 := by
  have I := inv_reachable h
  have hnd : ∀ x, σ.status x ≠ .dying := by
    intro x hx
    have h1 := I.dtorEq x
    rw [if_pos hx] at h1
    have : dtors σ.pc x = 0 := by
      unfold dtors
      apply Finset.sum_eq_zero
      intro t _
      rw [hq t]; simp
    omega
  have hnr : ¬ Referenced σ o := by
    rintro (⟨s, hs⟩ | hs | ⟨t, ht⟩)
    · refine hn s ?_ hs
      intro p hp
      by_contra hc
      have : σ.val s = none := by
        apply I.dead s p hp
        have := hnd p
        cases e : σ.status p <;> simp_all
      rw [this] at hs; cases hs
    · exact hr hs
    · rw [hq t] at ht; cases ht
  have hd : σ.destroyed o = 1 := (rc_no_leak h ha).resolve_left hnr
  refine ⟨?_, hd⟩
  rw [I.destr] at hd
  have := hnd o
  by_contra hc
  simp [this, hc] at hd

/-! ## Termination of the implementation steps -/

/-- The size of the work lists. -/
def work (q : List (Micro Obj Slot)) : Nat :=
  (q.map (fun m => match m with | .addRef _ _ _ => 1 | .release _ => 1 | .dtor _ _ => 0)).sum

/-- The length of the destructors that are running. -/
def dwork (q : List (Micro Obj Slot)) : Nat :=
  (q.map (fun m => match m with | .dtor _ ss => ss.length + 1 | _ => 0)).sum

/-- Does a handle hold a reference? -/
def full (v : Option Obj) : Nat := if v.isSome then 1 else 0

/-- References in handles and in work lists. -/
def size1 (σ : State Obj Slot Tid) : Nat :=
  (∑ s, full (σ.val s)) + ∑ t, work (σ.pc t)

/-- Remaining destructor work. -/
def size2 (σ : State Obj Slot Tid) : Nat := ∑ t, dwork (σ.pc t)

theorem sum_upd_nat {A : Type} [DecidableEq A] [Fintype A] (f g : A → Nat) (a : A)
    (h : ∀ x, x ≠ a → f x = g x) : ∑ x, f x + g a = ∑ x, g x + f a := by
  have e1 := Finset.sum_erase_add Finset.univ f (Finset.mem_univ a)
  have e2 := Finset.sum_erase_add Finset.univ g (Finset.mem_univ a)
  have e3 : ∑ x ∈ Finset.univ.erase a, f x = ∑ x ∈ Finset.univ.erase a, g x :=
    Finset.sum_congr rfl (fun x hx => h x (Finset.ne_of_mem_erase hx))
  omega

theorem sum_pc (w : List (Micro Obj Slot) → Nat) (pc : Tid → List (Micro Obj Slot)) (t : Tid) (q) :
    ∑ t', w (upd pc t q t') + w (pc t) = ∑ t', w (pc t') + w q := by
  have := sum_upd_nat (fun t' => w (upd pc t q t')) (fun t' => w (pc t')) t
    (by intro x hx; simp [upd_ne _ _ hx])
  simpa using this

theorem sum_val (val : Slot → Option Obj) (s : Slot) (v : Option Obj) :
    (∑ s', full (upd val s v s')) + full (val s) = (∑ s', full (val s')) + full v := by
  have := sum_upd_nat (fun s' => full (upd val s v s')) (fun s' => full (val s')) s
    (by intro x hx; simp [upd_ne _ _ hx])
  simpa using this

theorem size_decreases (h : Micro.Step ly σ σ') :
    size1 σ' < size1 σ ∨ (size1 σ' = size1 σ ∧ size2 σ' < size2 σ) := by
  cases h with
  | addRef t d o L rest e =>
    left
    have := sum_pc (work (Obj := Obj) (Slot := Slot)) σ.pc t rest
    rw [e] at this
    simp [size1, doAddRef, work] at this ⊢
    omega
  | release t o rest e =>
    left
    unfold doRelease
    split
    · have := sum_pc (work (Obj := Obj) (Slot := Slot)) σ.pc t (.dtor o (ly.fields o) :: rest)
      rw [e] at this
      simp [size1, work] at this ⊢
      omega
    · have := sum_pc (work (Obj := Obj) (Slot := Slot)) σ.pc t rest
      rw [e] at this
      simp [size1, work] at this ⊢
      omega
  | field t o s ss rest e =>
    right
    have h1 := sum_pc (work (Obj := Obj) (Slot := Slot)) σ.pc t (releaseOf (σ.val s) ++ .dtor o ss :: rest)
    have h2 := sum_pc (dwork (Obj := Obj) (Slot := Slot)) σ.pc t (releaseOf (σ.val s) ++ .dtor o ss :: rest)
    have h3 := sum_val σ.val s none
    rw [e] at h1 h2
    cases hv : σ.val s with
    | none =>
      rw [hv] at h1 h2 h3
      simp only [full, Option.isSome_none, Option.isSome_some] at h3
      simp [size1, size2, doField, work, dwork, releaseOf, hv, full] at h1 h2 h3 ⊢
      omega
    | some x =>
      rw [hv] at h1 h2 h3
      simp only [full, Option.isSome_none, Option.isSome_some] at h3
      simp [size1, size2, doField, work, dwork, releaseOf, hv, full] at h1 h2 h3 ⊢
      omega
  | free t o rest e =>
    right
    have h1 := sum_pc (work (Obj := Obj) (Slot := Slot)) σ.pc t rest
    have h2 := sum_pc (dwork (Obj := Obj) (Slot := Slot)) σ.pc t rest
    rw [e] at h1 h2
    simp [size1, size2, doFree, work, dwork] at h1 h2 ⊢
    omega

/-- C35: the operations that are in progress finish: there is no infinite sequence of implementation
steps, even when releasing one reference destroys arbitrarily many objects. -/
theorem rc_terminates :
    WellFounded (fun (a b : State Obj Slot Tid) => Micro.Step ly b a) := by
  have wf : WellFounded (Prod.Lex (· < ·) (· < ·) : Nat × Nat → Nat × Nat → Prop) :=
    WellFounded.prod_lex Nat.lt_wfRel.wf Nat.lt_wfRel.wf
  refine Subrelation.wf (r := InvImage _ (fun σ : State Obj Slot Tid => (size1 σ, size2 σ))) ?_
    (InvImage.wf _ wf)
  intro a b h
  rcases size_decreases h with h | ⟨h1, h2⟩
  · exact Prod.Lex.left _ _ h
  · show Prod.Lex _ _ (size1 a, size2 a) (size1 b, size2 b)
    rw [h1]
    exact Prod.Lex.right _ h2

/-- C35: a thread in the middle of an operation can always take its next step. -/
theorem rc_progress (t : Tid) (h : σ.pc t ≠ []) : ∃ σ', Micro.Step ly σ σ' := by
  cases hp : σ.pc t with
  | nil => exact absurd hp h
  | cons m rest =>
    cases m with
    | addRef d o L => exact ⟨_, .addRef t d o L rest hp⟩
    | release o => exact ⟨_, .release t o rest hp⟩
    | dtor o ss =>
      cases ss with
      | nil => exact ⟨_, .free t o rest hp⟩
      | cons s ss => exact ⟨_, .field t o s ss rest hp⟩

/-- C35: from every reachable state the operations in progress can be, and if no new ones are started
will be, completed; then `rc_count` and `rc_freed` apply. -/
theorem rc_quiesces (h : Reachable ly σ) :
    ∃ σ', Relation.ReflTransGen (Micro.Step ly) σ σ' ∧ Quiescent σ' ∧ Reachable ly σ' := by
  have key : ∀ σ : State Obj Slot Tid, Reachable ly σ →
      ∃ σ', Relation.ReflTransGen (Micro.Step ly) σ σ' ∧ Quiescent σ' ∧ Reachable ly σ' := by
    intro σ
    refine (rc_terminates (Tid := Tid) (ly := ly)).induction
      (C := fun σ => Reachable ly σ → ∃ σ', Relation.ReflTransGen (Micro.Step ly) σ σ' ∧ Quiescent σ' ∧ Reachable ly σ') σ ?_
    · intro σ ih h
      by_cases hq : Quiescent σ
      · exact ⟨σ, .refl, hq, h⟩
      · unfold Quiescent at hq
        push Not at hq
        obtain ⟨t, ht⟩ := hq
        obtain ⟨σ1, h1⟩ := rc_progress (ly := ly) t ht
        obtain ⟨σ', h2, h3, h4⟩ := ih σ1 h1 (.micro h h1)
        exact ⟨σ', .head h1 h2, h3, h4⟩
  exact key σ h

/-! ## Examples: the hypotheses are met -/

namespace Example

/-- Two objects; handle 0 and 1 are locals, handle 2 is a member of object 0. -/
def lay : Layout (Fin 2) (Fin 3) where
  owner s := if s = 2 then some 0 else none
  fields o := if o = 0 then [2] else []
  mem_fields := by decide

abbrev St := State (Fin 2) (Fin 3) (Fin 2)

/-- `a = new Node; a->child = new Node;` -/
def s1 : St := mkNew (init : St) 0 0 0
def s2 : St := mkNew s1 0 2 1

theorem r1 : Reachable lay s1 :=
  .client .init (.mkNew 0 0 0 [0] rfl (by intro s hs; simp at hs; subst hs; simp [lay, init]) (by simp)
    (by intro t; simp [init, locks]) rfl)

theorem r2 : Reachable lay s2 := by
  refine .client r1 (.mkNew 0 2 1 [0, 2] (by decide) ?_ (by decide) ?_ (by decide))
  · intro s hs
    simp at hs
    rcases hs with rfl | rfl
    · exact ⟨by decide, by intro p hp; simp [lay] at hp⟩
    · refine ⟨by decide, ?_⟩
      intro p hp
      simp [lay] at hp
      subst hp
      exact ⟨0, by decide, by decide⟩
  · intro t; revert t; decide

/-- `a = a->child`: the new reference is counted before the old object, which owns the child, is
released. -/
def s3 : St := assign s2 0 0 2 [0, 2]

theorem r3 : Reachable lay s3 := by
  refine .client r2 (.assign 0 0 2 [0, 2] (by decide) ?_ (by decide) (by decide) ?_)
  · intro s hs
    simp at hs
    rcases hs with rfl | rfl
    · exact ⟨by decide, by intro p hp; simp [lay] at hp⟩
    · refine ⟨by decide, ?_⟩
      intro p hp
      simp [lay] at hp
      subst hp
      exact ⟨0, by decide, by decide⟩
  · intro t; revert t; decide

theorem s3_pc : s3.pc 0 = [.addRef 0 1 [2], .release 0] := by decide

/-- After `a = a->child` completes the parent is destroyed once and freed and the child survives. -/
theorem assign_child_result : ∃ σ : St, Reachable lay σ ∧ Quiescent σ ∧ σ.status 0 = .freed ∧
    σ.destroyed 0 = 1 ∧ σ.status 1 = .live ∧ σ.cnt 1 = 1 := by
  let σ4 : St := doAddRef s3 0 0 1 [.release 0]
  have h4 : Micro.Step lay s3 σ4 := .addRef 0 0 1 [2] [.release 0] s3_pc
  have e4 : σ4.pc 0 = [.release 0] := by decide
  let σ5 : St := doRelease lay σ4 0 0 []
  have h5 : Micro.Step lay σ4 σ5 := .release 0 0 [] e4
  have e5 : σ5.pc 0 = [.dtor 0 [2]] := by decide
  let σ6 : St := doField σ5 0 0 2 [] []
  have h6 : Micro.Step lay σ5 σ6 := .field 0 0 2 [] [] e5
  have e6 : σ6.pc 0 = [.release 1, .dtor 0 []] := by decide
  let σ7 : St := doRelease lay σ6 0 1 [.dtor 0 []]
  have h7 : Micro.Step lay σ6 σ7 := .release 0 1 [.dtor 0 []] e6
  have e7 : σ7.pc 0 = [.dtor 0 []] := by decide
  let σ8 : St := doFree σ7 0 0 []
  have h8 : Micro.Step lay σ7 σ8 := .free 0 0 [] e7
  refine ⟨σ8, .micro (.micro (.micro (.micro (.micro r3 h4) h5) h6) h7) h8, ?_, by decide, by decide,
    by decide, by decide⟩
  intro t; revert t; decide

end Example

end Slinky.RC
