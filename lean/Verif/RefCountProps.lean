import Verif.RefCount
import Mathlib.Data.Fintype.BigOperators
import Mathlib.Algebra.Order.BigOperators.Group.Finset
import Mathlib.Algebra.BigOperators.Ring.Finset
import Mathlib.Tactic.Linarith

/-!
# Reference counting: proofs
-/

namespace Slinky.RC

variable {Obj Slot Tid : Type} [DecidableEq Obj] [DecidableEq Slot] [DecidableEq Tid]
variable [Fintype Slot] [Fintype Tid]

@[simp] theorem upd_same {A B : Type} [DecidableEq A] (f : A → B) (a : A) (b : B) :
    upd f a b a = b := by simp [upd]

theorem upd_ne {A B : Type} [DecidableEq A] (f : A → B) {a x : A} (b : B) (h : x ≠ a) :
    upd f a b x = f x := by simp [upd, h]

/-- Does a handle count as a reference to `o`? -/
def contrib (v : Option Obj) (m : Bool) (o : Obj) : Int := if v = some o ∧ m = false then 1 else 0

/-- The number of handles that hold a counted reference to `o`. -/
def held (σ : State Obj Slot Tid) (o : Obj) : Int := ∑ s, contrib (σ.val s) (σ.mid s) o

/-- The number of releases of `o` that are pending. -/
def pend (pc : Tid → List (Micro Obj Slot)) (o : Obj) : Int :=
  ∑ t, (((pc t).count (.release o) : Nat) : Int)

/-- Is this the destructor of `o`? -/
def isDtor (o : Obj) : Micro Obj Slot → Bool
  | .dtor o' _ => o' = o
  | _ => false

/-- The number of destructors of `o` that are running. -/
def dtors (pc : Tid → List (Micro Obj Slot)) (o : Obj) : Int :=
  ∑ t, (((pc t).countP (isDtor o) : Nat) : Int)

theorem sum_upd {A : Type} [DecidableEq A] [Fintype A] (f g : A → Int) (a : A)
    (h : ∀ x, x ≠ a → f x = g x) : ∑ x, f x = ∑ x, g x + f a - g a := by
  have e1 := Finset.sum_erase_add Finset.univ f (Finset.mem_univ a)
  have e2 := Finset.sum_erase_add Finset.univ g (Finset.mem_univ a)
  have e3 : ∑ x ∈ Finset.univ.erase a, f x = ∑ x ∈ Finset.univ.erase a, g x :=
    Finset.sum_congr rfl (fun x hx => h x (Finset.ne_of_mem_erase hx))
  linarith

theorem pend_upd (pc : Tid → List (Micro Obj Slot)) (t : Tid) (q : List (Micro Obj Slot)) (o : Obj) :
    pend (upd pc t q) o = pend pc o + (q.count (.release o) : Nat) - ((pc t).count (.release o) : Nat) := by
  unfold pend
  rw [sum_upd _ (fun t => (((pc t).count (.release o) : Nat) : Int)) t]
  · simp
  · intro x hx; rw [upd_ne _ _ hx]

theorem dtors_upd (pc : Tid → List (Micro Obj Slot)) (t : Tid) (q : List (Micro Obj Slot)) (o : Obj) :
    dtors (upd pc t q) o = dtors pc o + (q.countP (isDtor o) : Nat) - ((pc t).countP (isDtor o) : Nat) := by
  unfold dtors
  rw [sum_upd _ (fun t => (((pc t).countP (isDtor o) : Nat) : Int)) t]
  · simp
  · intro x hx; rw [upd_ne _ _ hx]

theorem held_upd (σ σ' : State Obj Slot Tid) (d : Slot) (o : Obj)
    (h1 : ∀ s, s ≠ d → σ'.val s = σ.val s) (h2 : ∀ s, s ≠ d → σ'.mid s = σ.mid s) :
    held σ' o = held σ o + contrib (σ'.val d) (σ'.mid d) o - contrib (σ.val d) (σ.mid d) o := by
  unfold held
  rw [sum_upd _ (fun s => contrib (σ.val s) (σ.mid s) o) d]
  intro x hx; rw [h1 x hx, h2 x hx]

/-- The invariant. -/
structure Inv (ly : Layout Obj Slot) (σ : State Obj Slot Tid) : Prop where
  cntEq : ∀ o, σ.cnt o = held σ o + pend σ.pc o + (σ.raw.count o : Nat)
  live : ∀ o, σ.status o = .live ↔ 1 ≤ σ.cnt o
  addOK : ∀ t d o L rest, σ.pc t = .addRef d o L :: rest →
    σ.mid d = true ∧ σ.val d = some o ∧ (∃ s ∈ L, σ.val s = some o) ∧
    (∀ s ∈ L, σ.mid s = false) ∧
    ∀ s ∈ d :: L, ∀ p, ly.owner s = some p → (∃ s' ∈ L, σ.val s' = some p) ∨ .release p ∈ rest
  noAdd : ∀ t m rest, σ.pc t = m :: rest → ∀ d o L, .addRef d o L ∉ rest
  midOK : ∀ s, σ.mid s = true → ∃ t o L rest, σ.pc t = .addRef s o L :: rest
  uniq : ∀ t t' d o L r o' L' r', σ.pc t = .addRef d o L :: r → σ.pc t' = .addRef d o' L' :: r' → t = t'
  dtorEq : ∀ o, dtors σ.pc o = if σ.status o = .dying then 1 else 0
  destr : ∀ o, σ.destroyed o = if σ.status o = .dying ∨ σ.status o = .freed then 1 else 0
  dead : ∀ s p, ly.owner s = some p → σ.status p = .unborn ∨ σ.status p = .freed → σ.val s = none
  dying : ∀ t p ss, .dtor p ss ∈ σ.pc t → ∀ s, ly.owner s = some p → s ∉ ss → σ.val s = none
  sub : ∀ t p ss, .dtor p ss ∈ σ.pc t → ∀ s ∈ ss, ly.owner s = some p

theorem contrib_nonneg (v : Option Obj) (m : Bool) (o : Obj) : 0 ≤ contrib v m o := by
  unfold contrib; split <;> simp

theorem held_nonneg (σ : State Obj Slot Tid) (o : Obj) : 0 ≤ held σ o :=
  Finset.sum_nonneg (fun s _ => contrib_nonneg _ _ _)

theorem pend_nonneg (pc : Tid → List (Micro Obj Slot)) (o : Obj) : 0 ≤ pend pc o :=
  Finset.sum_nonneg (fun _ _ => by simp)

theorem dtors_nonneg (pc : Tid → List (Micro Obj Slot)) (o : Obj) : 0 ≤ dtors pc o :=
  Finset.sum_nonneg (fun _ _ => by simp)

theorem held_pos {σ : State Obj Slot Tid} {s : Slot} {o : Obj} (hv : σ.val s = some o)
    (hm : σ.mid s = false) : 1 ≤ held σ o := by
  have := Finset.single_le_sum (f := fun s => contrib (σ.val s) (σ.mid s) o)
    (fun s _ => contrib_nonneg _ _ _) (Finset.mem_univ s)
  simp only [contrib, hv, hm, and_self, if_true] at this
  exact this

theorem pend_pos {pc : Tid → List (Micro Obj Slot)} {t : Tid} {o : Obj} (h : .release o ∈ pc t) :
    1 ≤ pend pc o := by
  have := Finset.single_le_sum (f := fun t => (((pc t).count (.release o) : Nat) : Int))
    (fun s _ => by simp) (Finset.mem_univ t)
  have h2 : 1 ≤ (pc t).count (.release o) := List.one_le_count_iff.mpr h
  unfold pend
  omega

theorem dtors_pos {pc : Tid → List (Micro Obj Slot)} {t : Tid} {o : Obj} {ss} (h : .dtor o ss ∈ pc t) :
    1 ≤ dtors pc o := by
  have := Finset.single_le_sum (f := fun t => (((pc t).countP (isDtor o) : Nat) : Int))
    (fun s _ => by simp) (Finset.mem_univ t)
  have h2 : 0 < (pc t).countP (isDtor o) := List.countP_pos_iff.mpr ⟨_, h, by simp [isDtor]⟩
  unfold dtors
  omega

variable {ly : Layout Obj Slot} {σ σ' : State Obj Slot Tid}

theorem Inv.live_of_held (I : Inv ly σ) {s o} (hv : σ.val s = some o) (hm : σ.mid s = false) :
    σ.status o = .live := by
  rw [I.live, I.cntEq]
  have := held_pos hv hm
  have := pend_nonneg σ.pc o
  omega

theorem Inv.live_of_release (I : Inv ly σ) {t o} (h : .release o ∈ σ.pc t) : σ.status o = .live := by
  rw [I.live, I.cntEq]
  have := held_nonneg σ o
  have := pend_pos h
  omega

theorem Inv.live_of_raw (I : Inv ly σ) {o} (h : o ∈ σ.raw) : σ.status o = .live := by
  rw [I.live, I.cntEq]
  have := held_nonneg σ o
  have := pend_nonneg σ.pc o
  have : 1 ≤ σ.raw.count o := List.one_le_count_iff.mpr h
  omega

/-- A handle never points to an object that is not alive. -/
theorem Inv.live_of_val (I : Inv ly σ) {s o} (hv : σ.val s = some o) : σ.status o = .live := by
  cases hm : σ.mid s with
  | false => exact I.live_of_held hv hm
  | true =>
    obtain ⟨t, o', L, rest, h⟩ := I.midOK s hm
    obtain ⟨_, h2, ⟨s', hs', hv'⟩, h4, _⟩ := I.addOK t s o' L rest h
    rw [hv] at h2
    cases h2
    exact I.live_of_held hv' (h4 s' hs')

/-- Handles in use by an operation in progress are locals or members of live objects. -/
theorem Inv.live_of_lock (I : Inv ly σ) {t d o L rest s p} (h : σ.pc t = .addRef d o L :: rest)
    (hs : s ∈ d :: L) (hp : ly.owner s = some p) : σ.status p = .live := by
  obtain ⟨_, _, _, _, h5⟩ := I.addOK t d o L rest h
  rcases h5 s hs p hp with ⟨s', _, hv⟩ | hr
  · exact I.live_of_val hv
  · exact I.live_of_release (t := t) (by rw [h]; exact List.mem_cons_of_mem _ hr)

theorem Inv.live_of_legal (I : Inv ly σ) {U s p} (hl : Legal ly σ U) (hs : s ∈ U)
    (hp : ly.owner s = some p) : σ.status p = .live := by
  obtain ⟨s', _, hv⟩ := (hl s hs).2 p hp
  exact I.live_of_val hv

theorem Inv.cnt_nonneg (I : Inv ly σ) (o : Obj) : 0 ≤ σ.cnt o := by
  rw [I.cntEq]
  have := held_nonneg σ o
  have := pend_nonneg σ.pc o
  omega

theorem inv_init : Inv ly (init : State Obj Slot Tid) where
  cntEq := by intro o; simp [init, held, pend, contrib]
  live := by intro o; simp [init]
  addOK := by intro t d o L rest h; simp [init] at h
  noAdd := by intro t m rest h; simp [init] at h
  midOK := by intro s h; simp [init] at h
  uniq := by intro t t' d o L r o' L' r' h; simp [init] at h
  dtorEq := by intro o; simp [init, dtors]
  destr := by intro o; simp [init]
  dead := by intro s p _ _; simp [init]
  dying := by intro t p ss h; simp [init] at h
  sub := by intro t p ss h; simp [init] at h

/-- A slot that is written by a client operation is not relied on by an operation in progress. -/
theorem not_dst_of_legal (I : Inv ly σ) {U : List Slot} {d : Slot} (hl : Legal ly σ U) (hd : d ∈ U)
    {t d' o L rest} (h : σ.pc t = .addRef d' o L :: rest) : d' ≠ d := by
  rintro rfl
  have h1 := (I.addOK t d' o L rest h).1
  have h2 := (hl d' hd).1
  rw [h1] at h2; cases h2

theorem not_lock_of_writable {d : Slot} (hw : Writable σ d)
    {t d' o L rest} (h : σ.pc t = .addRef d' o L :: rest) : d ∉ L := by
  have := hw t
  rwa [h] at this

theorem count_releaseOf (v : Option Obj) (o : Obj) :
    (((releaseOf v : List (Micro Obj Slot)).count (.release o) : Nat) : Int) = if v = some o then 1 else 0 := by
  cases v with
  | none => simp [releaseOf]
  | some x =>
    by_cases h : x = o
    · subst h; simp [releaseOf]
    · simp [releaseOf, h, List.count_singleton]

theorem countP_releaseOf (v : Option Obj) (o : Obj) :
    (releaseOf v : List (Micro Obj Slot)).countP (isDtor o) = 0 := by
  cases v <;> simp [releaseOf, isDtor]

theorem count_addRefOf (d : Slot) (v : Option Obj) (L : List Slot) (o : Obj) :
    (addRefOf d v L : List (Micro Obj Slot)).count (.release o) = 0 := by
  cases v <;> simp [addRefOf]

theorem countP_addRefOf (d : Slot) (v : Option Obj) (L : List Slot) (o : Obj) :
    (addRefOf d v L : List (Micro Obj Slot)).countP (isDtor o) = 0 := by
  cases v <;> simp [addRefOf, isDtor]

theorem releaseOf_ne_addRef (v : Option Obj) (d : Slot) (o : Obj) (L rest) :
    releaseOf v ≠ .addRef d o L :: rest := by
  cases v <;> simp [releaseOf]

theorem addRef_not_mem_releaseOf (v : Option Obj) (d : Slot) (o : Obj) (L) :
    .addRef d o L ∉ releaseOf v := by
  cases v <;> simp [releaseOf]

theorem dtor_not_mem_releaseOf (v : Option Obj) (o : Obj) (ss : List Slot) :
    .dtor o ss ∉ releaseOf v := by
  cases v <;> simp [releaseOf]

theorem dtor_not_mem_addRefOf (d : Slot) (v : Option Obj) (L) (o : Obj) (ss : List Slot) :
    .dtor o ss ∉ addRefOf d v L := by
  cases v <;> simp [addRefOf]

/-- The operations of an idle thread that only write handles and enqueue releases. -/
theorem inv_writes (I : Inv ly σ) (W : List Slot) (t : Tid) (v : Option Obj)
    (hpc : σ.pc t = [])
    (hW : ∀ d ∈ W, σ.mid d = false ∧ Writable σ d ∧ ∀ p, ly.owner d = some p → σ.status p = .live)
    (hval : ∀ s, s ∉ W → σ'.val s = σ.val s) (hmid : σ'.mid = σ.mid)
    (hp : σ'.pc = upd σ.pc t (releaseOf v)) (hcnt : ∀ o, σ'.cnt o = held σ' o + pend σ'.pc o + (σ'.raw.count o : Nat))
    (hlive : ∀ o, σ'.status o = .live ↔ 1 ≤ σ'.cnt o)
    (hst : ∀ o, σ'.status o = σ.status o ∨ (σ.status o = .unborn ∧ σ'.status o = .live))
    (hdes : σ'.destroyed = σ.destroyed) : Inv ly σ' := by
  have hpc' : ∀ t', t' ≠ t → σ'.pc t' = σ.pc t' := by
    intro t' h; rw [hp, upd_ne _ _ h]
  have hpct : σ'.pc t = releaseOf v := by rw [hp]; simp
  have hadd : ∀ t' d o L rest, σ'.pc t' = .addRef d o L :: rest → σ.pc t' = .addRef d o L :: rest := by
    intro t' d o L rest h
    by_cases ht : t' = t
    · subst ht; rw [hpct] at h; exact absurd h (releaseOf_ne_addRef _ _ _ _ _)
    · rwa [hpc' t' ht] at h
  refine ⟨hcnt, hlive, ?_, ?_, ?_, ?_, ?_, ?_, ?_, ?_, ?_⟩
  · intro t' d o L rest h
    have h' := hadd _ _ _ _ _ h
    obtain ⟨h1, h2, ⟨s, hs, hv⟩, h4, h5⟩ := I.addOK _ _ _ _ _ h'
    have key : ∀ s ∈ L, σ'.val s = σ.val s := by
      intro s hs
      apply hval
      intro hc
      exact not_lock_of_writable (hW s hc).2.1 h' hs
    refine ⟨by rw [hmid]; exact h1, ?_, ⟨s, hs, by rw [key s hs]; exact hv⟩, ?_, ?_⟩
    · rw [hval]
      · exact h2
      · intro hc
        have := (hW d hc).1
        rw [h1] at this; cases this
    · intro s hs; rw [hmid]; exact h4 s hs
    · intro s hs p hp
      rcases h5 s hs p hp with ⟨s', hs', hv'⟩ | hr
      · exact Or.inl ⟨s', hs', by rw [key s' hs']; exact hv'⟩
      · exact Or.inr hr
  · intro t' m rest h d o L hm
    by_cases ht : t' = t
    · subst ht; rw [hpct] at h
      have : Micro.addRef d o L ∈ releaseOf v := by rw [h]; exact List.mem_cons_of_mem _ hm
      exact addRef_not_mem_releaseOf _ _ _ _ this
    · rw [hpc' t' ht] at h; exact I.noAdd _ _ _ h _ _ _ hm
  · intro s hs
    rw [hmid] at hs
    obtain ⟨t', o, L, rest, h⟩ := I.midOK s hs
    refine ⟨t', o, L, rest, ?_⟩
    rw [hpc']
    · exact h
    · rintro rfl; rw [hpc] at h; cases h
  · intro t1 t2 d o L r o' L' r' h1 h2
    exact I.uniq _ _ _ _ _ _ _ _ _ (hadd _ _ _ _ _ h1) (hadd _ _ _ _ _ h2)
  · intro o
    rw [hp, dtors_upd, hpc, countP_releaseOf, I.dtorEq]
    rcases hst o with h | ⟨h1, h2⟩
    · rw [h]; simp
    · rw [h1, h2]; simp
  · intro o
    rw [hdes, I.destr]
    rcases hst o with h | ⟨h1, h2⟩
    · rw [h]
    · rw [h1, h2]; simp
  · intro s p hp hs
    have hst' : σ.status p = .unborn ∨ σ.status p = .freed := by
      rcases hst p with h | ⟨h1, h2⟩
      · rwa [h] at hs
      · rw [h2] at hs; simp at hs
    rw [hval]
    · exact I.dead s p hp hst'
    · intro hc
      have := (hW s hc).2.2 p hp
      rw [this] at hst'; simp at hst'
  · intro t' p ss h s hp hs
    have h' : .dtor p ss ∈ σ.pc t' := by
      by_cases ht : t' = t
      · subst ht; rw [hpct] at h; exact absurd h (dtor_not_mem_releaseOf _ _ _)
      · rwa [hpc' t' ht] at h
    rw [hval]
    · exact I.dying _ _ _ h' s hp hs
    · intro hc
      have h1 := (hW s hc).2.2 p hp
      have h2 := I.dtorEq p
      have h3 := dtors_pos h'
      rw [h1] at h2; simp at h2; omega
  · intro t' p ss h
    refine I.sub t' p ss ?_
    by_cases ht : t' = t
    · subst ht; rw [hpct] at h; exact absurd h (dtor_not_mem_releaseOf _ _ _)
    · rwa [hpc' t' ht] at h

/-- A handle the client may write. -/
theorem writeable_ok (I : Inv ly σ) {U : List Slot} (hl : Legal ly σ U) {d} (hd : d ∈ U)
    (hw : Writable σ d) :
    σ.mid d = false ∧ Writable σ d ∧ ∀ p, ly.owner d = some p → σ.status p = .live :=
  ⟨(hl d hd).1, hw, fun _ hp => I.live_of_legal hl hd hp⟩

theorem upd_nil {t : Tid} (h : σ.pc t = []) : σ.pc = upd σ.pc t (releaseOf none) := by
  funext t'
  by_cases ht : t' = t
  · subst ht; simp [h, releaseOf]
  · rw [upd_ne _ _ ht]

theorem inv_reset (I : Inv ly σ) {t d U} (hpc : σ.pc t = []) (hl : Legal ly σ U) (hd : d ∈ U)
    (hw : Writable σ d) : Inv ly (reset σ t d) := by
  have hm := (hl d hd).1
  have hc : ∀ o, (reset σ t d).cnt o = held (reset σ t d) o + pend (reset σ t d).pc o + ((reset σ t d).raw.count o : Nat) := by
    intro o
    rw [held_upd σ (reset σ t d) d o (by intro s h; simp [reset, upd_ne _ _ h]) (by intro s h; rfl)]
    simp only [reset, upd_same]
    rw [pend_upd, count_releaseOf, hpc, I.cntEq]
    simp [contrib, hm]
  refine inv_writes I [d] t (σ.val d) hpc ?_ ?_ rfl rfl hc ?_ (fun _ => Or.inl rfl) rfl
  · intro d' h; simp at h; subst h; exact writeable_ok I hl hd hw
  · intro s hs; simp at hs; simp [reset, upd_ne _ _ hs]
  · intro o; exact I.live o

theorem inv_mkNew (I : Inv ly σ) {t d o U} (hpc : σ.pc t = []) (hl : Legal ly σ U) (hd : d ∈ U)
    (hw : Writable σ d) (hu : σ.status o = .unborn) : Inv ly (mkNew σ t d o) := by
  have hm := (hl d hd).1
  have h0 : σ.cnt o = 0 := by
    have h1 := I.cnt_nonneg o
    have h2 := I.live o
    rw [hu] at h2; simp at h2; omega
  have hne : σ.val d ≠ some o := by
    intro h
    have := I.live_of_val h
    rw [hu] at this; cases this
  have hc : ∀ x, (mkNew σ t d o).cnt x = held (mkNew σ t d o) x + pend (mkNew σ t d o).pc x + ((mkNew σ t d o).raw.count x : Nat) := by
    intro x
    rw [held_upd σ (mkNew σ t d o) d x (by intro s h; simp [mkNew, upd_ne _ _ h]) (by intro s h; rfl)]
    simp only [mkNew, upd_same]
    rw [pend_upd, count_releaseOf, hpc]
    have := I.cntEq x
    by_cases hx : x = o
    · subst hx; simp [contrib, hm, hne]; omega
    · rw [upd_ne _ _ hx]; simp [contrib, hm, Ne.symm hx]; omega
  refine inv_writes I [d] t (σ.val d) hpc ?_ ?_ rfl rfl hc ?_ ?_ rfl
  · intro d' h; simp at h; subst h; exact writeable_ok I hl hd hw
  · intro s hs; simp at hs; simp [mkNew, upd_ne _ _ hs]
  · intro x
    by_cases hx : x = o
    · subst hx; simp [mkNew]
    · simp only [mkNew, upd_ne _ _ hx]; exact I.live x
  · intro x
    by_cases hx : x = o
    · subst hx; right; simp [mkNew, hu]
    · left; simp [mkNew, upd_ne _ _ hx]

theorem inv_moveCtor (I : Inv ly σ) {t d src U} (hpc : σ.pc t = []) (hl : Legal ly σ U) (hd : d ∈ U)
    (hs : src ∈ U) (hw : Writable σ d) (hw' : Writable σ src) (hne : d ≠ src) (hv : σ.val d = none) :
    Inv ly (moveCtor σ d src) := by
  have hm := (hl d hd).1
  have hm' := (hl src hs).1
  have hc : ∀ o, (moveCtor σ d src).cnt o = held (moveCtor σ d src) o + pend (moveCtor σ d src).pc o + ((moveCtor σ d src).raw.count o : Nat) := by
    intro o
    let τ : State Obj Slot Tid := { σ with val := upd σ.val d (σ.val src) }
    rw [held_upd τ (moveCtor σ d src) src o (by intro s h; simp [moveCtor, τ, upd_ne _ _ h]) (by intro s h; rfl),
      held_upd σ τ d o (by intro s h; simp [τ, upd_ne _ _ h]) (by intro s h; rfl)]
    simp only [moveCtor, τ, upd_same, upd_ne _ _ hne.symm]
    rw [I.cntEq]
    simp [contrib, hm, hm', hv]
  refine inv_writes I [d, src] t none hpc ?_ ?_ rfl (upd_nil hpc) hc ?_ (fun _ => Or.inl rfl) rfl
  · intro d' h; simp at h
    rcases h with rfl | rfl
    · exact writeable_ok I hl hd hw
    · exact writeable_ok I hl hs hw'
  · intro s hs; simp at hs; simp [moveCtor, upd_ne _ _ hs.1, upd_ne _ _ hs.2]
  · intro o; exact I.live o

theorem inv_moveAssign (I : Inv ly σ) {t d src U} (hpc : σ.pc t = []) (hl : Legal ly σ U) (hd : d ∈ U)
    (hs : src ∈ U) (hw : Writable σ d) (hw' : Writable σ src) :
    Inv ly (moveAssign σ t d src) := by
  have hm := (hl d hd).1
  have hm' := (hl src hs).1
  have hpc' : (moveAssign σ t d src).pc = upd σ.pc t (releaseOf (σ.val d)) := by
    simp [moveAssign, reset]
  have hc : ∀ o, (moveAssign σ t d src).cnt o = held (moveAssign σ t d src) o + pend (moveAssign σ t d src).pc o + ((moveAssign σ t d src).raw.count o : Nat) := by
    intro o
    rw [hpc', pend_upd, count_releaseOf, hpc]
    by_cases hne : src = d
    · subst hne
      rw [held_upd σ (moveAssign σ t src src) src o
        (by intro s h; simp [moveAssign, reset, upd_ne _ _ h]) (by intro s h; rfl)]
      simp only [moveAssign, reset, upd_same, hm]
      rw [I.cntEq]
      simp [contrib]
    · let τ : State Obj Slot Tid := { σ with val := upd σ.val d (σ.val src) }
      rw [held_upd τ (moveAssign σ t d src) src o
        (by intro s h; simp [moveAssign, reset, τ, upd_ne _ _ h]) (by intro s h; rfl),
        held_upd σ τ d o (by intro s h; simp [τ, upd_ne _ _ h]) (by intro s h; rfl)]
      simp only [moveAssign, reset, τ, upd_same, upd_ne _ _ hne]
      rw [I.cntEq]
      simp [contrib, hm, hm']
      omega
  refine inv_writes I [d, src] t (σ.val d) hpc ?_ ?_ rfl hpc' hc ?_ (fun _ => Or.inl rfl) rfl
  · intro d' h; simp at h
    rcases h with rfl | rfl
    · exact writeable_ok I hl hd hw
    · exact writeable_ok I hl hs hw'
  · intro s hs; simp at hs; simp [moveAssign, reset, upd_ne _ _ hs.1, upd_ne _ _ hs.2]
  · intro o; exact I.live o

theorem inv_take (I : Inv ly σ) {t d o U} (hpc : σ.pc t = []) (hl : Legal ly σ U) (hd : d ∈ U)
    (hw : Writable σ d) (hv : σ.val d = some o) : Inv ly (take σ d o) := by
  have hm := (hl d hd).1
  have hc : ∀ x, (take σ d o).cnt x = held (take σ d o) x + pend (take σ d o).pc x + ((take σ d o).raw.count x : Nat) := by
    intro x
    rw [held_upd σ (take σ d o) d x (by intro s h; simp [take, upd_ne _ _ h]) (by intro s h; rfl)]
    simp only [take, upd_same]
    rw [I.cntEq, List.count_cons]
    by_cases hx : o = x
    · simp [contrib, hm, hv, hx]; omega
    · simp [contrib, hm, hv, hx]
  refine inv_writes I [d] t none hpc ?_ ?_ rfl (upd_nil hpc) hc ?_ (fun _ => Or.inl rfl) rfl
  · intro d' h; simp at h; subst h; exact writeable_ok I hl hd hw
  · intro s hs; simp at hs; simp [take, upd_ne _ _ hs]
  · intro o; exact I.live o

theorem inv_assume (I : Inv ly σ) {t d o U} (hpc : σ.pc t = []) (hl : Legal ly σ U) (hd : d ∈ U)
    (hw : Writable σ d) (hv : σ.val d = none) (ho : o ∈ σ.raw) : Inv ly (assume σ d o) := by
  have hm := (hl d hd).1
  have hc : ∀ x, (assume σ d o).cnt x = held (assume σ d o) x + pend (assume σ d o).pc x + ((assume σ d o).raw.count x : Nat) := by
    intro x
    rw [held_upd σ (assume σ d o) d x (by intro s h; simp [assume, upd_ne _ _ h]) (by intro s h; rfl)]
    simp only [assume, upd_same]
    rw [I.cntEq]
    have h1 : 1 ≤ σ.raw.count o := List.one_le_count_iff.mpr ho
    by_cases hx : x = o
    · subst hx
      rw [List.count_erase_self]
      simp [contrib, hm, hv]; omega
    · rw [List.count_erase_of_ne hx]
      simp [contrib, hm, hv, Ne.symm hx]
  refine inv_writes I [d] t none hpc ?_ ?_ rfl (upd_nil hpc) hc ?_ (fun _ => Or.inl rfl) rfl
  · intro d' h; simp at h; subst h; exact writeable_ok I hl hd hw
  · intro s hs; simp at hs; simp [assume, upd_ne _ _ hs]
  · intro o; exact I.live o

theorem inv_of_pc_none (I : Inv ly σ) {t d U} (hpc : σ.pc t = []) (hl : Legal ly σ U) (hd : d ∈ U)
    (hw : Writable σ d) (v : Option Obj) (hv : σ.val d = v) (τ : State Obj Slot Tid)
    (hτ : τ = { σ with val := upd σ.val d none, mid := upd σ.mid d false, pc := upd σ.pc t (releaseOf v) }) :
    Inv ly τ := by
  have hm := (hl d hd).1
  have e : τ = reset σ t d := by
    subst hτ hv
    have : upd σ.mid d false = σ.mid := by
      funext s
      by_cases h : s = d
      · subst h; simp [hm]
      · simp [upd_ne _ _ h]
    simp [reset, this]
  rw [e]
  exact inv_reset I hpc hl hd hw

/-- Assigning a handle a reference that another handle holds. -/
theorem inv_share (I : Inv ly σ) {t d src U o} (hpc : σ.pc t = []) (hl : Legal ly σ U) (hd : d ∈ U)
    (hs : src ∈ U) (hw : Writable σ d) (hv : σ.val src = some o) (hne : σ.val d ≠ some o) :
    Inv ly { σ with val := upd σ.val d (some o), mid := upd σ.mid d true, pc := upd σ.pc t (.addRef d o (U.filter (· ≠ d)) :: releaseOf (σ.val d)) } := by
  have hm := (hl d hd).1
  have hsd : src ≠ d := by rintro rfl; exact hne hv
  set τ : State Obj Slot Tid := { σ with val := upd σ.val d (some o), mid := upd σ.mid d true, pc := upd σ.pc t (.addRef d o (U.filter (· ≠ d)) :: releaseOf (σ.val d)) } with hτ
  have hpc' : ∀ t', t' ≠ t → τ.pc t' = σ.pc t' := by
    intro t' h; simp [hτ, upd_ne _ _ h]
  have hpct : τ.pc t = .addRef d o (U.filter (· ≠ d)) :: releaseOf (σ.val d) := by simp [hτ]
  have hval : ∀ s, s ≠ d → τ.val s = σ.val s := by intro s h; simp [hτ, upd_ne _ _ h]
  have hmid : ∀ s, s ≠ d → τ.mid s = σ.mid s := by intro s h; simp [hτ, upd_ne _ _ h]
  refine ⟨?_, I.live, ?_, ?_, ?_, ?_, ?_, I.destr, ?_, ?_, ?_⟩
  · intro x
    rw [held_upd σ τ d x hval hmid]
    have e : τ.pc = upd σ.pc t (.addRef d o (U.filter (· ≠ d)) :: releaseOf (σ.val d)) := rfl
    rw [e, pend_upd, hpc, List.count_cons]
    have h1 := count_releaseOf (Slot := Slot) (σ.val d) x
    have h2 := I.cntEq x
    simp only [hτ, upd_same, contrib, hm]
    have h3 : ((Micro.addRef d o (U.filter (· ≠ d)) : Micro Obj Slot) == .release x) = false := by simp
    rw [h3]
    simp only [Bool.true_eq_false, and_false, if_false, and_true, List.count_nil, Nat.cast_zero]
    push_cast
    rw [h1]
    simp
    omega
  · intro t' d' o' L rest h
    by_cases ht : t' = t
    · subst ht
      rw [hpct] at h
      simp only [List.cons.injEq, Micro.addRef.injEq] at h
      obtain ⟨⟨rfl, rfl, rfl⟩, rfl⟩ := h
      have hL : ∀ s ∈ U.filter (· ≠ d), s ∈ U ∧ s ≠ d := by
        intro s hs; simpa using hs
      refine ⟨by simp [hτ], by simp [hτ], ⟨src, by simp [hs, hsd], by rw [hval _ hsd]; exact hv⟩, ?_, ?_⟩
      · intro s hs'
        rw [hmid s (hL s hs').2]; exact (hl s (hL s hs').1).1
      · intro s hs' p hp
        have hsU : s ∈ U := by
          rcases List.mem_cons.mp hs' with rfl | h
          · exact hd
          · exact (hL s h).1
        obtain ⟨s', hs'', hv'⟩ := (hl s hsU).2 p hp
        by_cases hd' : s' = d
        · right; subst hd'; rw [hv']; simp [releaseOf]
        · left; exact ⟨s', by simp [hs'', hd'], by rw [hval _ hd']; exact hv'⟩
    · rw [hpc' t' ht] at h
      have hdd := not_dst_of_legal I hl hd h
      obtain ⟨h1, h2, ⟨s, hs', hv'⟩, h4, h5⟩ := I.addOK _ _ _ _ _ h
      have hdL := not_lock_of_writable hw h
      have key : ∀ s ∈ L, s ≠ d := by rintro s hs rfl; exact hdL hs
      refine ⟨by rw [hmid _ hdd]; exact h1, by rw [hval _ hdd]; exact h2,
        ⟨s, hs', by rw [hval _ (key s hs')]; exact hv'⟩, ?_, ?_⟩
      · intro s hs; rw [hmid _ (key s hs)]; exact h4 s hs
      · intro s hs p hp
        rcases h5 s hs p hp with ⟨s', hs', hv'⟩ | hr
        · exact Or.inl ⟨s', hs', by rw [hval _ (key s' hs')]; exact hv'⟩
        · exact Or.inr hr
  · intro t' m rest h d' o' L' hm'
    by_cases ht : t' = t
    · subst ht; rw [hpct] at h
      simp only [List.cons.injEq] at h
      rw [← h.2] at hm'
      exact addRef_not_mem_releaseOf _ _ _ _ hm'
    · rw [hpc' t' ht] at h; exact I.noAdd _ _ _ h _ _ _ hm'
  · intro s hs'
    by_cases h : s = d
    · subst h; exact ⟨t, _, _, _, hpct⟩
    · rw [hmid _ h] at hs'
      obtain ⟨t', o', L, rest, h⟩ := I.midOK s hs'
      refine ⟨t', o', L, rest, ?_⟩
      rw [hpc']
      · exact h
      · rintro rfl; rw [hpc] at h; cases h
  · intro t1 t2 d' o1 L1 r1 o2 L2 r2 h1 h2
    by_cases ht1 : t1 = t
    · by_cases ht2 : t2 = t
      · rw [ht1, ht2]
      · rw [hpc' _ ht2] at h2
        subst ht1; rw [hpct] at h1
        simp only [List.cons.injEq, Micro.addRef.injEq] at h1
        exact absurd h1.1.1.symm (not_dst_of_legal I hl hd h2)
    · rw [hpc' _ ht1] at h1
      by_cases ht2 : t2 = t
      · subst ht2; rw [hpct] at h2
        simp only [List.cons.injEq, Micro.addRef.injEq] at h2
        exact absurd h2.1.1.symm (not_dst_of_legal I hl hd h1)
      · rw [hpc' _ ht2] at h2
        exact I.uniq _ _ _ _ _ _ _ _ _ h1 h2
  · intro x
    have e : τ.pc = upd σ.pc t (.addRef d o (U.filter (· ≠ d)) :: releaseOf (σ.val d)) := rfl
    rw [e, dtors_upd, hpc, List.countP_cons, countP_releaseOf, I.dtorEq]
    simp [isDtor, hτ]
  · intro s p hp hst
    have hst' : σ.status p = .unborn ∨ σ.status p = .freed := hst
    rw [hval]
    · exact I.dead s p hp hst'
    · rintro rfl
      have := I.live_of_legal hl hd hp
      rw [this] at hst'; simp at hst'
  · intro t' p ss h s hp hss
    have h' : .dtor p ss ∈ σ.pc t' := by
      by_cases ht : t' = t
      · subst ht; rw [hpct] at h
        simp at h
        exact absurd h (dtor_not_mem_releaseOf _ _ _)
      · rwa [hpc' t' ht] at h
    rw [hval]
    · exact I.dying _ _ _ h' s hp hss
    · rintro rfl
      have h1 := I.live_of_legal hl hd hp
      have h2 := I.dtorEq p
      have h3 := dtors_pos h'
      rw [h1] at h2; simp at h2; omega
  · intro t' p ss h
    refine I.sub t' p ss ?_
    by_cases ht : t' = t
    · subst ht; rw [hpct] at h
      simp at h
      exact absurd h (dtor_not_mem_releaseOf _ _ _)
    · rwa [hpc' t' ht] at h

theorem inv_assign (I : Inv ly σ) {t d src U} (hpc : σ.pc t = []) (hl : Legal ly σ U) (hd : d ∈ U)
    (hs : src ∈ U) (hw : Writable σ d) : Inv ly (assign σ t d src U) := by
  unfold assign
  split
  · next h =>
    cases hv : σ.val src with
    | none => exact inv_of_pc_none I hpc hl hd hw (σ.val d) rfl _ (by simp [addRefOf])
    | some o => exact inv_share I hpc hl hd hs hw hv (by rw [hv] at h; exact h)
  · exact I

theorem inv_copyCtor (I : Inv ly σ) {t d src U} (hpc : σ.pc t = []) (hl : Legal ly σ U) (hd : d ∈ U)
    (hs : src ∈ U) (hw : Writable σ d) (hn : σ.val d = none) :
    Inv ly (copyCtor σ t d src U) := by
  unfold copyCtor
  cases hv : σ.val src with
  | none => exact inv_of_pc_none I hpc hl hd hw none hn _ (by simp [addRefOf, releaseOf])
  | some o =>
    have := inv_share I hpc hl hd hs hw hv (by rw [hn]; simp)
    rw [hn] at this
    exact this

theorem inv_client (I : Inv ly σ) (h : Client.Step ly σ σ') : Inv ly σ' := by
  cases h with
  | mkNew t d o U h1 h2 h3 h4 h5 => exact inv_mkNew I h1 h2 h3 h4 h5
  | copyCtor t d src U h1 h2 h3 h4 h5 h6 h7 => exact inv_copyCtor I h1 h2 h3 h4 h5 h7
  | assign t d src U h1 h2 h3 h4 h5 => exact inv_assign I h1 h2 h3 h4 h5
  | reset t d U h1 h2 h3 h4 => exact inv_reset I h1 h2 h3 h4
  | moveCtor t d src U h1 h2 h3 h4 h5 h6 h7 h8 => exact inv_moveCtor I h1 h2 h3 h4 h5 h6 h7 h8
  | moveAssign t d src U h1 h2 h3 h4 h5 h6 => exact inv_moveAssign I h1 h2 h3 h4 h5 h6
  | take t d o U h1 h2 h3 h4 h5 => exact inv_take I h1 h2 h3 h4 h5
  | assume t d o U h1 h2 h3 h4 h5 h6 => exact inv_assume I h1 h2 h3 h4 h5 h6

/-! ## Steps of the implementation -/

theorem not_addRef_head (I : Inv ly σ) {t m rest} (h : σ.pc t = m :: rest) {d o L r} :
    rest ≠ .addRef d o L :: r := by
  rintro rfl
  exact I.noAdd t m _ h d o L (by simp)

theorem dying_of_dtor (I : Inv ly σ) {t o ss} (h : .dtor o ss ∈ σ.pc t) : σ.status o = .dying := by
  have h1 := dtors_pos h
  have h2 := I.dtorEq o
  by_contra hc
  rw [if_neg hc] at h2; omega

theorem inv_addRef (I : Inv ly σ) {t d o L rest} (h : σ.pc t = .addRef d o L :: rest) :
    Inv ly (doAddRef σ t d o rest) := by
  obtain ⟨m1, v1, ⟨s0, hs0, hv0⟩, m4, _⟩ := I.addOK _ _ _ _ _ h
  set τ := doAddRef σ t d o rest with hτ
  have hpc' : ∀ t', t' ≠ t → τ.pc t' = σ.pc t' := by
    intro t' h; simp [hτ, doAddRef, upd_ne _ _ h]
  have hpct : τ.pc t = rest := by simp [hτ, doAddRef]
  have hmid : ∀ s, s ≠ d → τ.mid s = σ.mid s := by intro s h; simp [hτ, doAddRef, upd_ne _ _ h]
  have hpcE : τ.pc = upd σ.pc t rest := rfl
  have hadd : ∀ t' d o L r, τ.pc t' = .addRef d o L :: r → t' ≠ t ∧ σ.pc t' = .addRef d o L :: r := by
    intro t' d o L r h'
    by_cases ht : t' = t
    · subst ht; rw [hpct] at h'; exact absurd h' (not_addRef_head I h)
    · rw [hpc' t' ht] at h'; exact ⟨ht, h'⟩
  have hmem : ∀ t' m, m ∈ τ.pc t' → m ∈ σ.pc t' := by
    intro t' m hm
    by_cases ht : t' = t
    · subst ht; rw [hpct] at hm; rw [h]; exact List.mem_cons_of_mem _ hm
    · rwa [hpc' t' ht] at hm
  refine ⟨?_, ?_, ?_, ?_, ?_, ?_, ?_, I.destr, I.dead, ?_, ?_⟩
  · intro x
    rw [held_upd σ τ d x (fun _ _ => rfl) hmid, hpcE, pend_upd, h]
    have h2 := I.cntEq x
    have e1 : τ.cnt = upd σ.cnt o (σ.cnt o + 1) := rfl
    have e2 : τ.mid d = false := by simp [hτ, doAddRef]
    have e3 : τ.val d = some o := v1
    have e4 : τ.raw = σ.raw := rfl
    rw [e1, e2, e3, e4, m1, v1]
    by_cases hx : x = o
    · subst hx; simp [contrib]; omega
    · rw [upd_ne _ _ hx]; simp [contrib, Ne.symm hx]; omega
  · intro x
    have e1 : τ.cnt = upd σ.cnt o (σ.cnt o + 1) := rfl
    have e2 : τ.status = σ.status := rfl
    rw [e1, e2]
    by_cases hx : x = o
    · subst hx
      have h3 := I.live_of_val v1
      have h4 := (I.live x).mp h3
      simp only [upd_same]
      exact ⟨fun _ => by omega, fun _ => h3⟩
    · rw [upd_ne _ _ hx]; exact I.live x
  · intro t' d' o' L' r h'
    obtain ⟨ht, h''⟩ := hadd _ _ _ _ _ h'
    have hdd : d' ≠ d := by
      rintro rfl; exact ht (I.uniq _ _ _ _ _ _ _ _ _ h'' h)
    obtain ⟨h1, h2, h3, h4, h5⟩ := I.addOK _ _ _ _ _ h''
    refine ⟨by rw [hmid _ hdd]; exact h1, h2, h3, ?_, h5⟩
    intro s hs
    by_cases hsd : s = d
    · subst hsd; simp [hτ, doAddRef]
    · rw [hmid _ hsd]; exact h4 s hs
  · intro t' m r h' d' o' L' hm
    by_cases ht : t' = t
    · subst ht
      rw [hpct] at h'
      refine I.noAdd _ _ _ h d' o' L' ?_
      rw [h']; exact List.mem_cons_of_mem _ hm
    · rw [hpc' t' ht] at h'; exact I.noAdd _ _ _ h' _ _ _ hm
  · intro s hs
    by_cases hsd : s = d
    · subst hsd; simp [hτ, doAddRef] at hs
    · rw [hmid _ hsd] at hs
      obtain ⟨t', o', L', r, h'⟩ := I.midOK s hs
      refine ⟨t', o', L', r, ?_⟩
      rw [hpc']
      · exact h'
      · rintro rfl
        rw [h] at h'
        simp only [List.cons.injEq, Micro.addRef.injEq] at h'
        exact hsd h'.1.1.symm
  · intro t1 t2 d' o1 L1 r1 o2 L2 r2 h1 h2
    exact I.uniq _ _ _ _ _ _ _ _ _ (hadd _ _ _ _ _ h1).2 (hadd _ _ _ _ _ h2).2
  · intro x
    rw [hpcE, dtors_upd, h, I.dtorEq, List.countP_cons]
    simp only [isDtor]
    simp [hτ, doAddRef]
  · intro t' p ss hm; exact I.dying _ _ _ (hmem _ _ hm)
  · intro t' p ss hm; exact I.sub _ _ _ (hmem _ _ hm)

theorem inv_release (I : Inv ly σ) {t o rest} (h : σ.pc t = .release o :: rest) :
    Inv ly (doRelease ly σ t o rest) := by
  have hlive : σ.status o = .live := I.live_of_release (t := t) (by rw [h]; simp)
  have hcnt1 := (I.live o).mp hlive
  unfold doRelease
  split
  · next hc =>
    set τ : State Obj Slot Tid := { σ with cnt := upd σ.cnt o (σ.cnt o - 1), status := upd σ.status o .dying, destroyed := upd σ.destroyed o (σ.destroyed o + 1), pc := upd σ.pc t (.dtor o (ly.fields o) :: rest) } with hτ
    have hpc' : ∀ t', t' ≠ t → τ.pc t' = σ.pc t' := by
      intro t' h; simp [hτ, upd_ne _ _ h]
    have hpct : τ.pc t = .dtor o (ly.fields o) :: rest := by simp [hτ]
    have hpcE : τ.pc = upd σ.pc t (.dtor o (ly.fields o) :: rest) := rfl
    have hadd : ∀ t' d o L r, τ.pc t' = .addRef d o L :: r → t' ≠ t ∧ σ.pc t' = .addRef d o L :: r := by
      intro t' d o L r h'
      by_cases ht : t' = t
      · subst ht; rw [hpct] at h'; simp at h'
      · rw [hpc' t' ht] at h'; exact ⟨ht, h'⟩
    have hmem : ∀ t' p ss, .dtor p ss ∈ τ.pc t' → (p = o ∧ ss = ly.fields o) ∨ .dtor p ss ∈ σ.pc t' := by
      intro t' p ss hm
      by_cases ht : t' = t
      · subst ht; rw [hpct] at hm; rw [h]
        rcases List.mem_cons.mp hm with he | he
        · cases he; exact Or.inl ⟨rfl, rfl⟩
        · exact Or.inr (List.mem_cons_of_mem _ he)
      · rw [hpc' t' ht] at hm; exact Or.inr hm
    have est : τ.status = upd σ.status o .dying := rfl
    refine ⟨?_, ?_, ?_, ?_, ?_, ?_, ?_, ?_, ?_, ?_, ?_⟩
    · intro x
      have h2 := I.cntEq x
      have e1 : τ.cnt = upd σ.cnt o (σ.cnt o - 1) := rfl
      have e3 : held τ x = held σ x := rfl
      have e4 : τ.raw = σ.raw := rfl
      rw [hpcE, pend_upd, h, e1, e3, e4]
      by_cases hx : x = o
      · subst hx; simp; omega
      · rw [upd_ne _ _ hx]; simp [List.count_cons, Ne.symm hx]; omega
    · intro x
      have e1 : τ.cnt = upd σ.cnt o (σ.cnt o - 1) := rfl
      rw [e1, est]
      by_cases hx : x = o
      · subst hx; simp [hc]
      · rw [upd_ne _ _ hx, upd_ne _ _ hx]; exact I.live x
    · intro t' d' o' L' r h'
      exact I.addOK _ _ _ _ _ (hadd _ _ _ _ _ h').2
    · intro t' m r h' d' o' L' hm
      by_cases ht : t' = t
      · subst ht
        rw [hpct] at h'
        simp only [List.cons.injEq] at h'
        rw [← h'.2] at hm
        exact I.noAdd _ _ _ h d' o' L' hm
      · rw [hpc' t' ht] at h'; exact I.noAdd _ _ _ h' _ _ _ hm
    · intro s hs
      obtain ⟨t', o', L', r, h'⟩ := I.midOK s hs
      refine ⟨t', o', L', r, ?_⟩
      rw [hpc']
      · exact h'
      · rintro rfl; rw [h] at h'; simp at h'
    · intro t1 t2 d' o1 L1 r1 o2 L2 r2 h1 h2
      exact I.uniq _ _ _ _ _ _ _ _ _ (hadd _ _ _ _ _ h1).2 (hadd _ _ _ _ _ h2).2
    · intro x
      have h2 := I.dtorEq x
      rw [hpcE, dtors_upd, h, List.countP_cons, List.countP_cons, est]
      by_cases hx : x = o
      · subst hx
        rw [hlive] at h2
        simp [isDtor] at h2 ⊢; omega
      · rw [upd_ne _ _ hx]
        simp [isDtor, Ne.symm hx]; omega
    · intro x
      have h2 := I.destr x
      have e1 : τ.destroyed = upd σ.destroyed o (σ.destroyed o + 1) := rfl
      rw [e1, est]
      by_cases hx : x = o
      · subst hx
        rw [hlive] at h2
        simp at h2 ⊢; omega
      · rw [upd_ne _ _ hx, upd_ne _ _ hx]; exact h2
    · intro s p hp hst
      rw [est] at hst
      by_cases hx : p = o
      · subst hx; simp at hst
      · rw [upd_ne _ _ hx] at hst; exact I.dead s p hp hst
    · intro t' p ss hm s hp hs
      rcases hmem _ _ _ hm with ⟨rfl, rfl⟩ | h'
      · exact absurd ((ly.mem_fields _ _).mpr hp) hs
      · exact I.dying _ _ _ h' s hp hs
    · intro t' p ss hm s hs
      rcases hmem _ _ _ hm with ⟨rfl, rfl⟩ | h'
      · exact (ly.mem_fields _ _).mp hs
      · exact I.sub _ _ _ h' s hs
  · next hc =>
    set τ : State Obj Slot Tid := { σ with cnt := upd σ.cnt o (σ.cnt o - 1), pc := upd σ.pc t rest } with hτ
    have hpc' : ∀ t', t' ≠ t → τ.pc t' = σ.pc t' := by
      intro t' h; simp [hτ, upd_ne _ _ h]
    have hpct : τ.pc t = rest := by simp [hτ]
    have hpcE : τ.pc = upd σ.pc t rest := rfl
    have hadd : ∀ t' d o L r, τ.pc t' = .addRef d o L :: r → t' ≠ t ∧ σ.pc t' = .addRef d o L :: r := by
      intro t' d o L r h'
      by_cases ht : t' = t
      · subst ht; rw [hpct] at h'; exact absurd h' (not_addRef_head I h)
      · rw [hpc' t' ht] at h'; exact ⟨ht, h'⟩
    have hmem : ∀ t' m, m ∈ τ.pc t' → m ∈ σ.pc t' := by
      intro t' m hm
      by_cases ht : t' = t
      · subst ht; rw [hpct] at hm; rw [h]; exact List.mem_cons_of_mem _ hm
      · rwa [hpc' t' ht] at hm
    refine ⟨?_, ?_, ?_, ?_, ?_, ?_, ?_, I.destr, I.dead, ?_, ?_⟩
    · intro x
      have h2 := I.cntEq x
      have e1 : τ.cnt = upd σ.cnt o (σ.cnt o - 1) := rfl
      have e3 : held τ x = held σ x := rfl
      have e4 : τ.raw = σ.raw := rfl
      rw [hpcE, pend_upd, h, e1, e3, e4]
      by_cases hx : x = o
      · subst hx; simp; omega
      · rw [upd_ne _ _ hx]; simp [List.count_cons, Ne.symm hx]; omega
    · intro x
      have e1 : τ.cnt = upd σ.cnt o (σ.cnt o - 1) := rfl
      have e2 : τ.status = σ.status := rfl
      rw [e1, e2]
      by_cases hx : x = o
      · subst hx; simp only [upd_same]; exact ⟨fun _ => by omega, fun _ => hlive⟩
      · rw [upd_ne _ _ hx]; exact I.live x
    · intro t' d' o' L' r h'
      exact I.addOK _ _ _ _ _ (hadd _ _ _ _ _ h').2
    · intro t' m r h' d' o' L' hm
      by_cases ht : t' = t
      · subst ht
        rw [hpct] at h'
        refine I.noAdd _ _ _ h d' o' L' ?_
        rw [h']; exact List.mem_cons_of_mem _ hm
      · rw [hpc' t' ht] at h'; exact I.noAdd _ _ _ h' _ _ _ hm
    · intro s hs
      obtain ⟨t', o', L', r, h'⟩ := I.midOK s hs
      refine ⟨t', o', L', r, ?_⟩
      rw [hpc']
      · exact h'
      · rintro rfl; rw [h] at h'; simp at h'
    · intro t1 t2 d' o1 L1 r1 o2 L2 r2 h1 h2
      exact I.uniq _ _ _ _ _ _ _ _ _ (hadd _ _ _ _ _ h1).2 (hadd _ _ _ _ _ h2).2
    · intro x
      rw [hpcE, dtors_upd, h, I.dtorEq, List.countP_cons]
      simp only [isDtor]
      simp [hτ]
    · intro t' p ss hm; exact I.dying _ _ _ (hmem _ _ hm)
    · intro t' p ss hm; exact I.sub _ _ _ (hmem _ _ hm)

theorem inv_field (I : Inv ly σ) {t o s ss rest} (h : σ.pc t = .dtor o (s :: ss) :: rest) :
    Inv ly (doField σ t o s ss rest) := by
  have hdy : σ.status o = .dying := dying_of_dtor I (t := t) (by rw [h]; exact List.mem_cons_self)
  have hown : ly.owner s = some o := I.sub t o (s :: ss) (by rw [h]; exact List.mem_cons_self) s (by simp)
  have hlock : ∀ t' d' o' L' r, σ.pc t' = .addRef d' o' L' :: r → s ∉ d' :: L' := by
    intro t' d' o' L' r h' hs
    have := I.live_of_lock h' hs hown
    rw [hdy] at this; cases this
  have hm : σ.mid s = false := by
    cases hm : σ.mid s with
    | false => rfl
    | true =>
      obtain ⟨t', o', L', r, h'⟩ := I.midOK s hm
      exact absurd List.mem_cons_self (hlock _ _ _ _ _ h')
  set τ := doField σ t o s ss rest with hτ
  have hpc' : ∀ t', t' ≠ t → τ.pc t' = σ.pc t' := by
    intro t' h; simp [hτ, doField, upd_ne _ _ h]
  have hpct : τ.pc t = releaseOf (σ.val s) ++ .dtor o ss :: rest := by simp [hτ, doField]
  have hpcE : τ.pc = upd σ.pc t (releaseOf (σ.val s) ++ .dtor o ss :: rest) := rfl
  have hval : ∀ x, x ≠ s → τ.val x = σ.val x := by intro x h; simp [hτ, doField, upd_ne _ _ h]
  have hvs : τ.val s = none := by simp [hτ, doField]
  have hnone : ∀ x, σ.val x = none → τ.val x = none := by
    intro x hx
    by_cases e : x = s
    · subst e; exact hvs
    · rw [hval x e]; exact hx
  have hnoadd : ∀ m r, τ.pc t = m :: r → ∀ d o L, .addRef d o L ∉ m :: r := by
    intro m r h' d' o' L' hm'
    rw [← h', hpct] at hm'
    rcases List.mem_append.mp hm' with h1 | h1
    · exact addRef_not_mem_releaseOf _ _ _ _ h1
    · rcases List.mem_cons.mp h1 with h2 | h2
      · cases h2
      · exact I.noAdd _ _ _ h _ _ _ h2
  have hadd : ∀ t' d o L r, τ.pc t' = .addRef d o L :: r → t' ≠ t ∧ σ.pc t' = .addRef d o L :: r := by
    intro t' d o L r h'
    by_cases ht : t' = t
    · subst ht; exact absurd List.mem_cons_self (hnoadd _ _ h' d o L)
    · rw [hpc' t' ht] at h'; exact ⟨ht, h'⟩
  have hmem : ∀ t' p ss', .dtor p ss' ∈ τ.pc t' → (t' = t ∧ p = o ∧ ss' = ss) ∨ .dtor p ss' ∈ σ.pc t' := by
    intro t' p ss' hm'
    by_cases ht : t' = t
    · subst ht; rw [hpct] at hm'; rw [h]
      rcases List.mem_append.mp hm' with h1 | h1
      · exact absurd h1 (dtor_not_mem_releaseOf _ _ _)
      · rcases List.mem_cons.mp h1 with h2 | h2
        · cases h2; exact Or.inl ⟨rfl, rfl, rfl⟩
        · exact Or.inr (List.mem_cons_of_mem _ h2)
    · rw [hpc' t' ht] at hm'; exact Or.inr hm'
  refine ⟨?_, I.live, ?_, ?_, ?_, ?_, ?_, I.destr, ?_, ?_, ?_⟩
  · intro x
    have h2 := I.cntEq x
    have e1 : τ.cnt = σ.cnt := rfl
    have e2 : τ.mid s = false := hm
    have e4 : τ.raw = σ.raw := rfl
    rw [held_upd σ τ s x hval (fun _ _ => rfl), hpcE, pend_upd, h, e1, e2, e4, hvs, hm, List.count_append]
    push_cast
    rw [count_releaseOf]
    simp [contrib]; omega
  · intro t' d' o' L' r h'
    have h'' := (hadd _ _ _ _ _ h').2
    obtain ⟨h1, h2, ⟨s1, hs1, hv1⟩, h4, h5⟩ := I.addOK _ _ _ _ _ h''
    have hl := hlock _ _ _ _ _ h''
    simp only [List.mem_cons, not_or] at hl
    have key : ∀ x ∈ L', x ≠ s := by rintro x hx rfl; exact hl.2 hx
    refine ⟨h1, by rw [hval _ (Ne.symm hl.1)]; exact h2,
      ⟨s1, hs1, by rw [hval _ (key _ hs1)]; exact hv1⟩, h4, ?_⟩
    intro x hx p hp
    rcases h5 x hx p hp with ⟨s', hs', hv'⟩ | hr
    · exact Or.inl ⟨s', hs', by rw [hval _ (key s' hs')]; exact hv'⟩
    · exact Or.inr hr
  · intro t' m r h' d' o' L' hm'
    by_cases ht : t' = t
    · subst ht; exact hnoadd _ _ h' d' o' L' (List.mem_cons_of_mem _ hm')
    · rw [hpc' t' ht] at h'; exact I.noAdd _ _ _ h' _ _ _ hm'
  · intro x hx
    obtain ⟨t', o', L', r, h'⟩ := I.midOK x hx
    refine ⟨t', o', L', r, ?_⟩
    rw [hpc']
    · exact h'
    · rintro rfl; rw [h] at h'; simp at h'
  · intro t1 t2 d' o1 L1 r1 o2 L2 r2 h1 h2
    exact I.uniq _ _ _ _ _ _ _ _ _ (hadd _ _ _ _ _ h1).2 (hadd _ _ _ _ _ h2).2
  · intro x
    have h2 := I.dtorEq x
    have est : τ.status = σ.status := rfl
    rw [hpcE, dtors_upd, h, List.countP_append, countP_releaseOf, List.countP_cons, List.countP_cons, est]
    simp [isDtor]; omega
  · intro x p hp hst
    exact hnone _ (I.dead x p hp hst)
  · intro t' p ss' hm' x hp hx
    rcases hmem _ _ _ hm' with ⟨rfl, rfl, rfl⟩ | h'
    · by_cases e : x = s
      · subst e; exact hvs
      · exact hnone _ (I.dying t' p (s :: ss') (by rw [h]; exact List.mem_cons_self) x hp (by simp [e, hx]))
    · exact hnone _ (I.dying _ _ _ h' x hp hx)
  · intro t' p ss' hm' x hx
    rcases hmem _ _ _ hm' with ⟨rfl, rfl, rfl⟩ | h'
    · exact I.sub t' p (s :: ss') (by rw [h]; exact List.mem_cons_self) x (by simp [hx])
    · exact I.sub _ _ _ h' x hx

theorem inv_free (I : Inv ly σ) {t o rest} (h : σ.pc t = .dtor o [] :: rest) :
    Inv ly (doFree σ t o rest) := by
  have hdy : σ.status o = .dying := dying_of_dtor I (t := t) (by rw [h]; exact List.mem_cons_self)
  set τ := doFree σ t o rest with hτ
  have hpc' : ∀ t', t' ≠ t → τ.pc t' = σ.pc t' := by
    intro t' h; simp [hτ, doFree, upd_ne _ _ h]
  have hpct : τ.pc t = rest := by simp [hτ, doFree]
  have hpcE : τ.pc = upd σ.pc t rest := rfl
  have est : τ.status = upd σ.status o .freed := rfl
  have hadd : ∀ t' d o L r, τ.pc t' = .addRef d o L :: r → t' ≠ t ∧ σ.pc t' = .addRef d o L :: r := by
    intro t' d o L r h'
    by_cases ht : t' = t
    · subst ht; rw [hpct] at h'; exact absurd h' (not_addRef_head I h)
    · rw [hpc' t' ht] at h'; exact ⟨ht, h'⟩
  have hmem : ∀ t' m, m ∈ τ.pc t' → m ∈ σ.pc t' := by
    intro t' m hm
    by_cases ht : t' = t
    · subst ht; rw [hpct] at hm; rw [h]; exact List.mem_cons_of_mem _ hm
    · rwa [hpc' t' ht] at hm
  refine ⟨?_, ?_, ?_, ?_, ?_, ?_, ?_, ?_, ?_, ?_, ?_⟩
  · intro x
    have h2 := I.cntEq x
    have e1 : τ.cnt = σ.cnt := rfl
    have e3 : held τ x = held σ x := rfl
    have e4 : τ.raw = σ.raw := rfl
    rw [hpcE, pend_upd, h, e1, e3, e4]
    simp; omega
  · intro x
    have e1 : τ.cnt = σ.cnt := rfl
    rw [e1, est, ← I.live x]
    by_cases hx : x = o
    · subst hx; simp [hdy]
    · rw [upd_ne _ _ hx]
  · intro t' d' o' L' r h'
    exact I.addOK _ _ _ _ _ (hadd _ _ _ _ _ h').2
  · intro t' m r h' d' o' L' hm
    by_cases ht : t' = t
    · subst ht
      rw [hpct] at h'
      refine I.noAdd _ _ _ h d' o' L' ?_
      rw [h']; exact List.mem_cons_of_mem _ hm
    · rw [hpc' t' ht] at h'; exact I.noAdd _ _ _ h' _ _ _ hm
  · intro s hs
    obtain ⟨t', o', L', r, h'⟩ := I.midOK s hs
    refine ⟨t', o', L', r, ?_⟩
    rw [hpc']
    · exact h'
    · rintro rfl; rw [h] at h'; simp at h'
  · intro t1 t2 d' o1 L1 r1 o2 L2 r2 h1 h2
    exact I.uniq _ _ _ _ _ _ _ _ _ (hadd _ _ _ _ _ h1).2 (hadd _ _ _ _ _ h2).2
  · intro x
    have h2 := I.dtorEq x
    rw [hpcE, dtors_upd, h, List.countP_cons, est]
    by_cases hx : x = o
    · subst hx; rw [hdy] at h2; simp [isDtor] at h2 ⊢; omega
    · rw [upd_ne _ _ hx]; simp [isDtor, Ne.symm hx]; omega
  · intro x
    have h2 := I.destr x
    have e1 : τ.destroyed = σ.destroyed := rfl
    rw [e1, est]
    by_cases hx : x = o
    · subst hx; rw [hdy] at h2; simpa using h2
    · rw [upd_ne _ _ hx]; exact h2
  · intro s p hp hst
    rw [est] at hst
    by_cases hx : p = o
    · subst hx
      exact I.dying t p [] (by rw [h]; exact List.mem_cons_self) s hp (by simp)
    · rw [upd_ne _ _ hx] at hst; exact I.dead s p hp hst
  · intro t' p ss hm; exact I.dying _ _ _ (hmem _ _ hm)
  · intro t' p ss hm; exact I.sub _ _ _ (hmem _ _ hm)

theorem inv_micro (I : Inv ly σ) (h : Micro.Step ly σ σ') : Inv ly σ' := by
  cases h with
  | addRef t d o L rest h => exact inv_addRef I h
  | release t o rest h => exact inv_release I h
  | field t o s ss rest h => exact inv_field I h
  | free t o rest h => exact inv_free I h

theorem inv_reachable (h : Reachable ly σ) : Inv ly σ := by
  induction h with
  | init => exact inv_init
  | client _ h ih => exact inv_client ih h
  | micro _ h ih => exact inv_micro ih h

end Slinky.RC
