import Verif.ForEachThm

/-! # C24, C25: the loops of the plan visit all indices -/

namespace Slinky
namespace FE

section
variable {bs : Bufs}

theorem atD_comm (d d' : Nat) (i i' : Int) (B : Ptrs) : atD bs d i (atD bs d' i' B) = atD bs d' i' (atD bs d i B) := by
  simp only [atD, mapB_mapB]
  congr 1
  funext b p
  by_cases h : (b.dim d).contains i <;> by_cases h' : (b.dim d').contains i' <;> simp [ptr1, h, h', offs_offs, add_comm]

/-- What the alignment of the pointers does. -/
structure AlignOK (bs : Bufs) (k : Nat) (al : Ptrs → Ptrs) : Prop where
  fits : ∀ {B}, Fits bs B → Fits bs (al B)
  shift : ∀ {B}, Fits bs B → ∀ v, al (shiftB bs v B) = shiftB bs v (al B)
  at_ : ∀ {B}, Fits bs B → ∀ d i, al (atD bs d i B) = atD bs d i (al B)
  enum : ∀ {B C}, Fits bs B → Fits bs C → al B = al C → enumB bs k B = enumB bs k C

theorem not_nonlinear {d : Nat}
    (h : ¬ ((bs.first.dim d).min ≠ (bs.first.dim d).max ∧
      ((bs.first.dim d).max < (bs.first.dim d).min ∨ useNonlinear bs d = true))) : Linear bs d := by
  unfold Linear
  by_cases h1 : (bs.first.dim d).min = (bs.first.dim d).max
  · exact .inl h1
  · by_cases h2 : (bs.first.dim d).max < (bs.first.dim d).min
    · exact absurd ⟨h1, .inl h2⟩ h
    · refine .inr ⟨by omega, ?_⟩
      cases hu : useNonlinear bs d
      · rfl
      · exact absurd ⟨h1, .inr hu⟩ h

theorem AlignOK.linear (hv : OkBufs bs) {d : Nat} {al : Ptrs → Ptrs} (ha : AlignOK bs d al) (hl : Linear bs d) :
    AlignOK bs (d + 1) fun B => al (atD bs d (bs.first.dim d).min B) where
  fits hB := ha.fits (hB.atD _ _)
  shift hB v := by rw [atD_shiftB, ha.shift (hB.atD _ _)]
  at_ hB d' i := by rw [atD_comm, ha.at_ (hB.atD _ _)]
  enum {B C} hB hC h := by
    simp only [enumB]
    refine flatMap_congr' fun i hi => ?_
    rw [mem_rng] at hi
    rw [atD_linear hv hl hB hi, atD_linear hv hl hC hi]
    refine ha.enum ((hB.atD _ _).shiftB _) ((hC.atD _ _).shiftB _) ?_
    rw [ha.shift (hB.atD _ _), ha.shift (hC.atD _ _), h]

theorem AlignOK.nonlinear {d : Nat} {al : Ptrs → Ptrs} (ha : AlignOK bs d al) : AlignOK bs (d + 1) al where
  fits := ha.fits
  shift := ha.shift
  at_ := ha.at_
  enum {B C} hB hC h := by
    simp only [enumB]
    refine flatMap_congr' fun i _ => ha.enum (hB.atD _ _) (hC.atD _ _) ?_
    rw [ha.at_ hB, ha.at_ hC, h]

/-- The loops do not depend on the pointers. -/
theorem plan_split (hv : OkBufs bs) (skip : Bool) : ∀ (k : Nat) (e : Int), ∃ ls al m, AlignOK bs k al ∧
    ∀ B S, Fits bs B → plan skip bs k e B S = (ls, al B, S * m)
  | 0, e => ⟨[], id, 1, ⟨id, fun _ _ => rfl, fun _ _ _ => rfl, fun _ _ h => by simpa [enumB] using h⟩,
      fun B S _ => by simp [plan]⟩
  | d + 1, e => by
    simp only [plan]
    by_cases hn : (bs.first.dim d).min ≠ (bs.first.dim d).max ∧ ((bs.first.dim d).max < (bs.first.dim d).min ∨ useNonlinear bs d = true)
    · obtain ⟨ls, al, m, ha, hp⟩ := plan_split hv skip d 1
      refine ⟨.nonlinear (loopFold bs d) (bs.all.map (·.dim d)) (skip && isContiguousSlice bs d) :: ls, al, m, ha.nonlinear,
        fun B S hB => ?_⟩
      rw [if_pos hn, hp B S hB]
    · simp only [hn, if_false]
      have hl := not_nonlinear hn
      generalize hE : (if (bs.first.dim d).min = (bs.first.dim d).max then e else e * ((bs.first.dim d).max - (bs.first.dim d).min + 1)) = E
      split
      · obtain ⟨ls, al, m, ha, hp⟩ := plan_split hv skip d E
        exact ⟨ls, _, m, ha.linear hv hl, fun B S hB => by rw [alignBases_eq hv hl hB, hp _ S (hB.atD _ _)]⟩
      · split
        · obtain ⟨ls, al, m, ha, hp⟩ := plan_split hv skip d 1
          exact ⟨ls, _, E * m, ha.linear hv hl, fun B S hB => by rw [alignBases_eq hv hl hB, hp _ _ (hB.atD _ _), mul_assoc]⟩
        · obtain ⟨ls, al, m, ha, hp⟩ := plan_split hv skip d 1
          exact ⟨.linear E (bs.all.map fun b => (b.dim d).stride) :: ls, _, m, ha.linear hv hl,
            fun B S hB => by rw [alignBases_eq hv hl hB, hp _ S (hB.atD _ _)]⟩

/-- The calls made by the loops for the dimensions below `k`. -/
def runPlan (skip : Bool) (bs : Bufs) (k : Nat) (e : Int) (B : Ptrs) (S : Int) : List Call :=
  run (plan skip bs k e B S).1 (plan skip bs k e B S).2.1 (plan skip bs k e B S).2.2

variable (bs) in
/-- The elements of a slice. -/
def expand (c : Call) : List Ptrs := (List.range c.2.toNat).map fun s : Nat => shiftB bs (fun b => s * b.elem) c.1

theorem expand_one {B : Ptrs} (hB : Fits bs B) : expand bs (B, 1) = [B] := by
  simp [expand, shiftB_zero hB]

theorem fits_enumB : ∀ (k : Nat) {B : Ptrs}, Fits bs B → ∀ C ∈ enumB bs k B, Fits bs C
  | 0, B, hB, C, hC => by simp [enumB] at hC; exact hC ▸ hB
  | d + 1, B, hB, C, hC => by
    simp only [enumB, List.mem_flatMap] at hC
    obtain ⟨i, -, hi⟩ := hC
    exact fits_enumB d (hB.atD _ _) C hi

/-- A fused loop. -/
theorem linear_enum (hv : OkBufs bs) {d : Nat} (hl : Linear bs d) {e : Int} (he : 1 ≤ e) {B : Ptrs} (hB : Fits bs B) {P : Buf → Int}
    (hP : e ≠ 1 → ∀ b ∈ bs.all, b.base.isSome → P b = (b.dim d).stride * ((bs.first.dim d).max - (bs.first.dim d).min + 1)) :
    ((List.range e.toNat).flatMap fun j : Nat => enumB bs (d + 1) (shiftB bs (fun b => j * P b) B)) =
      (List.range (e * ((bs.first.dim d).max - (bs.first.dim d).min + 1)).toNat).flatMap fun t : Nat =>
        enumB bs d (shiftB bs (fun b => t * (b.dim d).stride) (atD bs d (bs.first.dim d).min B)) := by
  have hmm : (bs.first.dim d).min ≤ (bs.first.dim d).max := by rcases hl with hl | hl <;> omega
  generalize hx : (bs.first.dim d).max - (bs.first.dim d).min + 1 = x at hP ⊢
  have hx0 : 0 ≤ x := by omega
  rw [Int.toNat_mul (by omega) hx0, ← flatMap_range_mul]
  refine flatMap_congr' fun j hj => ?_
  simp only [enumB, rng, hx, List.flatMap_map]
  refine flatMap_congr' fun i hi => ?_
  rw [List.mem_range] at hi hj
  rw [atD_linear hv hl (hB.shiftB _) ⟨by omega, by omega⟩, atD_shiftB, shiftB_shiftB]
  congr 1
  refine shiftB_congr (hB.atD _ _) fun b hb hs => ?_
  by_cases h1 : e = 1
  · have : j = 0 := by omega
    subst this
    simp
  · rw [hP h1 b hb hs]
    push_cast
    rw [Int.toNat_of_nonneg hx0]
    ring

/-- Fused dimensions are linear. -/
theorem canFuse_facts (hv : OkBufs bs) {d : Nat} (hd : 0 < d) (hc : canFuse bs d = true) :
    (∀ b ∈ bs.all, b.base.isSome ∨ b = bs.first → (bs.first.dim (d - 1)).min ≤ (bs.first.dim (d - 1)).max →
      (b.dim d).stride = (b.dim (d - 1)).stride * ((bs.first.dim (d - 1)).max - (bs.first.dim (d - 1)).min + 1)) ∧
    ((bs.first.dim (d - 1)).min < (bs.first.dim (d - 1)).max → useNonlinear bs (d - 1) = false) := by
  simp only [canFuse, Bool.and_eq_true, decide_eq_true_eq, Bool.not_eq_true', Bool.and_eq_false_iff, decide_eq_false_iff_not,
    not_not, List.all_eq_true] at hc
  obtain ⟨⟨h1, h2⟩, h3⟩ := hc
  have hext : (bs.first.dim (d - 1)).min ≤ (bs.first.dim (d - 1)).max →
      (bs.first.dim (d - 1)).extent = (bs.first.dim (d - 1)).max - (bs.first.dim (d - 1)).min + 1 := fun h => by
    unfold Dim.extent; rw [if_pos (by omega)]; omega
  have fold_no : ∀ {i : Dim} {os : Int} (x a b : Int), i.stride * x = os → 0 < x → (os = 0 ∨ ¬ i.fold > 0) → i.isFolded a b = false := by
    intro i os x a b h hx ho
    unfold Dim.isFolded
    rw [if_pos]
    rcases ho with ho | ho
    · left
      rw [ho] at h
      rcases mul_eq_zero.1 h with h | h
      · exact h
      · omega
    · right; omega
  have hother : ∀ b ∈ bs.rest, b.base.isSome → b.rank < d ∨ ((b.dim (d - 1)).min = (bs.first.dim (d - 1)).min ∧
      (b.dim (d - 1)).max = (bs.first.dim (d - 1)).max ∧
      (b.dim (d - 1)).stride * (bs.first.dim (d - 1)).extent = (b.dim d).stride ∧ ((b.dim d).stride = 0 ∨ ¬ (b.dim (d - 1)).fold > 0)) := by
    intro b hb hs
    have := h3 b hb
    simp only [canFuseOther, Bool.or_eq_true, Bool.and_eq_true, decide_eq_true_eq, Bool.not_eq_true', Bool.and_eq_false_iff,
      decide_eq_false_iff_not, not_not, Option.isNone_iff_eq_none] at this
    rcases this with (h | h) | h
    · rw [h] at hs; simp at hs
    · exact .inl h
    · exact .inr ⟨h.1.1.1, h.1.1.2, h.1.2, h.2⟩
  refine ⟨fun b hb hs hm => ?_, fun hm => ?_⟩
  · rw [← hext hm]
    simp only [Bufs.all, List.mem_cons] at hb
    rcases hb with rfl | hb
    · exact h1.symm
    · rcases hs with hs | rfl
      · rcases hother b hb hs with h | h
        · rw [dim_beyond (by omega : b.rank ≤ d), dim_beyond (by omega : b.rank ≤ d - 1)]; simp [Dim.broadcast]
        · exact h.2.2.1.symm
      · exact h1.symm
  · have hx := hext hm.le
    simp only [useNonlinear, Bool.or_eq_false_iff]
    refine ⟨fold_no _ _ _ h1 (by omega) h2, ?_⟩
    rw [List.any_eq_false]
    intro b hb
    by_cases hs : b.base.isSome
    · rcases hother b hb hs with h | ⟨e1, e2, e3, e4⟩
      · have : ¬ d - 1 < b.rank := by omega
        simp [this]
      · have := fold_no (bs.first.dim (d - 1)).extent (bs.first.dim (d - 1)).min (bs.first.dim (d - 1)).max e3 (by omega) e4
        simp [this, Dim.containsI, e1, e2]
    · simp [hs]

variable (bs) in
/-- No dimension below `k` can be a slice. -/
def NoSlice (k : Nat) : Prop :=
  ∀ d < k, (bs.first.dim d).stride = bs.first.elem → (bs.first.dim d).max ≤ (bs.first.dim d).min

/-- At most one dimension of the first buffer has more than one index and the stride of an element. -/
def OneSlice (bs : Bufs) : Prop :=
  ∀ d d', d < d' → (bs.first.dim d).stride = bs.first.elem → (bs.first.dim d').stride = bs.first.elem →
    (bs.first.dim d).min < (bs.first.dim d).max → (bs.first.dim d').min < (bs.first.dim d').max → False

theorem OneSlice.noSlice (h : OneSlice bs) {d : Nat} (h1 : (bs.first.dim d).stride = bs.first.elem)
    (h2 : (bs.first.dim d).min < (bs.first.dim d).max) : NoSlice bs d := fun d' hd' hs => by
  by_contra hc
  exact h d' d hd' hs h1 (by omega) h2

theorem isContiguousSlice_facts {d : Nat} (h : isContiguousSlice bs d = true) : (bs.first.dim d).stride = bs.first.elem ∧
    ∀ b ∈ bs.all, b.base.isSome → (b.dim d).stride = b.elem := by
  simp only [isContiguousSlice, Bool.and_eq_true, decide_eq_true_eq, List.all_eq_true, Bool.or_eq_true, Option.isNone_iff_eq_none] at h
  refine ⟨h.1, fun b hb hs => ?_⟩
  simp only [Bufs.all, List.mem_cons] at hb
  rcases hb with rfl | hb
  · exact h.1
  · rcases h.2 b hb with h | h
    · rw [h] at hs; simp at hs
    · exact h

/-- A contiguous slice is the indices of the dimension. -/
theorem slice_enum {d : Nat} (hc : isContiguousSlice bs d = true) {B : Ptrs} (hB : Fits bs B) (E : Int) :
    ((enumB bs d B).flatMap fun C => expand bs (C, E)).Perm
      ((List.range E.toNat).flatMap fun t : Nat => (enumB bs d (shiftB bs (fun b => t * (b.dim d).stride) B)).flatMap fun C =>
        expand bs (C, 1)) := by
  have h2 : ∀ t : Nat, ((enumB bs d (shiftB bs (fun b => t * (b.dim d).stride) B)).flatMap fun C => expand bs (C, 1)) =
      (enumB bs d B).flatMap fun C => [shiftB bs (fun b => t * b.elem) C] := by
    intro t
    rw [enumB_shift, List.flatMap_map]
    refine flatMap_congr' fun C hC => ?_
    have hf := fits_enumB d hB C hC
    rw [expand_one (hf.shiftB _)]
    rw [shiftB_congr hf fun b hb hs => by rw [(isContiguousSlice_facts hc).2 b hb hs]]
  simp only [h2]
  have h1 : ∀ C : Ptrs, expand bs (C, E) = (List.range E.toNat).flatMap fun t : Nat => [shiftB bs (fun b => t * b.elem) C] := by
    intro C; rw [expand, ← List.flatMap_singleton' ((List.range E.toNat).map _), List.flatMap_map]
  simp only [h1]
  exact perm_flatMap_comm _ _ _

/-- The loops for the dimensions below `k`, in a fused loop with the extent `e`, visit all the indices. -/
theorem main (hv : OkBufs bs) (skip : Bool) (hU : skip = true → OneSlice bs) : ∀ (k : Nat) (e : Int) (B : Ptrs) (S : Int) (P : Buf → Int),
    Fits bs B → 1 ≤ e → 1 ≤ S →
    (e ≠ 1 → 0 < k ∧ ((bs.first.dim (k - 1)).min ≤ (bs.first.dim (k - 1)).max → ∀ b ∈ bs.all, b.base.isSome ∨ b = bs.first →
      P b = (b.dim (k - 1)).stride * ((bs.first.dim (k - 1)).max - (bs.first.dim (k - 1)).min + 1)) ∧
      ((bs.first.dim (k - 1)).min < (bs.first.dim (k - 1)).max → useNonlinear bs (k - 1) = false)) →
    (skip = true → S ≠ 1 → NoSlice bs k ∧ (e ≠ 1 → P bs.first ≠ bs.first.elem)) →
    (skip = true → e ≠ 1 → P bs.first = bs.first.elem → NoSlice bs k) →
    ((runPlan skip bs k e B S).flatMap (expand bs)).Perm
      ((List.range e.toNat).flatMap fun j : Nat => (enumB bs k (shiftB bs (fun b => j * P b) B)).flatMap fun C => expand bs (C, S))
  | 0, e, B, S, P, hB, he, hS, hH, _, _ => by
    have : e = 1 := by
      by_contra h
      exact absurd (hH h).1 (by simp)
    subst this
    simp [runPlan, plan, run, enumB, shiftB_zero hB]
  | d + 1, e, B, S, P, hB, he, hS, hH, hJ1, hJ2 => by
    simp only [Nat.add_sub_cancel] at hH
    by_cases hn : (bs.first.dim d).min ≠ (bs.first.dim d).max ∧ ((bs.first.dim d).max < (bs.first.dim d).min ∨ useNonlinear bs d = true)
    · obtain ⟨ls, al, m, ha, hp⟩ := plan_split hv skip d 1
      have hrun : runPlan skip bs (d + 1) e B S =
          (chunks (loopFold bs d) (bs.all.map (·.dim d)) (al B) (bs.first.dim d).min (bs.first.dim d).max).flatMap fun c =>
            doWhile (if (skip && isContiguousSlice bs d) = true then 1 else c.2) (ptrsAt (bs.all.map (·.dim d)) (al B) c.1)
              (bs.all.map fun b => (b.dim d).stride) fun b =>
                run ls b ((if (skip && isContiguousSlice bs d) = true then c.2 else 1) * (S * m)) := by
        simp only [runPlan, plan, if_pos hn, hp B S hB, run]
        simp only [Bufs.all, List.map_cons, List.headD_cons, List.map_map]
        rfl
      by_cases hemp : (bs.first.dim d).max < (bs.first.dim d).min
      · have h1 : ∀ g, chunks g (bs.all.map (·.dim d)) (al B) (bs.first.dim d).min (bs.first.dim d).max = [] := by
          intro g
          have ht := loop_tiles hv d (al B)
          have hr : ∀ lo, (bs.first.dim d).max < lo → ∀ hi, hi ≤ (bs.first.dim d).max →
              runOneFold (bs.all.map (·.dim d)) (al B) lo hi = [] := by
            intro lo h hi h'
            unfold runOneFold
            rw [show (hi - lo + 1).toNat = 0 by omega]; rfl
          unfold chunks
          split
          · exact hr _ hemp _ le_rfl
          · next hg =>
            have := alignUp_facts (x := (bs.first.dim d).min) (n := g) (by omega)
            simp only
            rw [show ((bs.first.dim d).max - alignUp (bs.first.dim d).min g + 1).toNat = 0 by omega, foldsFrom]
            split
            · rw [hr _ hemp _ (min_le_right _ _)]; rfl
            · rfl
        rw [hrun, h1]
        simp only [enumB, rng_empty hemp]
        simp
      · have hlt : (bs.first.dim d).min < (bs.first.dim d).max := by omega
        have hu : useNonlinear bs d = true := by
          rcases hn.2 with h | h
          · omega
          · exact h
        have he1 : e = 1 := by
          by_contra h
          have := (hH h).2.2 hlt
          rw [hu] at this; simp at this
        subst he1
        have hrhs : ((List.range (1 : Int).toNat).flatMap fun j : Nat =>
            (enumB bs (d + 1) (shiftB bs (fun b => j * P b) B)).flatMap fun C => expand bs (C, S)) =
            (rng (bs.first.dim d).min (bs.first.dim d).max).flatMap fun i => (enumB bs d (atD bs d i B)).flatMap fun C => expand bs (C, S) := by
          simp only [Int.toNat_one, List.range_one, List.flatMap_cons, List.flatMap_nil, List.append_nil]
          rw [shiftB_zero hB (by simp), enumB, List.flatMap_assoc]
        rw [hrhs, hrun, List.flatMap_assoc]
        have hR : ∀ C, Fits bs C → ∀ S', run ls (al C) (S' * m) = runPlan skip bs d 1 C S' := fun C hC S' => by
          simp only [runPlan, hp C S' hC]
        refine (loop_tiles hv d (al B)).perm (G := fun x c => (doWhile (if (skip && isContiguousSlice bs d) = true then 1 else c)
          (ptrsAt (bs.all.map (·.dim d)) (al B) x) (bs.all.map fun b => (b.dim d).stride) fun b =>
            run ls b ((if (skip && isContiguousSlice bs d) = true then c else 1) * (S * m))).flatMap (expand bs)) ?_
        intro x c hx hc hxc hok
        have hal : ∀ j : Int, 0 ≤ j → j < c → shiftB bs (fun b => j * (b.dim d).stride) (atD bs d x (al B)) = al (atD bs d (x + j) B) := by
          intro j h0 hj
          rw [← hok j h0 hj, ha.at_ hB]
        rw [ptrsAt_eq ⟨hx, by omega⟩]
        by_cases hcs : (skip && isContiguousSlice bs d) = true
        · simp only [hcs, if_true]
          simp only [Bool.and_eq_true] at hcs
          have hS1 : S = 1 := by
            by_contra h
            have := (hJ1 hcs.1 h).1 d (by omega) (isContiguousSlice_facts hcs.2).1
            omega
          subst hS1
          rw [doWhile_eq le_rfl ((ha.fits hB).atD _ _)]
          simp only [Int.toNat_one, List.range_one, List.flatMap_cons, List.flatMap_nil, List.append_nil]
          rw [shiftB_zero ((ha.fits hB).atD _ _) (by simp), ← ha.at_ hB, one_mul, hR _ (hB.atD _ _)]
          refine (main hv skip hU d 1 (atD bs d x B) c (fun _ => 0) (hB.atD _ _) le_rfl hc (by simp) ?_ (by simp)).trans ?_
          · intro _ _
            exact ⟨(hU hcs.1).noSlice (isContiguousSlice_facts hcs.2).1 hlt, by simp⟩
          · simp only [Int.toNat_one, List.range_one, List.flatMap_cons, List.flatMap_nil, List.append_nil]
            rw [shiftB_zero (hB.atD _ _) (by simp)]
            refine (slice_enum hcs.2 (hB.atD _ _) c).trans (.of_eq ?_)
            refine flatMap_congr' fun j hj => ?_
            rw [List.mem_range] at hj
            congr 1
            refine ha.enum ((hB.atD _ _).shiftB _) (hB.atD _ _) ?_
            rw [ha.shift (hB.atD _ _), ha.at_ hB, hal j (by omega) (by omega)]
        · simp only [hcs, Bool.false_eq_true, if_false, one_mul]
          rw [doWhile_eq hc ((ha.fits hB).atD _ _), List.flatMap_assoc]
          refine perm_flatMap_congr fun j hj => ?_
          rw [List.mem_range] at hj
          rw [hal j (by omega) (by omega), hR _ (hB.atD _ _)]
          refine (main hv skip hU d 1 (atD bs d (x + j) B) S (fun _ => 0) (hB.atD _ _) le_rfl hS (by simp) ?_ (by simp)).trans ?_
          · intro hs h
            exact ⟨fun d' hd' => (hJ1 hs h).1 d' (by omega), by simp⟩
          · simp only [Int.toNat_one, List.range_one, List.flatMap_cons, List.flatMap_nil, List.append_nil]
            rw [shiftB_zero (hB.atD _ _) (by simp)]
    · have hl := not_nonlinear hn
      have hmm : (bs.first.dim d).min ≤ (bs.first.dim d).max := by rcases hl with hl | hl <;> omega
      have hBa := hB.atD d (bs.first.dim d).min
      rw [← List.flatMap_assoc, linear_enum hv hl he hB fun h b hb hs => (hH h).2.1 hmm b hb (.inl hs)]
      generalize hE : (if (bs.first.dim d).min = (bs.first.dim d).max then e else e * ((bs.first.dim d).max - (bs.first.dim d).min + 1)) = E
      have hE' : e * ((bs.first.dim d).max - (bs.first.dim d).min + 1) = E := by
        rw [← hE]; split
        · next h => rw [h]; ring
        · rfl
      rw [hE']
      have hE1 : 1 ≤ E := by
        rw [← hE']
        have : 1 ≤ (bs.first.dim d).max - (bs.first.dim d).min + 1 := by omega
        nlinarith
      have hfirst : e ≠ 1 → P bs.first = (bs.first.dim d).stride * ((bs.first.dim d).max - (bs.first.dim d).min + 1) :=
        fun h => (hH h).2.1 hmm bs.first (by simp [Bufs.all]) (.inr rfl)
      -- if the fused loop is not trivial and it is a slice, no other dimension is
      have hno : skip = true → E ≠ 1 → (bs.first.dim d).stride = bs.first.elem → NoSlice bs d := by
        intro hs hne hst
        by_cases hx : (bs.first.dim d).min < (bs.first.dim d).max
        · exact (hU hs).noSlice hst hx
        · have hmx : (bs.first.dim d).max - (bs.first.dim d).min + 1 = 1 := by omega
          rw [hmx, mul_one] at hE' hfirst
          have he' : e ≠ 1 := by rw [hE']; exact hne
          exact fun d' hd' => hJ2 hs he' ((hfirst he').trans hst) d' (by omega)
      have hno' : skip = true → S ≠ 1 → E ≠ 1 → (bs.first.dim d).stride ≠ bs.first.elem := by
        intro hs hS1 hne hst
        obtain ⟨q1, q2⟩ := hJ1 hs hS1
        have := q1 d (by omega) hst
        have hmx : (bs.first.dim d).max - (bs.first.dim d).min + 1 = 1 := by omega
        rw [hmx, mul_one] at hE' hfirst
        have he' : e ≠ 1 := by rw [hE']; exact hne
        exact q2 he' ((hfirst he').trans hst)
      have hq : skip = true → S ≠ 1 → NoSlice bs d := fun hs hS1 d' hd' => (hJ1 hs hS1).1 d' (by omega)
      by_cases hc : E = 1 ∨ (d > 0 ∧ canFuse bs d = true)
      · have hrun : runPlan skip bs (d + 1) e B S = runPlan skip bs d E (atD bs d (bs.first.dim d).min B) S := by
          simp only [runPlan, plan, if_neg hn, hE, if_pos hc, alignBases_eq hv hl hB]
        rw [hrun, List.flatMap_assoc]
        refine main hv skip hU d E _ S (fun b => (b.dim d).stride) hBa hE1 hS ?_ ?_ ?_
        · intro hne
          rcases hc with hc | ⟨hd0, hc⟩
          · exact absurd hc hne
          · obtain ⟨f1, f2⟩ := canFuse_facts hv hd0 hc
            exact ⟨hd0, fun hm b hb hs => f1 b hb hs hm, f2⟩
        · exact fun hs h => ⟨hq hs h, hno' hs h⟩
        · exact hno
      · by_cases hcs : (skip && isContiguousSlice bs d) = true
        · have hrun : runPlan skip bs (d + 1) e B S = runPlan skip bs d 1 (atD bs d (bs.first.dim d).min B) (S * E) := by
            simp only [runPlan, plan, if_neg hn, hE, if_neg hc, hcs, if_true, alignBases_eq hv hl hB]
          simp only [Bool.and_eq_true] at hcs
          obtain ⟨c1, c2⟩ := isContiguousSlice_facts hcs.2
          have hne : E ≠ 1 := fun h => hc (.inl h)
          have hS1 : S = 1 := by
            by_contra h
            exact hno' hcs.1 h hne c1
          subst hS1
          rw [hrun, one_mul, List.flatMap_assoc]
          refine (main hv skip hU d 1 _ E (fun _ => 0) hBa le_rfl hE1 (by simp) ?_ (by simp)).trans ?_
          · exact fun hs _ => ⟨hno hs hne c1, by simp⟩
          · simp only [Int.toNat_one, List.range_one, List.flatMap_cons, List.flatMap_nil, List.append_nil]
            rw [shiftB_zero hBa (by simp)]
            exact slice_enum hcs.2 hBa E
        · obtain ⟨ls, al, m, ha, hp⟩ := plan_split hv skip d 1
          have hrun : runPlan skip bs (d + 1) e B S = (List.range E.toNat).flatMap fun t : Nat =>
              runPlan skip bs d 1 (shiftB bs (fun b => t * (b.dim d).stride) (atD bs d (bs.first.dim d).min B)) S := by
            simp only [runPlan, plan, if_neg hn, hE, if_neg hc, hcs, if_false, alignBases_eq hv hl hB, hp _ _ hBa,
              hp _ _ (hBa.shiftB _), run]
            rw [if_neg (by simp)]
            simp only [run]
            rw [doWhile_eq hE1 (ha.fits hBa)]
            refine flatMap_congr' fun t _ => ?_
            rw [ha.shift hBa]
          rw [hrun, List.flatMap_assoc, List.flatMap_assoc]
          refine perm_flatMap_congr fun t _ => ?_
          refine (main hv skip hU d 1 _ S (fun _ => 0) (hBa.shiftB _) le_rfl hS (by simp) ?_ (by simp)).trans ?_
          · exact fun hs h => ⟨hq hs h, by simp⟩
          · simp only [Int.toNat_one, List.range_one, List.flatMap_cons, List.flatMap_nil, List.append_nil]
            rw [shiftB_zero (hBa.shiftB _) (by simp)]

end

end FE
end Slinky
