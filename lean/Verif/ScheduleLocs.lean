import Verif.ScheduleTopo
import Mathlib.Data.List.Infix

/-! # C48: where the funcs are computed -/

namespace Slinky

namespace SPipe

/-! ### Specification -/

/-- The loops around the call of `f`, if `f` is computed in the loops `L f` (the outermost first). -/
def around (G : SPipe) (L : Nat → List (Nat × Nat)) (f : Nat) : List (Nat × Nat) := L f ++ (G.loops f).reverse.map fun v => (f, v)

/-- The last of the loops. -/
def lastId (q : List (Nat × Nat)) : LoopId := q.getLast?

/-- The loops in which the funcs are computed. -/
structure ScheduleOK (G : SPipe) (order : List Nat) (L : Nat → List (Nat × Nat)) : Prop where
  /-- What nothing uses is not computed in a loop of another func. -/
  top : ∀ f ∈ order, (∀ g ∈ order, f ∉ G.prods g) → L f = []
  /-- A func is computed in loops that are around all of its consumers. -/
  encl : ∀ f ∈ order, ∀ g ∈ order, f ∈ G.prods g → L f <+: around G L g
  /-- If the user did not say where: in all loops that are around all of its consumers. -/
  deepest : ∀ f ∈ order, G.computeAt f = none → ∀ g ∈ order, f ∈ G.prods g → ∀ q, (∀ k ∈ order, f ∈ G.prods k → q <+: around G L k) → q <+: L f
  /-- Where the user said. -/
  explicit : ∀ f ∈ order, ∀ a, G.computeAt f = some a → lastId (L f) = a
  /-- The loops are loops of funcs before it. -/
  src : ∀ pre f post, order = pre ++ f :: post → L f = [] ∨ ∃ k ∈ pre, L f <+: around G L k

/-! ### Paths -/

/-- The tree of loops. -/
structure TreeOK (t : Tree) : Prop where
  root : t[0]? = some (0, none)
  parent : ∀ (i : Nat), 0 < i → ∀ (e : Nat × LoopId), t[i]? = some e → e.1 < i
  ids : ∀ (i : Nat), 0 < i → ∀ (e : Nat × LoopId), t[i]? = some e → e.2 ≠ none
  inj : ∀ (i j : Nat) (e e' : Nat × LoopId), t[i]? = some e → t[j]? = some e' → e.2 = e'.2 → i = j

/-- The parent. -/
def par (t : Tree) (i : Nat) : Nat := (t[i]?.getD (0, none)).1
/-- The loop. -/
def idOf (t : Tree) (i : Nat) : Nat × Nat := ((t[i]?.getD (0, none)).2).getD (0, 0)

variable {t : Tree}

theorem TreeOK.par_lt (h : TreeOK t) {i : Nat} (hi : 0 < i) : par t i < i := by
  unfold par
  cases he : t[i]? with
  | none => simpa using hi
  | some e => simpa using h.parent i hi e he

theorem findPathGo_eq (h : TreeOK t) : ∀ (n i : Nat), i ≤ n → findPathGo t n i = findPathGo t i i := by
  intro n
  induction n using Nat.strong_induction_on with
  | _ n ih =>
    intro i hi
    cases n with
    | zero => obtain rfl : i = 0 := by omega
              rfl
    | succ n =>
      rcases Nat.lt_or_ge i (n + 1) with hlt | hge
      · cases i with
        | zero => simp [findPathGo]
        | succ i =>
          simp only [findPathGo, Nat.succ_ne_zero, if_false]
          have hp : par t (i + 1) < i + 1 := h.par_lt (by omega)
          unfold par at hp
          rw [ih n (by omega) _ (by omega), ih i (by omega) _ (by omega)]
      · obtain rfl : i = n + 1 := by omega
        rfl

theorem findPath_zero : findPath t 0 = [0] := rfl

theorem findPath_pos (h : TreeOK t) {i : Nat} (hi : 0 < i) : findPath t i = findPath t (par t i) ++ [i] := by
  obtain ⟨i, rfl⟩ : ∃ k, i = k + 1 := ⟨i - 1, by omega⟩
  have hp : par t (i + 1) < i + 1 := h.par_lt (by omega)
  rw [findPath, findPathGo, if_neg (by omega), findPath]
  congr 1
  exact findPathGo_eq h _ _ (by unfold par at hp; omega)

theorem findPath_head (h : TreeOK t) (i : Nat) : ∃ r, findPath t i = 0 :: r ∧ ∀ j ∈ r, 0 < j := by
  induction i using Nat.strong_induction_on with
  | _ i ih =>
    rcases Nat.eq_zero_or_pos i with rfl | hi
    · exact ⟨[], rfl, by simp⟩
    · obtain ⟨r, hr, hr'⟩ := ih (par t i) (h.par_lt hi)
      refine ⟨r ++ [i], by rw [findPath_pos h hi, hr]; rfl, fun j hj => ?_⟩
      rcases List.mem_append.1 hj with hj | hj
      · exact hr' j hj
      · simp only [List.mem_singleton] at hj; omega

theorem findPath_ne (h : TreeOK t) (i : Nat) : findPath t i ≠ [] := by
  obtain ⟨r, hr, -⟩ := findPath_head h i
  rw [hr]; simp

theorem findPath_last (h : TreeOK t) (i : Nat) : (findPath t i).getLast? = some i := by
  rcases Nat.eq_zero_or_pos i with rfl | hi
  · rfl
  · rw [findPath_pos h hi]; simp

theorem findPath_le (h : TreeOK t) (i : Nat) : ∀ j ∈ findPath t i, j ≤ i := by
  induction i using Nat.strong_induction_on with
  | _ i ih =>
    rcases Nat.eq_zero_or_pos i with rfl | hi
    · simp [findPath_zero]
    · intro j hj
      rw [findPath_pos h hi] at hj
      have hp := h.par_lt hi
      rcases List.mem_append.1 hj with hj | hj
      · have := ih _ hp j hj; omega
      · simp only [List.mem_singleton] at hj; omega

/-- A part of a path is a path. -/
theorem findPath_prefix (h : TreeOK t) (i : Nat) : ∀ q a, q ++ [a] <+: findPath t i → q ++ [a] = findPath t a := by
  induction i using Nat.strong_induction_on with
  | _ i ih =>
    intro q a hq
    rcases Nat.eq_zero_or_pos i with rfl | hi
    · rw [findPath_zero] at hq
      have hl := hq.length_le
      simp only [List.length_append, List.length_cons, List.length_nil] at hl
      have hq0 : q = [] := List.length_eq_zero_iff.1 (by omega)
      subst hq0
      obtain ⟨r, hr⟩ := hq
      simp only [List.nil_append, List.cons_append, List.cons.injEq] at hr
      rw [hr.1]; rfl
    · rw [findPath_pos h hi] at hq
      rcases List.prefix_concat_iff.1 hq with he | hp
      · have := (List.append_inj' he rfl).2
        simp only [List.cons.injEq, and_true] at this
        rw [he, this, ← findPath_pos h hi]
      · exact ih _ (h.par_lt hi) q a hp

theorem findPath_mem (h : TreeOK t) {i j : Nat} (hj : j ∈ findPath t i) : findPath t j <+: findPath t i := by
  obtain ⟨a, b, hab⟩ := List.append_of_mem hj
  have : a ++ [j] <+: findPath t i := ⟨b, by rw [hab]; simp⟩
  rw [← findPath_prefix h i a j this]
  exact this

/-- The loops of a node. -/
def locPath (t : Tree) (i : Nat) : List (Nat × Nat) := ((findPath t i).drop 1).map (idOf t)

theorem locPath_zero : locPath t 0 = [] := rfl

theorem locPath_pos (h : TreeOK t) {i : Nat} (hi : 0 < i) : locPath t i = locPath t (par t i) ++ [idOf t i] := by
  unfold locPath
  obtain ⟨r, hr, -⟩ := findPath_head h (par t i)
  rw [findPath_pos h hi, hr]
  simp

theorem locPath_last (h : TreeOK t) {i : Nat} (hi : i < t.length) : lastId (locPath t i) = (t[i]?.getD (0, none)).2 := by
  rcases Nat.eq_zero_or_pos i with rfl | hp
  · rw [locPath_zero, h.root]; rfl
  · rw [locPath_pos h hp, lastId, List.getLast?_append]
    simp only [List.getLast?_singleton, Option.some_or]
    have hne := h.ids i hp _ (List.getElem?_eq_getElem hi)
    rw [idOf, List.getElem?_eq_getElem hi]
    simp only [Option.getD_some] at hne ⊢
    cases hx : (t[i]).2 with
    | none => exact absurd hx hne
    | some x => rfl

theorem idOf_inj (h : TreeOK t) {i j : Nat} (hi : 0 < i) (hj : 0 < j) (hi' : i < t.length) (hj' : j < t.length) (he : idOf t i = idOf t j) : i = j := by
  have h1 := h.ids i hi _ (List.getElem?_eq_getElem hi')
  have h2 := h.ids j hj _ (List.getElem?_eq_getElem hj')
  refine h.inj i j _ _ (List.getElem?_eq_getElem hi') (List.getElem?_eq_getElem hj') ?_
  simp only [idOf, List.getElem?_eq_getElem hi', List.getElem?_eq_getElem hj', Option.getD_some] at he
  cases hx : (t[i]).2 with
  | none => exact absurd hx h1
  | some x =>
    cases hy : (t[j]).2 with
    | none => exact absurd hy h2
    | some y => rw [hx, hy] at he; simp only [Option.getD_some] at he; rw [he]

/-- Loops that are around a node are those of a node on its path. -/
theorem prefix_locPath (h : TreeOK t) {i : Nat} {q : List (Nat × Nat)} (hq : q <+: locPath t i) : ∃ j ∈ findPath t i, q = locPath t j := by
  induction i using Nat.strong_induction_on with
  | _ i ih =>
    rcases Nat.eq_zero_or_pos i with rfl | hi
    · rw [locPath_zero] at hq
      exact ⟨0, by simp [findPath_zero], List.prefix_nil.1 hq⟩
    · rw [locPath_pos h hi] at hq
      rcases List.prefix_concat_iff.1 hq with he | hp
      · exact ⟨i, by rw [findPath_pos h hi]; simp, by rw [he, ← locPath_pos h hi]⟩
      · obtain ⟨j, hj, hj'⟩ := ih _ (h.par_lt hi) hp
        exact ⟨j, by rw [findPath_pos h hi]; exact List.mem_append_left _ hj, hj'⟩

/-- Different nodes have different loops. -/
theorem locPath_inj (h : TreeOK t) {i j : Nat} (hi : i < t.length) (hj : j < t.length) (he : locPath t i = locPath t j) : i = j := by
  rcases Nat.eq_zero_or_pos i with rfl | hpi
  · rcases Nat.eq_zero_or_pos j with rfl | hpj
    · rfl
    · rw [locPath_pos h hpj, locPath_zero] at he; simp at he
  · rcases Nat.eq_zero_or_pos j with rfl | hpj
    · rw [locPath_pos h hpi, locPath_zero] at he; simp at he
    · rw [locPath_pos h hpi, locPath_pos h hpj] at he
      have := (List.append_inj' he rfl).2
      simp only [List.cons.injEq, and_true] at this
      exact idOf_inj h hpi hpj hi hj this

theorem locPath_mono (h : TreeOK t) {i j : Nat} (hij : findPath t j <+: findPath t i) : locPath t j <+: locPath t i := by
  unfold locPath
  obtain ⟨r, hr⟩ := hij
  obtain ⟨a, ha, -⟩ := findPath_head h j
  rw [← hr, ha]
  simp only [List.drop_one, List.tail_cons, List.cons_append, List.map_append]
  exact List.prefix_append _ _

/-! ### Common ancestors -/

theorem take_prefix_iff {base other : List Nat} {k : Nat} (hk : k ≤ base.length) :
    base.take k <+: other ↔ k ≤ other.length ∧ ∀ j < k, other[j]? = base[j]? := by
  rw [List.prefix_iff_eq_take, List.length_take, min_eq_left hk]
  constructor
  · intro h
    have hl := congrArg List.length h
    simp only [List.length_take, min_eq_left hk] at hl
    refine ⟨by omega, fun j hj => ?_⟩
    have := congrArg (fun l => l[j]?) h
    simpa [List.getElem?_take, hj] using this.symm
  · rintro ⟨_, h⟩
    apply List.ext_getElem?
    intro j
    rw [List.getElem?_take, List.getElem?_take]
    split
    · next hj => exact (h j hj).symm
    · rfl

theorem compareUpTo_spec {base other : List Nat} {m : Int} (h0 : 0 ≤ m + 1) (hm : m + 1 ≤ base.length) :
    -1 ≤ compareUpTo base other m ∧ compareUpTo base other m ≤ m ∧ ∀ k : Nat, (k : Int) ≤ m + 1 → (base.take k <+: other ↔ (k : Int) ≤ compareUpTo base other m + 1) := by
  unfold compareUpTo
  generalize hM : min m ((other.length : Int) - 1) = M
  have hM1 : M ≤ m := by rw [← hM]; omega
  have hM2 : M ≤ (other.length : Int) - 1 := by rw [← hM]; omega
  have hM3 : -1 ≤ M := by rw [← hM]; omega
  cases hf : (List.range (M + 1).toNat).find? fun iy => decide (other[iy]? ≠ base[iy]?) with
  | none =>
    simp only [List.find?_eq_none, List.mem_range, decide_eq_true_eq, not_not] at hf
    dsimp only
    refine ⟨hM3, hM1, fun k hk => ?_⟩
    rw [take_prefix_iff (by omega)]
    constructor
    · rintro ⟨h1, -⟩
      omega
    · intro h
      exact ⟨by omega, fun j hj => hf j (by omega)⟩
  | some iy =>
    simp only [List.find?_range_eq_some] at hf
    obtain ⟨h1, h2, h3⟩ := hf
    simp only [decide_eq_true_eq] at h1
    simp only [Bool.not_eq_true', decide_eq_false_iff_not, not_not] at h3
    simp only [List.mem_range] at h2
    refine ⟨by simp only; omega, by simp only; omega, fun k hk => ?_⟩
    rw [take_prefix_iff (by omega)]
    constructor
    · rintro ⟨_, h⟩
      simp only
      by_contra hlt
      exact h1 (h iy (by omega))
    · intro h
      simp only at h
      exact ⟨by omega, fun j hj => h3 j (by omega)⟩

theorem compareAll_spec {base : List Nat} : ∀ (paths : List (List Nat)) (m : Int), 0 ≤ m + 1 → m + 1 ≤ base.length →
    -1 ≤ paths.foldl (fun m p => compareUpTo base p m) m ∧ paths.foldl (fun m p => compareUpTo base p m) m ≤ m ∧
      ∀ k : Nat, (k : Int) ≤ m + 1 → ((∀ p ∈ paths, base.take k <+: p) ↔ (k : Int) ≤ paths.foldl (fun m p => compareUpTo base p m) m + 1)
  | [], m, h0, hm => ⟨by simpa using (by omega : -1 ≤ m), Int.le_refl _, fun k hk => by simpa using hk⟩
  | p :: ps, m, h0, hm => by
    obtain ⟨a1, a2, a3⟩ := compareUpTo_spec (other := p) h0 hm
    obtain ⟨b1, b2, b3⟩ := compareAll_spec (base := base) ps (compareUpTo base p m) (by omega) (by omega)
    simp only [List.foldl_cons]
    refine ⟨b1, Int.le_trans b2 a2, fun k hk => ?_⟩
    rw [List.forall_mem_cons, a3 k hk]
    constructor
    · rintro ⟨h1, h2⟩
      exact (b3 k h1).1 h2
    · intro h
      have h1 : (k : Int) ≤ compareUpTo base p m + 1 := by omega
      exact ⟨h1, (b3 k h1).2 h⟩

/-- `lca` is the deepest node that is around all nodes. -/
theorem lca_spec (h : TreeOK t) {ids : List Nat} (hne : ids ≠ []) : ∃ p, lca t ids = some p ∧ (∀ i ∈ ids, findPath t p <+: findPath t i) ∧
    ∀ j, (∀ i ∈ ids, findPath t j <+: findPath t i) → findPath t j <+: findPath t p := by
  obtain ⟨i0, is, rfl⟩ := List.exists_cons_of_ne_nil hne
  have hlen : 1 ≤ (findPath t i0).length := List.length_pos_of_ne_nil (findPath_ne h i0)
  obtain ⟨a1, a2, a3⟩ := compareAll_spec (base := findPath t i0) ((i0 :: is).map (findPath t)) ((findPath t i0).length - 1) (by omega) (by omega)
  unfold lca
  simp only [List.map_cons, List.headD_cons] at a1 a2 a3 ⊢
  generalize (findPath t i0 :: List.map (findPath t) is).foldl (fun m p => compareUpTo (findPath t i0) p m) ((findPath t i0).length - 1) = r at a1 a2 a3 ⊢
  have hall : ∀ {q : List Nat}, (∀ p ∈ findPath t i0 :: List.map (findPath t) is, q <+: p) ↔ ∀ i ∈ i0 :: is, q <+: findPath t i := by
    intro q; simp
  have hr0 : 0 ≤ r := by
    have := (a3 1 (by omega)).1 (hall.2 fun i _ => by
      obtain ⟨x, hx, -⟩ := findPath_head h i0
      obtain ⟨y, hy, -⟩ := findPath_head h i
      rw [hx, hy]
      exact ⟨y, rfl⟩)
    omega
  rw [if_pos hr0]
  have hlt : r.toNat < (findPath t i0).length := by omega
  refine ⟨_, List.getElem?_eq_getElem hlt, ?_⟩
  have htake : (findPath t i0).take (r.toNat + 1) = findPath t ((findPath t i0)[r.toNat]) := by
    have := List.take_append_getElem hlt
    rw [← this]
    apply findPath_prefix h i0
    rw [this]
    exact List.take_prefix _ _
  rw [← htake]
  refine ⟨hall.1 ((a3 (r.toNat + 1) (by omega)).2 (by omega)), fun j hj => ?_⟩
  have hj0 := hj i0 (List.mem_cons_self ..)
  have hjl := hj0.length_le
  have hjt : findPath t j = (findPath t i0).take (findPath t j).length := List.prefix_iff_eq_take.1 hj0
  have := (a3 (findPath t j).length (by omega)).1 (hall.2 fun i hi => by rw [← hjt]; exact hj i hi)
  rw [hjt]
  exact List.take_prefix_take_left (by omega)

/-! ### The loops of a func -/

theorem TreeOK.append {p : Nat} {l : Nat × Nat} (h : TreeOK t) (hp : p < t.length) (hl : ∀ e ∈ t, e.2 ≠ some l) : TreeOK (t ++ [(p, some l)]) := by
  have hpos : 0 < t.length := by omega
  have key : ∀ i e, (t ++ [(p, some l)])[i]? = some e → t[i]? = some e ∨ (i = t.length ∧ e = (p, some l)) := by
    intro i e he
    rcases Nat.lt_or_ge i t.length with hi | hi
    · rw [List.getElem?_append_left hi] at he; exact Or.inl he
    · rw [List.getElem?_append_right hi] at he
      have : i - t.length = 0 := by
        by_contra hne
        rw [List.getElem?_eq_none (by simp; omega)] at he
        cases he
      rw [this] at he
      simp only [List.getElem?_cons_zero, Option.some.injEq] at he
      exact Or.inr ⟨by omega, he.symm⟩
  refine ⟨by rw [List.getElem?_append_left hpos]; exact h.root, ?_, ?_, ?_⟩
  · intro i hi e he
    rcases key i e he with he | ⟨rfl, rfl⟩
    · exact h.parent i hi e he
    · exact hp
  · intro i hi e he
    rcases key i e he with he | ⟨rfl, rfl⟩
    · exact h.ids i hi e he
    · simp
  · intro i j e e' he he' hee
    rcases key i e he with he | ⟨rfl, rfl⟩ <;> rcases key j e' he' with he' | ⟨rfl, rfl⟩
    · exact h.inj i j e e' he he' hee
    · exact absurd hee (hl e (List.mem_of_getElem? he))
    · exact absurd hee.symm (hl e' (List.mem_of_getElem? he'))
    · rfl

theorem findPath_append (h : TreeOK t) {t' : Tree} (h' : TreeOK (t ++ t')) {i : Nat} (hi : i < t.length) : findPath (t ++ t') i = findPath t i := by
  induction i using Nat.strong_induction_on with
  | _ i ih =>
    rcases Nat.eq_zero_or_pos i with rfl | hp
    · rfl
    · have hpar : par (t ++ t') i = par t i := by unfold par; rw [List.getElem?_append_left hi]
      have := h.par_lt hp
      rw [findPath_pos h hp, findPath_pos h' hp, hpar, ih _ this (by omega)]

theorem locPath_append (h : TreeOK t) {t' : Tree} (h' : TreeOK (t ++ t')) {i : Nat} (hi : i < t.length) : locPath (t ++ t') i = locPath t i := by
  unfold locPath
  rw [findPath_append h h' hi]
  apply List.map_congr_left
  intro j hj
  have hj' := findPath_le h i j (List.mem_of_mem_drop hj)
  unfold idOf
  rw [List.getElem?_append_left (by omega)]

theorem addLoops_spec {f : Nat} : ∀ (vs : List Nat) (t : Tree) (p : Nat), TreeOK t → p < t.length → vs.Nodup → (∀ v ∈ vs, ∀ e ∈ t, e.2 ≠ some (f, v)) →
    ∃ t', (addLoops f vs (t, p)).1 = t ++ t' ∧ TreeOK (t ++ t') ∧ (addLoops f vs (t, p)).2 < (t ++ t').length ∧
      locPath (t ++ t') (addLoops f vs (t, p)).2 = locPath t p ++ vs.map (fun v => (f, v)) ∧ ∀ e ∈ t', ∃ v ∈ vs, e.2 = some (f, v)
  | [], t, p, ht, hp, _, _ => ⟨[], by simp [addLoops], by simpa using ht, by simpa [addLoops] using hp, by simp [addLoops], by simp⟩
  | v :: vs, t, p, ht, hp, hnd, hfr => by
    have h1 := ht.append hp (hfr v (List.mem_cons_self ..))
    obtain ⟨t', a1, a2, a3, a4, a5⟩ := addLoops_spec (f := f) vs (t ++ [(p, some (f, v))]) t.length h1 (by simp) (List.nodup_cons.1 hnd).2 (by
      intro w hw e he
      rcases List.mem_append.1 he with he | he
      · exact hfr w (List.mem_cons_of_mem _ hw) e he
      · simp only [List.mem_singleton] at he
        subst he
        simp only [ne_eq, Option.some.injEq, Prod.mk.injEq, true_and]
        rintro rfl
        exact (List.nodup_cons.1 hnd).1 hw)
    rw [List.append_assoc] at a1 a2 a3 a4
    refine ⟨[(p, some (f, v))] ++ t', a1, a2, a3, ?_, ?_⟩
    · rw [addLoops, a4]
      have hpos : 0 < t.length := by omega
      rw [locPath_pos h1 hpos]
      have hpar : par (t ++ [(p, some (f, v))]) t.length = p := by simp [par]
      have hid : idOf (t ++ [(p, some (f, v))]) t.length = (f, v) := by simp [idOf]
      rw [hpar, hid, locPath_append ht h1 hp]
      simp
    · intro e he
      rcases List.mem_append.1 he with he | he
      · simp only [List.mem_singleton] at he
        exact ⟨v, List.mem_cons_self .., by rw [he]⟩
      · obtain ⟨w, hw, hw'⟩ := a5 e he
        exact ⟨w, List.mem_cons_of_mem _ hw, hw'⟩

/-! ### The locations -/

variable {G : SPipe}

/-- The invariant of `computeLocs`, after the funcs `pre`. -/
structure LInv (G : SPipe) (deps : Nat → List Nat) (pre : List Nat) (L : Nat → List (Nat × Nat)) (s : Locs) : Prop where
  tree : TreeOK s.tree
  loc : ∀ g ∈ pre, ∃ i, s.loc g = some i ∧ i < s.tree.length ∧ locPath s.tree i = around G L g
  own : ∀ (e : Nat × LoopId), e ∈ s.tree → ∀ l : Nat × Nat, e.2 = some l → l.1 ∈ pre
  cAt : ∀ g ∈ pre, s.cAt g = lastId (L g)
  rAt : ∀ g ∈ pre, s.rAt g = lastId (around G L g)
  top : ∀ f ∈ pre, deps f = [] → L f = []
  encl : ∀ f ∈ pre, ∀ g ∈ deps f, L f <+: around G L g
  deepest : ∀ f ∈ pre, G.computeAt f = none → deps f ≠ [] → ∀ q, (∀ k ∈ deps f, q <+: around G L k) → q <+: L f
  explicit : ∀ f ∈ pre, ∀ a, G.computeAt f = some a → lastId (L f) = a

/-- What `parentOf` finds. -/
structure POK (G : SPipe) (A : Nat → List (Nat × Nat)) (s : Locs) (f : Nat) (cs : List Nat) (p : Nat) (c : LoopId) : Prop where
  lt : p < s.tree.length
  id : c = lastId (locPath s.tree p)
  top : cs = [] → p = 0
  encl : ∀ k ∈ cs, locPath s.tree p <+: A k
  deepest : G.computeAt f = none → cs ≠ [] → ∀ q, (∀ k ∈ cs, q <+: A k) → q <+: locPath s.tree p
  explicit : ∀ a, G.computeAt f = some a → c = a

theorem mapM_loc {loc : Nat → Option Nat} : ∀ {cs : List Nat}, (∀ k ∈ cs, ∃ i, loc k = some i) → ∃ ids, cs.mapM loc = some ids ∧
    List.Forall₂ (fun k i => loc k = some i) cs ids
  | [], _ => ⟨[], rfl, .nil⟩
  | k :: cs, h => by
    obtain ⟨i, hi⟩ := h k (List.mem_cons_self ..)
    obtain ⟨ids, h1, h2⟩ := mapM_loc (cs := cs) fun x hx => h x (List.mem_cons_of_mem _ hx)
    exact ⟨i :: ids, by simp [hi, h1], .cons hi h2⟩

theorem forall₂_mem_right {α β : Type} {R : α → β → Prop} : ∀ {as : List α} {bs : List β}, List.Forall₂ R as bs → ∀ b ∈ bs, ∃ a ∈ as, R a b
  | _, _, .nil, _, hb => by cases hb
  | _, _, .cons (a := a) hab h, b, hb => by
    rcases List.mem_cons.1 hb with rfl | hb
    · exact ⟨a, List.mem_cons_self .., hab⟩
    · obtain ⟨x, hx, hx'⟩ := forall₂_mem_right h b hb
      exact ⟨x, List.mem_cons_of_mem _ hx, hx'⟩

theorem forall₂_mem_left {α β : Type} {R : α → β → Prop} : ∀ {as : List α} {bs : List β}, List.Forall₂ R as bs → ∀ a ∈ as, ∃ b ∈ bs, R a b
  | _, _, .nil, _, hb => by cases hb
  | _, _, .cons (b := b) hab h, a, ha => by
    rcases List.mem_cons.1 ha with rfl | ha
    · exact ⟨b, List.mem_cons_self .., hab⟩
    · obtain ⟨x, hx, hx'⟩ := forall₂_mem_left h a ha
      exact ⟨x, List.mem_cons_of_mem _ hx, hx'⟩

/-- The node that is found before the explicit location is taken into account. -/
theorem common_spec (h : TreeOK t) {ids : List Nat} (hne : ids ≠ []) : ∃ p, common t ids = some p ∧
    (∀ i ∈ ids, findPath t p <+: findPath t i) ∧ ∀ j, (∀ i ∈ ids, findPath t j <+: findPath t i) → findPath t j <+: findPath t p := by
  unfold common
  split
  · next h1 =>
    obtain ⟨i, rfl⟩ := List.length_eq_one_iff.1 h1
    exact ⟨i, rfl, by simp, by simp⟩
  · exact lca_spec h hne

theorem parentOf_spec {A : Nat → List (Nat × Nat)} {s : Locs} {f : Nat} {cs : List Nat} (ht : TreeOK s.tree)
    (hloc : ∀ k ∈ cs, ∃ i, s.loc k = some i ∧ i < s.tree.length ∧ locPath s.tree i = A k) :
    (∀ p c, parentOf G s f cs = some (p, c) → POK G A s f cs p c) ∧ (G.computeAt f = none → ∃ r, parentOf G s f cs = some r) := by
  have hpos : 0 < s.tree.length := by
    by_contra hc
    have := ht.root
    rw [List.getElem?_eq_none (by omega)] at this
    cases this
  by_cases hcs : cs = []
  · subst hcs
    unfold parentOf
    rw [if_pos rfl]
    constructor
    · intro p c h
      cases hc : G.computeAt f with
      | none =>
        rw [hc] at h
        simp only [Option.some.injEq, Prod.mk.injEq] at h
        obtain ⟨rfl, rfl⟩ := h
        exact ⟨hpos, rfl, fun _ => rfl, by simp, by simp, fun a ha => by rw [hc] at ha; cases ha⟩
      | some a =>
        rw [hc] at h
        simp only at h
        split at h
        · next ha =>
          simp only [Option.some.injEq, Prod.mk.injEq] at h
          obtain ⟨rfl, rfl⟩ := h
          exact ⟨hpos, rfl, fun _ => rfl, by simp, by simp, fun b hb => by rw [hc] at hb; cases hb; exact ha.symm⟩
        · cases h
    · intro hc
      rw [hc]
      exact ⟨_, rfl⟩
  · obtain ⟨ids, h1, h2⟩ := mapM_loc (loc := s.loc) (cs := cs) fun k hk => by
      obtain ⟨i, hi, -⟩ := hloc k hk
      exact ⟨i, hi⟩
    have hids : ids ≠ [] := by
      rintro rfl
      cases h2
      exact hcs rfl
    obtain ⟨p0, e0, e1, e2⟩ := common_spec ht hids
    -- what is known about a node
    have hk : ∀ k ∈ cs, ∃ i ∈ ids, i < s.tree.length ∧ locPath s.tree i = A k := by
      intro k hk
      obtain ⟨i, hi, hi'⟩ := forall₂_mem_left h2 k hk
      obtain ⟨j, hj, hj', hj''⟩ := hloc k hk
      rw [hi'] at hj
      cases hj
      exact ⟨i, hi, hj', hj''⟩
    have hi : ∀ i ∈ ids, ∃ k ∈ cs, i < s.tree.length ∧ locPath s.tree i = A k := by
      intro i hi
      obtain ⟨k, hk, hk'⟩ := forall₂_mem_right h2 i hi
      obtain ⟨j, hj, hj', hj''⟩ := hloc k hk
      rw [hk'] at hj
      cases hj
      exact ⟨k, hk, hj', hj''⟩
    have hp0 : p0 < s.tree.length := by
      obtain ⟨i, hi0⟩ := List.exists_mem_of_ne_nil _ hids
      obtain ⟨k, -, hlt, -⟩ := hi i hi0
      have : p0 ∈ findPath s.tree i := (e1 i hi0).subset (List.mem_of_getLast? (findPath_last ht p0))
      have := findPath_le ht i p0 this
      omega
    have hencl : ∀ p, findPath s.tree p <+: findPath s.tree p0 → ∀ k ∈ cs, locPath s.tree p <+: A k := by
      intro p hp k hkc
      obtain ⟨i, hi1, -, hi2⟩ := hk k hkc
      rw [← hi2]
      exact locPath_mono ht (hp.trans (e1 i hi1))
    unfold parentOf
    rw [if_neg hcs, h1]
    simp only [Option.bind_eq_bind, Option.bind_some, e0]
    constructor
    · intro p c h
      cases hc : G.computeAt f with
      | none =>
        rw [hc] at h
        simp only [Option.some.injEq, Prod.mk.injEq] at h
        obtain ⟨rfl, rfl⟩ := h
        refine ⟨hp0, (locPath_last ht hp0).symm, fun h => absurd h hcs, hencl _ (List.prefix_refl _), fun _ _ q hq => ?_, fun a ha => by rw [hc] at ha; cases ha⟩
        obtain ⟨i0, hi0⟩ := List.exists_mem_of_ne_nil _ hids
        obtain ⟨k0, hk0, hl0, hA0⟩ := hi i0 hi0
        obtain ⟨j, hj, rfl⟩ := prefix_locPath ht (i := i0) (q := q) (by rw [hA0]; exact hq k0 hk0)
        have hjl : j < s.tree.length := by have := findPath_le ht i0 j hj; omega
        apply locPath_mono ht
        apply e2
        intro i hi1
        obtain ⟨k, hkc, hl, hA⟩ := hi i hi1
        obtain ⟨j', hj', he⟩ := prefix_locPath ht (i := i) (q := locPath s.tree j) (by rw [hA]; exact hq k hkc)
        have : j = j' := locPath_inj ht hjl (by have := findPath_le ht i j' hj'; omega) he
        subst this
        exact findPath_mem ht hj'
      | some a =>
        rw [hc] at h
        simp only [Option.bind_eq_some_iff, Option.some.injEq, Prod.mk.injEq] at h
        obtain ⟨q, hq, rfl, rfl⟩ := h
        have hm := List.mem_of_getLast? hq
        rw [List.mem_filter, decide_eq_true_eq] at hm
        have hlt : q < s.tree.length := by have := findPath_le ht p0 q hm.1; omega
        exact ⟨hlt, by rw [locPath_last ht hlt]; exact hm.2.symm, fun h => absurd h hcs, hencl _ (findPath_mem ht hm.1),
          (fun h => by rw [hc] at h; cases h), fun b hb => by rw [hc] at hb; cases hb; rfl⟩
    · intro hc
      rw [hc]
      exact ⟨_, rfl⟩

theorem around_congr {L L' : Nat → List (Nat × Nat)} {g : Nat} (h : L g = L' g) : around G L g = around G L' g := by
  unfold around; rw [h]

theorem place_spec {deps : Nat → List Nat} {pre : List Nat} {L : Nat → List (Nat × Nat)} {s : Locs} (h : LInv G deps pre L s) {f : Nat}
    (hf : f ∉ pre) (hd : ∀ g ∈ deps f, g ∈ pre) (hd' : ∀ k ∈ pre, ∀ g ∈ deps k, g ∈ pre) (hnd : (G.loops f).Nodup) :
    (∀ s', place G deps s f = some s' → ∃ L', (∀ g, g ≠ f → L' g = L g) ∧ LInv G deps (pre ++ [f]) L' s') ∧
      (G.computeAt f = none → ∃ s', place G deps s f = some s') := by
  obtain ⟨hp1, hp2⟩ := parentOf_spec (G := G) (A := around G L) (f := f) h.tree fun k hk => h.loc k (hd k hk)
  constructor
  · intro s' hs'
    unfold place at hs'
    simp only [Option.bind_eq_bind, Option.bind_eq_some_iff, Option.some.injEq] at hs'
    obtain ⟨⟨p, c⟩, hpc, rfl⟩ := hs'
    have P := hp1 p c hpc
    obtain ⟨t', a1, a2, a3, a4, a5⟩ := addLoops_spec (f := f) (G.loops f).reverse s.tree p h.tree P.lt (List.nodup_reverse.2 hnd) (by
      intro v _ e he hc
      exact hf (h.own e he _ hc))
    let L' : Nat → List (Nat × Nat) := fun x => if x = f then locPath s.tree p else L x
    have hLf : L' f = locPath s.tree p := if_pos rfl
    have hLg : ∀ g, g ≠ f → L' g = L g := fun g hg => if_neg hg
    have hne : ∀ g ∈ pre, g ≠ f := fun g hg he => hf (he ▸ hg)
    have hAg : ∀ g ∈ pre, around G L' g = around G L g := fun g hg => around_congr (hLg g (hne g hg))
    have hAf : around G L' f = locPath (s.tree ++ t') (addLoops f (G.loops f).reverse (s.tree, p)).2 := by rw [a4, around, hLf]
    refine ⟨L', hLg, ⟨by simpa only [a1] using a2, ?_, ?_, ?_, ?_, ?_, ?_, ?_, ?_⟩⟩
    · intro g hg
      simp only [a1]
      rcases List.mem_append.1 hg with hg | hg
      · obtain ⟨i, hi1, hi2, hi3⟩ := h.loc g hg
        refine ⟨i, by rw [if_neg (hne g hg)]; exact hi1, by simp; omega, ?_⟩
        rw [locPath_append h.tree a2 hi2, hi3, hAg g hg]
      · simp only [List.mem_singleton] at hg
        subst hg
        exact ⟨_, if_pos rfl, a3, hAf.symm⟩
    · intro e he l hl
      simp only [a1] at he
      rcases List.mem_append.1 he with he | he
      · exact List.mem_append_left _ (h.own e he l hl)
      · obtain ⟨v, -, hv⟩ := a5 e he
        rw [hl] at hv
        cases hv
        simp
    · intro g hg
      dsimp only
      rcases List.mem_append.1 hg with hg | hg
      · rw [if_neg (hne g hg), h.cAt g hg, hLg g (hne g hg)]
      · simp only [List.mem_singleton] at hg
        subst hg
        rw [if_pos rfl, P.id, hLf]
    · intro g hg
      dsimp only
      rcases List.mem_append.1 hg with hg | hg
      · rw [if_neg (hne g hg), h.rAt g hg, hAg g hg]
      · simp only [List.mem_singleton] at hg
        subst hg
        rw [if_pos rfl, around, hLf]
        cases hl : G.loops g with
        | nil => simp [P.id]
        | cons v vs => simp [lastId]
    · intro g hg hdg
      rcases List.mem_append.1 hg with hg | hg
      · rw [hLg g (hne g hg)]; exact h.top g hg hdg
      · simp only [List.mem_singleton] at hg
        subst hg
        rw [hLf, P.top hdg]
        rfl
    · intro g hg k hk
      rcases List.mem_append.1 hg with hg | hg
      · rw [hLg g (hne g hg), hAg k (hd' g hg k hk)]; exact h.encl g hg k hk
      · simp only [List.mem_singleton] at hg
        subst hg
        rw [hLf, hAg k (hd k hk)]
        exact P.encl k hk
    · intro g hg hc hdg q hq
      rcases List.mem_append.1 hg with hg | hg
      · rw [hLg g (hne g hg)]
        exact h.deepest g hg hc hdg q fun k hk => by rw [← hAg k (hd' g hg k hk)]; exact hq k hk
      · simp only [List.mem_singleton] at hg
        subst hg
        rw [hLf]
        exact P.deepest hc hdg q fun k hk => by rw [← hAg k (hd k hk)]; exact hq k hk
    · intro g hg a ha
      rcases List.mem_append.1 hg with hg | hg
      · rw [hLg g (hne g hg)]; exact h.explicit g hg a ha
      · simp only [List.mem_singleton] at hg
        subst hg
        rw [hLf, ← P.id]
        exact P.explicit a ha
  · intro hc
    obtain ⟨⟨p, c⟩, hr⟩ := hp2 hc
    unfold place
    rw [hr]
    exact ⟨_, rfl⟩

theorem placeAll_spec {deps : Nat → List Nat} : ∀ (fs pre : List Nat) (L : Nat → List (Nat × Nat)) (s : Locs), LInv G deps pre L s → (pre ++ fs).Nodup →
    (∀ a f b, pre ++ fs = a ++ f :: b → ∀ g ∈ deps f, g ∈ a) → (∀ f ∈ fs, (G.loops f).Nodup) →
    (∀ s', fs.foldlM (place G deps) s = some s' → ∃ L', LInv G deps (pre ++ fs) L' s') ∧
      ((∀ f ∈ fs, G.computeAt f = none) → ∃ s', fs.foldlM (place G deps) s = some s')
  | [], pre, L, s, h, _, _, _ => ⟨fun s' hs' => by
      simp only [List.foldlM_nil, Option.pure_def, Option.some.injEq] at hs'
      subst hs'
      exact ⟨L, by simpa using h⟩, fun _ => ⟨s, rfl⟩⟩
  | f :: fs, pre, L, s, h, hnd, hord, hl => by
    have hd : ∀ g ∈ deps f, g ∈ pre := hord pre f fs rfl
    have hd' : ∀ k ∈ pre, ∀ g ∈ deps k, g ∈ pre := by
      intro k hk g hg
      obtain ⟨a, b, rfl⟩ := List.append_of_mem hk
      have := hord a k (b ++ f :: fs) (by simp) g hg
      exact List.mem_append_left _ this
    have hf : f ∉ pre := by
      intro hc
      have := (List.nodup_append.1 hnd).2.2 f hc f (List.mem_cons_self ..)
      exact this rfl
    obtain ⟨p1, p2⟩ := place_spec h hf hd hd' (hl f (List.mem_cons_self ..))
    have hap : pre ++ f :: fs = (pre ++ [f]) ++ fs := by simp
    constructor
    · intro s' hs'
      rw [List.foldlM_cons] at hs'
      simp only [Option.bind_eq_bind, Option.bind_eq_some_iff] at hs'
      obtain ⟨s1, hs1, hs2⟩ := hs'
      obtain ⟨L1, -, hL1⟩ := p1 s1 hs1
      rw [hap] at hnd hord ⊢
      exact (placeAll_spec fs (pre ++ [f]) L1 s1 hL1 hnd hord fun g hg => hl g (List.mem_cons_of_mem _ hg)).1 s' hs2
    · intro hc
      obtain ⟨s1, hs1⟩ := p2 (hc f (List.mem_cons_self ..))
      obtain ⟨L1, -, hL1⟩ := p1 s1 hs1
      rw [hap] at hnd hord
      obtain ⟨s', hs'⟩ := (placeAll_spec fs (pre ++ [f]) L1 s1 hL1 hnd hord fun g hg => hl g (List.mem_cons_of_mem _ hg)).2
        fun g hg => hc g (List.mem_cons_of_mem _ hg)
      exact ⟨s', by rw [List.foldlM_cons, hs1]; exact hs'⟩

theorem TreeOK.root_only : TreeOK [(0, none)] := by
  refine ⟨rfl, ?_, ?_, ?_⟩
  · intro i hi e he
    rw [List.getElem?_eq_none (by simp; omega)] at he
    cases he
  · intro i hi e he
    rw [List.getElem?_eq_none (by simp; omega)] at he
    cases he
  · intro i j e e' he he' _
    have hi : i < 1 := by by_contra hc; rw [List.getElem?_eq_none (by simp; omega)] at he; cases he
    have hj : j < 1 := by by_contra hc; rw [List.getElem?_eq_none (by simp; omega)] at he'; cases he'
    omega

theorem deps_mem {order : List Nat} {deps : Nat → List Nat} (hd : DepsOK G order deps) {p f : Nat} : f ∈ deps p ↔ f ∈ order ∧ p ∈ G.prods f := by
  rw [← List.count_pos_iff, hd p f]
  split
  · next h => rw [List.count_pos_iff]; simp [h]
  · next h => simp [h]

theorem deps_before {order : List Nat} {deps : Nat → List Nat} (ho : OrderOK G order) (hd : DepsOK G order deps) :
    ∀ a f b, order = a ++ f :: b → ∀ g ∈ deps f, g ∈ a := by
  intro a f b hab g hg
  obtain ⟨h1, h2⟩ := (deps_mem hd).1 hg
  obtain ⟨x, y, hxy⟩ := List.append_of_mem h1
  have hpy := ho.before x g y hxy f h2
  have hnd := ho.nodup
  by_contra hga
  rw [hab] at h1
  rcases List.mem_append.1 h1 with h1 | h1
  · exact hga h1
  · -- `g` is not before `f`, so `f` is twice in the order
    have hc := ho.before
    rcases List.mem_cons.1 h1 with rfl | h1
    · rw [hxy] at hnd
      have := (List.nodup_cons.1 (List.nodup_append.1 hnd).2.1).1
      exact this hpy
    · obtain ⟨u, v, rfl⟩ := List.append_of_mem h1
      have := ho.before (a ++ f :: u) g v (by rw [hab]; simp) f h2
      rw [hab] at hnd
      have h3 := (List.nodup_cons.1 (List.nodup_append.1 hnd).2.1).1
      exact h3 (by simp [this])

/-- C48. The funcs are computed in the loops that the specification asks for. -/
theorem computeLocs_spec {order : List Nat} {deps : Nat → List Nat} (ho : OrderOK G order) (hd : DepsOK G order deps) (hl : ∀ f ∈ order, (G.loops f).Nodup)
    {s : Locs} (h : computeLocs G order deps = some s) : ∃ L, ScheduleOK G order L ∧ (∀ f ∈ order, s.cAt f = lastId (L f)) ∧
      ∀ f ∈ order, s.rAt f = lastId (around G L f) := by
  have hbef := deps_before ho hd
  obtain ⟨L, hL⟩ := (placeAll_spec (G := G) (deps := deps) order [] (fun _ => []) ⟨[(0, none)], fun _ => none, fun _ => none, fun _ => none⟩
    ⟨TreeOK.root_only, by simp, by simp, by simp, by simp, by simp, by simp, by simp, by simp⟩ (by simpa using ho.nodup) (by simpa using hbef) hl).1 s h
  simp only [List.nil_append] at hL
  refine ⟨L, ⟨?_, ?_, ?_, hL.explicit, ?_⟩, hL.cAt, hL.rAt⟩
  · intro f hf hno
    apply hL.top f hf
    by_contra hne
    obtain ⟨g, hg⟩ := List.exists_mem_of_ne_nil _ hne
    obtain ⟨h1, h2⟩ := (deps_mem hd).1 hg
    exact hno g h1 h2
  · intro f hf g hg hfg
    exact hL.encl f hf g ((deps_mem hd).2 ⟨hg, hfg⟩)
  · intro f hf hc g hg hfg q hq
    refine hL.deepest f hf hc (List.ne_nil_of_mem ((deps_mem hd).2 ⟨hg, hfg⟩)) q fun k hk => ?_
    obtain ⟨h1, h2⟩ := (deps_mem hd).1 hk
    exact hq k h1 h2
  · intro a f b hab
    have hf : f ∈ order := by rw [hab]; simp
    by_cases hne : deps f = []
    · exact Or.inl (hL.top f hf hne)
    · obtain ⟨g, hg⟩ := List.exists_mem_of_ne_nil _ hne
      exact Or.inr ⟨g, hbef a f b hab g hg, hL.encl f hf g hg⟩

/-- C48. Without explicit locations, there always is a place for every func. -/
theorem computeLocs_total {order : List Nat} {deps : Nat → List Nat} (ho : OrderOK G order) (hd : DepsOK G order deps) (hl : ∀ f ∈ order, (G.loops f).Nodup)
    (hc : ∀ f ∈ order, G.computeAt f = none) : ∃ s, computeLocs G order deps = some s :=
  (placeAll_spec (G := G) (deps := deps) order [] (fun _ => []) ⟨[(0, none)], fun _ => none, fun _ => none, fun _ => none⟩
    ⟨TreeOK.root_only, by simp, by simp, by simp, by simp, by simp, by simp, by simp, by simp⟩ (by simpa using ho.nodup) (by simpa using deps_before ho hd) hl).2 hc

end SPipe

end Slinky
