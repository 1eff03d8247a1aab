import Verif.SymbolMap
import Mathlib.Data.List.GetD
import Mathlib.Data.List.Range

/-!
# Symbol maps, scoped values, name contexts: proofs
-/

namespace Slinky.SM

variable {T : Type}

theorem lookup_eq (m : Vals T) (v : Nat) : lookup m v = (m[v]?).join := by
  unfold lookup
  split
  · next h => simp [List.getElem?_eq_getElem h]
  · next h => simp [List.getElem?_eq_none (Nat.le_of_not_lt h)]

/-- C36: `lookup` with a default, `contains` and `lookup` agree. -/
theorem lookupD_eq (m : Vals T) (v : Nat) (d : T) : lookupD m v d = (lookup m v).getD d := by
  unfold lookupD lookup; split <;> simp

theorem contains_eq (m : Vals T) (v : Nat) : contains m v = (lookup m v).isSome := by
  unfold contains lookup; split <;> simp

theorem lookup_resize (m : Vals T) (n v : Nat) (h : m.length ≤ n) : lookup (resize m n) v = lookup m v := by
  rw [lookup_eq, lookup_eq, resize, List.take_of_length_le h]
  by_cases hv : v < m.length
  · rw [List.getElem?_append_left hv]
  · have hv' := Nat.le_of_not_lt hv
    rw [List.getElem?_append_right hv', List.getElem?_eq_none hv', List.getElem?_replicate]
    split <;> rfl

theorem length_resize (m : Vals T) (n : Nat) (h : m.length ≤ n) : (resize m n).length = n := by
  simp [resize]; omega

theorem lookup_grow (m : Vals T) (n v : Nat) : lookup (grow m n) v = lookup m v := by
  unfold grow
  split
  · exact lookup_resize _ _ _ (by omega)
  · rfl

theorem lt_length_grow (m : Vals T) (n : Nat) : n < (grow m n).length := by
  unfold grow
  split
  · rw [length_resize _ _ (by omega)]; omega
  · omega

theorem length_le_grow (m : Vals T) (n : Nat) : m.length ≤ (grow m n).length := by
  unfold grow
  split
  · rw [length_resize _ _ (by omega)]; omega
  · omega

theorem lookup_set (m : Vals T) (v w : Nat) (x : Option T) (h : v < m.length) :
    lookup (m.set v x) w = if w = v then x else lookup m w := by
  rw [lookup_eq, lookup_eq, List.getElem?_set]
  by_cases e : w = v
  · subst e; simp [h]
  · simp [e, Ne.symm e]

theorem lookup_assign (m : Vals T) (v w : Nat) (x : Option T) :
    lookup (assign m v x) w = if w = v then x else lookup m w := by
  unfold assign
  rw [lookup_set _ _ _ _ (lt_length_grow m v), lookup_grow]

theorem lookup_erase (m : Vals T) (v w : Nat) :
    lookup (erase m v) w = if w = v then none else lookup m w := by
  unfold erase
  split
  · next h => exact lookup_set _ _ _ _ h
  · next h =>
    split
    · next e => subst e; unfold lookup; simp [h]
    · rfl

theorem lookup_reserve (m : Vals T) (n w : Nat) : lookup (reserve m n) w = lookup m w :=
  lookup_resize _ _ _ (by omega)

theorem run_length (c : Cmd T) : ∀ (m m' : Vals T), c.run m = some m' → m.length ≤ m'.length := by
  induction c with
  | assign v x =>
    intro m m' h; simp only [Cmd.run, Option.some.injEq] at h; subst h
    simp only [assign, List.length_set]; exact length_le_grow m v
  | erase v =>
    intro m m' h; simp only [Cmd.run, Option.some.injEq] at h; subst h
    unfold erase; split <;> simp
  | reserve n =>
    intro m m' h; simp only [Cmd.run, Option.some.injEq] at h; subst h
    unfold reserve; rw [length_resize _ _ (by omega)]; omega
  | seq a b iha ihb =>
    intro m m' h
    simp only [Cmd.run, Option.bind_eq_some_iff] at h
    obtain ⟨m1, h1, h2⟩ := h
    exact Nat.le_trans (iha _ _ h1) (ihb _ _ h2)
  | skip => intro m m' h; simp only [Cmd.run, Option.some.injEq] at h; subst h; exact Nat.le_refl _
  | scope s x body ih =>
    intro m m' h
    simp only [Cmd.run, Option.bind_eq_some_iff] at h
    obtain ⟨m1, ⟨r, h0, h1⟩, h2⟩ := h
    have e0 : r.2 = (grow m s).set s x := by
      simp [Guard.make, Guard.move, Guard.exit] at h0
      rw [← h0]
    have h3 := ih _ _ h1
    rw [e0, List.length_set] at h3
    have h4 := length_le_grow m s
    have e1 : (Guard.make m s x).1.move.1.exit m1 =
        some (⟨false, s, lookup (grow m s) s⟩, m1.set s (lookup (grow m s) s)) := by
      have hlt : s < m1.length := Nat.lt_of_lt_of_le (lt_length_grow m s) h3
      simp [Guard.make, Guard.move, Guard.exit, rawWrite, hlt]
    rw [e1] at h2
    simp only [Option.map_some, Option.some.injEq] at h2
    subst h2
    simp only [List.length_set]; omega

/-- C36: the implementation refines the specification: a program never accesses the vector out of
range and its effect on what `lookup` returns is the effect on a function from symbols to values; in
particular (`Cmd.spec`) the end of a scope restores the symbol. -/
theorem run_correct (c : Cmd T) : ∀ m : Vals T, ∃ m', c.run m = some m' ∧ lookup m' = c.spec (lookup m) := by
  induction c with
  | assign v x =>
    intro m; refine ⟨_, rfl, ?_⟩
    funext w; simp [Cmd.spec, lookup_assign, Function.update_apply]
  | erase v =>
    intro m; refine ⟨_, rfl, ?_⟩
    funext w; simp [Cmd.spec, lookup_erase, Function.update_apply]
  | reserve n => intro m; exact ⟨_, rfl, by funext w; simp [Cmd.spec, lookup_reserve]⟩
  | seq a b iha ihb =>
    intro m
    obtain ⟨m1, h1, e1⟩ := iha m
    obtain ⟨m2, h2, e2⟩ := ihb m1
    exact ⟨m2, by simp [Cmd.run, h1, h2], by rw [e2, e1]; rfl⟩
  | skip => intro m; exact ⟨m, rfl, rfl⟩
  | scope s x body ih =>
    intro m
    obtain ⟨m1, h1, e1⟩ := ih ((grow m s).set s x)
    have hl := run_length _ _ _ h1
    simp only [List.length_set] at hl
    have hs : s < m1.length := Nat.lt_of_lt_of_le (lt_length_grow m s) hl
    refine ⟨m1.set s (lookup m s), ?_, ?_⟩
    · simp [Cmd.run, Guard.make, Guard.move, Guard.exit, rawWrite, h1, hs, lookup_grow]
    · funext w
      rw [lookup_set _ _ _ _ hs, e1, Cmd.spec, Function.update_apply]
      have : lookup ((grow m s).set s x) = Function.update (lookup m) s x := by
        funext w
        rw [lookup_set _ _ _ _ (lt_length_grow m s), lookup_grow, Function.update_apply]
      rw [this]

/-- C36: whatever happens inside a scope, after the scope the symbol has the value it had before. -/
theorem scope_restores (s : Nat) (x : Option T) (body : Cmd T) (m : Vals T) :
    ∃ m', (Cmd.scope s x body).run m = some m' ∧ lookup m' s = lookup m s := by
  obtain ⟨m', h, e⟩ := run_correct (.scope s x body) m
  exact ⟨m', h, by rw [e]; simp [Cmd.spec]⟩

/-- C36: inside the scope the symbol has the value given (if the body does not change it first), and
the other symbols are not affected by entering or leaving the scope. -/
theorem scope_only_symbol (s : Nat) (x : Option T) (body : Cmd T) (m : Vals T) :
    ∃ m1 m2 m', lookup m1 = Function.update (lookup m) s x ∧ body.run m1 = some m2 ∧
      (Cmd.scope s x body).run m = some m' ∧ ∀ w, w ≠ s → lookup m' w = lookup m2 w := by
  obtain ⟨m2, h2, e2⟩ := run_correct body ((grow m s).set s x)
  obtain ⟨m', h, e⟩ := run_correct (.scope s x body) m
  have hu : lookup ((grow m s).set s x) = Function.update (lookup m) s x := by
    funext w
    rw [lookup_set _ _ _ _ (lt_length_grow m s), lookup_grow, Function.update_apply]
  refine ⟨_, m2, m', hu, h2, h, ?_⟩
  intro w hw
  rw [e, e2, hu]
  simp [Cmd.spec, hw]

/-- C36: moving a scoped value leaves exactly one object that restores the symbol: destroying the
moved-from object has no effect. -/
theorem moved_from_inert (g : Guard T) (m : Vals T) : (g.move.2.exit m) = some (g.move.2, m) := by
  simp [Guard.move, Guard.exit]

/-- Exiting a scope twice is the same as exiting it once. -/
theorem exit_twice (g g' : Guard T) (m m' : Vals T) (h : g.exit m = some (g', m')) :
    g'.exit m' = some (g', m') := by
  unfold Guard.exit at h
  split at h
  · split at h
    · simp only [Option.some.injEq, Prod.mk.injEq] at h
      obtain ⟨rfl, rfl⟩ := h
      simp [Guard.exit]
    · cases h
  · next hn =>
    simp only [Option.some.injEq, Prod.mk.injEq] at h
    obtain ⟨rfl, rfl⟩ := h
    simp [Guard.exit, hn]

/-! ## Vectors of scoped values -/

theorem make_lookup (m : Vals T) (s : Nat) (x : Option T) :
    lookup (Guard.make m s x).2 = Function.update (lookup m) s x := by
  funext w
  simp only [Guard.make]
  rw [lookup_set _ _ _ _ (lt_length_grow m s), lookup_grow, Function.update_apply]

theorem openAll_length (l : List (Nat × Option T)) : ∀ m, m.length ≤ (openAll l m).2.length := by
  induction l with
  | nil => intro m; exact Nat.le_refl _
  | cons p rest ih =>
    intro m
    obtain ⟨s, x⟩ := p
    simp only [openAll]
    refine Nat.le_trans ?_ (ih _)
    simp only [Guard.make, List.length_set]; exact length_le_grow m s

theorem openAll_syms (l : List (Nat × Option T)) : ∀ m, ∀ g ∈ (openAll l m).1,
    g.active = true ∧ g.sym < (openAll l m).2.length := by
  induction l with
  | nil => intro m g hg; simp [openAll] at hg
  | cons p rest ih =>
    intro m g hg
    obtain ⟨s, x⟩ := p
    simp only [openAll, List.mem_cons] at hg ⊢
    rcases hg with rfl | hg
    · refine ⟨rfl, ?_⟩
      refine Nat.lt_of_lt_of_le (lt_length_grow m s) ?_
      have := openAll_length rest (Guard.make m s x).2
      simpa [Guard.make] using this
    · exact ih _ g hg

theorem exit_some (g : Guard T) (m : Vals T) (ha : g.active = true) (hs : g.sym < m.length) :
    g.exit m = some ({ g with active := false }, m.set g.sym g.old) := by
  simp [Guard.exit, ha, rawWrite, hs]

theorem closeAll_append (a b : List (Guard T)) : ∀ m, closeAll (a ++ b) m = (closeAll a m).bind (closeAll b) := by
  induction a with
  | nil => intro m; rfl
  | cons g rest ih =>
    intro m
    simp only [List.cons_append, closeAll]
    cases g.exit m with
    | none => rfl
    | some r => simp [ih]

theorem closeAll_total (gs : List (Guard T)) : ∀ (m : Vals T),
    (∀ g ∈ gs, g.active = true ∧ g.sym < m.length) →
    ∃ m', closeAll gs m = some m' ∧ m'.length = m.length ∧
      lookup m' = gs.foldl (fun f g => Function.update f g.sym g.old) (lookup m) := by
  induction gs with
  | nil => intro m _; exact ⟨m, rfl, rfl, rfl⟩
  | cons g rest ih =>
    intro m h
    have hg := h g (by simp)
    obtain ⟨m', h1, h2, h3⟩ := ih (m.set g.sym g.old) (by
      intro g' hg'; simp only [List.length_set]; exact h g' (by simp [hg']))
    refine ⟨m', ?_, by simpa using h2, ?_⟩
    · simp [closeAll, exit_some g m hg.1 hg.2, h1]
    · rw [h3, List.foldl_cons]
      congr 1
      funext w
      rw [lookup_set _ _ _ _ hg.2, Function.update_apply]

theorem openAll_fold (l : List (Nat × Option T)) : ∀ m : Vals T, ∀ f,
    (∀ w, w ∉ l.map (·.1) → f w = lookup m w) →
    (openAll l m).1.reverse.foldl (fun f g => Function.update f g.sym g.old) f = lookup m := by
  induction l with
  | nil => intro m f hf; funext w; simpa [openAll] using hf w (by simp)
  | cons p rest ih =>
    obtain ⟨s, x⟩ := p
    intro m f hf
    simp only [openAll, List.reverse_cons, List.foldl_append, List.foldl_cons, List.foldl_nil]
    by_cases hs : s ∈ rest.map (·.1)
    · rw [ih (Guard.make m s x).2 f]
      · rw [make_lookup]
        funext w
        simp only [Guard.make, lookup_grow, Function.update_apply]
        split
        · next e => rw [e]
        · rfl
      · intro w hw
        rw [make_lookup, Function.update_apply, if_neg (by rintro rfl; exact hw hs)]
        apply hf
        simp only [List.map_cons, List.mem_cons, not_or]
        exact ⟨by rintro rfl; exact hw hs, hw⟩
    · -- the folded function is `update _ s _` at the end, so the value of `f s` is irrelevant
      have key : ∀ (gs : List (Guard T)) (f g : Nat → Option T), (∀ w, w ≠ s → f w = g w) →
          ∀ w, w ≠ s → gs.foldl (fun f g => Function.update f g.sym g.old) f w =
            gs.foldl (fun f g => Function.update f g.sym g.old) g w := by
        intro gs
        induction gs with
        | nil => intro f g h w hw; exact h w hw
        | cons a gs ihg =>
          intro f g h w hw
          refine ihg _ _ ?_ w hw
          intro w' hw'
          simp only [Function.update_apply]
          split
          · rfl
          · exact h w' hw'
      have h1 := ih (Guard.make m s x).2 (Function.update f s x) (by
        intro w hw
        rw [make_lookup]
        simp only [Function.update_apply]
        split
        · rfl
        · next hne =>
          apply hf
          simp only [List.map_cons, List.mem_cons, not_or]
          exact ⟨hne, hw⟩)
      funext w
      simp only [Guard.make, lookup_grow, Function.update_apply]
      by_cases hw : w = s
      · subst hw; simp
      · rw [if_neg hw]
        have h2 := key (openAll rest (Guard.make m s x).2).1.reverse f (Function.update f s x)
          (by intro w' hw'; simp [hw']) w hw
        simp only [Guard.make] at h2 h1
        rw [h2, h1]
        have h3 := make_lookup m s x
        simp only [Guard.make] at h3
        rw [h3]; simp [hw]

/-- C36: a list of scoped values (for any symbols, with repetitions) that are destroyed in the reverse
order of their construction restores the map, whatever happens to these symbols in between (`m2`: any
map that agrees with the map before on the other symbols). -/
theorem close_reverse_restores (l : List (Nat × Option T)) (m m2 : Vals T)
    (hl : (openAll l m).2.length ≤ m2.length)
    (h2 : ∀ w, w ∉ l.map (·.1) → lookup m2 w = lookup m w) :
    ∃ m', closeAll (openAll l m).1.reverse m2 = some m' ∧ lookup m' = lookup m := by
  obtain ⟨m', h, _, e⟩ := closeAll_total (openAll l m).1.reverse m2 (by
    intro g hg
    have := openAll_syms l m g (by simpa using hg)
    exact ⟨this.1, Nat.lt_of_lt_of_le this.2 hl⟩)
  exact ⟨m', h, by rw [e]; exact openAll_fold l m _ h2⟩

theorem openAll_lookup_other (l : List (Nat × Option T)) : ∀ m w, w ∉ l.map (·.1) →
    lookup (openAll l m).2 w = lookup m w := by
  induction l with
  | nil => intro m w _; rfl
  | cons p rest ih =>
    intro m w hw
    obtain ⟨s, x⟩ := p
    simp only [List.map_cons, List.mem_cons, not_or] at hw
    simp only [openAll]
    rw [ih _ w hw.2, make_lookup]
    simp [hw.1]

theorem openAll_map_sym (l : List (Nat × Option T)) : ∀ m, (openAll l m).1.map (·.sym) = l.map (·.1) := by
  induction l with
  | nil => intro m; rfl
  | cons p rest ih =>
    intro m
    obtain ⟨s, x⟩ := p
    simp [openAll, Guard.make, ih]

theorem foldl_update_perm (gs : List (Guard T)) (hn : (gs.map (·.sym)).Nodup) (f : Nat → Option T) :
    gs.foldl (fun f g => Function.update f g.sym g.old) f =
    gs.reverse.foldl (fun f g => Function.update f g.sym g.old) f := by
  induction gs generalizing f with
  | nil => rfl
  | cons g rest ih =>
    simp only [List.map_cons, List.nodup_cons] at hn
    simp only [List.foldl_cons, List.reverse_cons, List.foldl_append, List.foldl_nil]
    rw [ih hn.2]
    have key : ∀ (gs : List (Guard T)) (f : Nat → Option T) s x, s ∉ gs.map (·.sym) →
        gs.foldl (fun f g => Function.update f g.sym g.old) (Function.update f s x) =
        Function.update (gs.foldl (fun f g => Function.update f g.sym g.old) f) s x := by
      intro gs
      induction gs with
      | nil => intro f s x _; rfl
      | cons a gs ihg =>
        intro f s x hs
        simp only [List.map_cons, List.mem_cons, not_or] at hs
        simp only [List.foldl_cons]
        rw [Function.update_comm hs.1, ihg _ _ _ hs.2]
    exact key _ _ _ _ (by simpa using hn.1)

/-- C36: a `std::vector` of scoped values, whose elements are destroyed in the order of their
construction, restores the map if the symbols are different. -/
theorem close_forward_restores (l : List (Nat × Option T)) (m m2 : Vals T)
    (hd : (l.map (·.1)).Nodup) (hl : (openAll l m).2.length ≤ m2.length)
    (h2 : ∀ w, w ∉ l.map (·.1) → lookup m2 w = lookup m w) :
    ∃ m', closeAll (openAll l m).1 m2 = some m' ∧ lookup m' = lookup m := by
  obtain ⟨m', h, _, e⟩ := closeAll_total (openAll l m).1 m2 (by
    intro g hg
    have := openAll_syms l m g hg
    exact ⟨this.1, Nat.lt_of_lt_of_le this.2 hl⟩)
  refine ⟨m', h, ?_⟩
  rw [e, foldl_update_perm _ (by rw [openAll_map_sym]; exact hd)]
  exact openAll_fold l m _ h2

/-- With a repeated symbol, destruction in the order of construction does *not* restore the map
(`let x = 1, x = 2`: the symbol keeps the first value after the scope). -/
theorem close_forward_duplicate_not_restored :
    ∃ (l : List (Nat × Option Int)) (m m' : Vals Int),
      closeAll (openAll l m).1 (openAll l m).2 = some m' ∧ lookup m 0 = none ∧ lookup m' 0 = some 1 :=
  ⟨[(0, some 1), (0, some 2)], [], [some 1], by decide, by decide, by decide⟩

/-- Example: nested scopes of the same symbol. -/
example : (Cmd.scope 1 (some 5) (.seq (.scope 1 (some (6 : Int)) (.assign 1 none)) (.erase 3))).run [none, some 2] =
    some [none, some 2] := by decide

example : closeAll (openAll [(0, some (1 : Int)), (2, some 2)] [some 7]).1
    (openAll [(0, some (1 : Int)), (2, some 2)] [some 7]).2 = some [some 7, none, none] := by decide

/-! ## `node_context` -/

/-- The representation invariant: the map is the inverse of the list of names. -/
def NodeContext.Good (c : NodeContext) : Prop :=
  c.names.Nodup ∧ ∀ n v, c.lookup n = some v ↔ c.names[v]? = some n

theorem NodeContext.Good.lookup_none {c : NodeContext} (h : c.Good) (n : String) :
    c.lookup n = none ↔ n ∉ c.names := by
  constructor
  · intro hn hm
    obtain ⟨i, hi⟩ := List.mem_iff_getElem?.mp hm
    rw [(h.2 n i).mpr hi] at hn; cases hn
  · intro hm
    cases hl : c.lookup n with
    | none => rfl
    | some v => exact absurd (List.mem_of_getElem? ((h.2 n v).mp hl)) hm

theorem NodeContext.Good.insert {c : NodeContext} (h : c.Good) (n : String) : (c.insert n).2.Good := by
  unfold NodeContext.insert
  cases hl : c.lookup n with
  | some v => exact h
  | none =>
    have hn := (h.lookup_none n).mp hl
    constructor
    · simp only
      rw [List.nodup_append]
      exact ⟨h.1, by simp, by intro a ha b hb; simp at hb; subst hb; rintro rfl; exact hn ha⟩
    · intro n' v
      simp only [NodeContext.lookup, List.find?_cons]
      by_cases e : n = n'
      · subst e
        simp only [decide_true, Option.map_some, Option.some.injEq]
        constructor
        · rintro rfl; simp
        · intro hv
          rw [List.getElem?_append] at hv
          split at hv
          · exact absurd (List.mem_of_getElem? hv) hn
          · have : v - c.names.length = 0 := by
              by_contra hc
              rw [List.getElem?_eq_none (by simp; omega)] at hv; cases hv
            omega
      · simp only [e, decide_false]
        have h2 := h.2 n' v
        simp only [NodeContext.lookup] at h2
        rw [h2, List.getElem?_append]
        split
        · rfl
        · next hlt =>
          rw [List.getElem?_eq_none (by omega)]
          constructor
          · intro hc; cases hc
          · intro hc
            have := List.mem_of_getElem? hc
            simp at this
            exact absurd this.symm e

theorem NodeContext.good_of_reachable {c : NodeContext} (h : c.Reachable) : c.Good := by
  induction h with
  | empty => exact ⟨by simp, by intro n v; simp [NodeContext.lookup]⟩
  | insert n _ ih => exact ih.insert n
  | insertUnique n _ ih => exact ih.insert _

/-- C36: `name` and `lookup` are inverse: a name is found exactly at the symbol that has this name. -/
theorem lookup_iff_name {c : NodeContext} (h : c.Reachable) (undef : Nat) (n : String) (v : Nat) :
    c.lookup n = some v ↔ v < c.names.length ∧ c.name undef v = n := by
  rw [(NodeContext.good_of_reachable h).2]
  unfold NodeContext.name
  constructor
  · intro hv
    rw [hv]
    exact ⟨(List.getElem?_eq_some_iff.mp hv).1, rfl⟩
  · rintro ⟨h1, h2⟩
    rw [List.getElem?_eq_getElem h1] at h2 ⊢
    rw [← h2]

/-- C36: different symbols have different names. -/
theorem name_injective {c : NodeContext} (h : c.Reachable) (undef v w : Nat) (hv : v < c.names.length)
    (hw : w < c.names.length) (e : c.name undef v = c.name undef w) : v = w := by
  have h1 := (lookup_iff_name h undef _ v).mpr ⟨hv, rfl⟩
  have h2 := (lookup_iff_name h undef _ w).mpr ⟨hw, rfl⟩
  rw [e, h2] at h1
  exact (Option.some.injEq _ _ ▸ h1).symm

/-- C36: `insert` returns a symbol with the given name: the existing one if there is one. -/
theorem insert_correct {c : NodeContext} (h : c.Reachable) (undef : Nat) (n : String) :
    (c.insert n).2.lookup n = some (c.insert n).1 ∧ (c.insert n).2.name undef (c.insert n).1 = n ∧
    (∀ v, c.lookup n = some v → c.insert n = (v, c)) := by
  have h' : (c.insert n).2.lookup n = some (c.insert n).1 := by
    unfold NodeContext.insert
    cases hl : c.lookup n with
    | some v => simpa using hl
    | none => simp [NodeContext.lookup]
  refine ⟨h', ((lookup_iff_name (.insert n h) undef n _).mp h').2, ?_⟩
  intro v hv
  simp [NodeContext.insert, hv]

/-- C36: inserting names does not change the existing symbols. -/
theorem insert_preserves {c : NodeContext} (undef : Nat) (n : String) (v : Nat)
    (hv : v < c.names.length) :
    v < (c.insert n).2.names.length ∧ (c.insert n).2.name undef v = c.name undef v := by
  unfold NodeContext.insert
  cases hl : c.lookup n with
  | some w => exact ⟨hv, rfl⟩
  | none =>
    refine ⟨by simp; omega, ?_⟩
    simp only [NodeContext.name]
    rw [List.getElem?_append_left hv]

theorem suffixed_inj (pre : String) (i j : Nat) (h : suffixed pre i = suffixed pre j) : i = j := by
  unfold suffixed at h
  have h1 := congrArg String.toList h
  simp only [String.toList_append, List.append_cancel_left_eq, Nat.toString_eq_repr, Nat.toList_repr] at h1
  have h2 := congrArg (fun l => Nat.ofDigitChars 10 l 0) h1
  simpa [Nat.ofDigitChars_ten_toDigits] using h2

theorem suffixed_ne (pre : String) (i : Nat) : suffixed pre i ≠ pre := by
  intro h
  unfold suffixed at h
  have h1 := congrArg (fun s => s.toList.length) h
  simp [String.toList_append] at h1

/-- The names that `insert_unique` tries, in order. -/
def candidate (pre : String) : Nat → String
  | 0 => pre
  | i + 1 => suffixed pre i

theorem candidate_inj (pre : String) : Function.Injective (candidate pre) := by
  intro i j h
  cases i with
  | zero =>
    cases j with
    | zero => rfl
    | succ j => exact absurd h.symm (suffixed_ne pre j)
  | succ i =>
    cases j with
    | zero => exact absurd h (suffixed_ne pre i)
    | succ j => rw [suffixed_inj pre i j h]

theorem search_spec (c : NodeContext) (pre : String) : ∀ fuel i,
    ∃ k, i ≤ k ∧ k ≤ i + fuel ∧ c.search pre fuel i (candidate pre i) = candidate pre k ∧
      (∀ j, i ≤ j → j < k → (c.lookup (candidate pre j)).isSome) ∧
      (k = i + fuel ∨ c.lookup (candidate pre k) = none) := by
  intro fuel
  induction fuel with
  | zero => intro i; exact ⟨i, Nat.le_refl _, Nat.le_refl _, rfl, by intro j; omega, Or.inl rfl⟩
  | succ n ih =>
    intro i
    unfold NodeContext.search
    by_cases h : (c.lookup (candidate pre i)).isNone
    · rw [if_pos h]
      exact ⟨i, Nat.le_refl _, by omega, rfl, by intro j; omega, Or.inr (by simpa using h)⟩
    · rw [if_neg h]
      obtain ⟨k, h1, h2, h3, h4, h5⟩ := ih (i + 1)
      refine ⟨k, by omega, by omega, h3, ?_, ?_⟩
      · intro j hj1 hj2
        by_cases e : j = i
        · subst e
          cases hl : c.lookup (candidate pre j) with
          | none => rw [hl] at h; simp at h
          | some v => rfl
        · exact h4 j (by omega) hj2
      · rcases h5 with h5 | h5
        · left; omega
        · right; exact h5

theorem search_fresh {c : NodeContext} (h : c.Good) (pre : String) :
    c.lookup (c.search pre c.names.length 0 pre) = none ∧
    ∃ k, c.search pre c.names.length 0 pre = candidate pre k := by
  obtain ⟨k, h1, h2, h3, h4, h5⟩ := search_spec c pre c.names.length 0
  have e : candidate pre 0 = pre := rfl
  rw [e] at h3
  refine ⟨?_, k, h3⟩
  rw [h3]
  rcases h5 with h5 | h5
  · -- all candidates before the last are names: pigeonhole
    rw [h.lookup_none]
    intro hk
    have hsub : ((List.range (k + 1)).map (candidate pre)) ⊆ c.names := by
      intro n hn
      simp only [List.mem_map, List.mem_range] at hn
      obtain ⟨j, hj, rfl⟩ := hn
      by_cases ej : j = k
      · rw [ej]; exact hk
      · have := h4 j (by omega) (by omega)
        by_contra hc
        rw [(h.lookup_none _).mpr hc] at this; simp at this
    have hnd : ((List.range (k + 1)).map (candidate pre)).Nodup :=
      (List.nodup_range).map (candidate_inj pre)
    have := (List.subperm_of_subset hnd hsub).length_le
    simp at this
    omega
  · exact h5

/-- C36: `insert_unique` returns a symbol that did not exist, with a name that no symbol had; the name
is the prefix if it was unused and otherwise the prefix followed by `#` and a number; existing symbols
keep their names. -/
theorem insertUnique_fresh {c : NodeContext} (h : c.Reachable) (undef : Nat) (pre : String) :
    let v := (c.insertUnique pre).1
    let c' := (c.insertUnique pre).2
    v = c.names.length ∧ c'.names.length = c.names.length + 1 ∧
    c.lookup (c'.name undef v) = none ∧
    (∀ w, w < c.names.length → w ≠ v ∧ c'.name undef w = c.name undef w ∧ c'.name undef w ≠ c'.name undef v) ∧
    (c'.name undef v = pre ∨ ∃ i : Nat, c'.name undef v = pre ++ "#" ++ toString i) ∧
    (c.lookup pre = none → c'.name undef v = pre) := by
  have g := NodeContext.good_of_reachable h
  obtain ⟨hf, k, hk⟩ := search_fresh g pre
  have hc' : (c.insertUnique pre).2.Reachable := .insertUnique pre h
  have ic := insert_correct h undef (c.search pre c.names.length 0 pre)
  have e1 : (c.insertUnique pre).1 = c.names.length := by
    simp [NodeContext.insertUnique, NodeContext.insert, hf]
  have e2 : (c.insertUnique pre).2.names.length = c.names.length + 1 := by
    simp [NodeContext.insertUnique, NodeContext.insert, hf]
  have e3 : (c.insertUnique pre).2.name undef (c.insertUnique pre).1 = c.search pre c.names.length 0 pre := ic.2.1
  refine ⟨e1, e2, by rw [e3]; exact hf, ?_, ?_, ?_⟩
  · intro w hw
    refine ⟨by omega, (insert_preserves undef _ w hw).2, ?_⟩
    intro he
    have := name_injective hc' undef w (c.insertUnique pre).1 (by omega) (by omega) he
    omega
  · rw [e3, hk]
    cases k with
    | zero => left; rfl
    | succ k => right; exact ⟨k, rfl⟩
  · intro hp
    rw [e3]
    cases hl : c.names.length with
    | zero => rfl
    | succ n => simp [NodeContext.search, hp]

/-- Example: three symbols with the same prefix. -/
example :
    let c0 : NodeContext := ⟨[], []⟩
    let c1 := (c0.insertUnique "x").2
    let c2 := (c1.insertUnique "x").2
    let c3 := (c2.insertUnique "x").2
    c3.names = ["x", "x#0", "x#1"] ∧ c3.lookup "x#1" = some 2 := by
  decide +kernel

end Slinky.SM
