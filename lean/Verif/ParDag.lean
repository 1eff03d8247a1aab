import Verif.ParTasks
import Mathlib.Data.List.Nodup
import Mathlib.Data.List.Perm.Basic
import Mathlib.Data.List.Basic

/-!
# The graph of `parallelize_tasks` keeps the order of stages that conflict

`schedule_tree`: the statement that `schedule` makes is a tree of the stages, in which a stage that has to wait for another one comes after it,
and stages at the same time do not conflict.
-/

namespace Slinky
namespace PT

/-- A statement that is made from stages. -/
inductive Tree
  | nil
  | leaf (i : Nat)
  | seq (a b : Tree)
  | par (a b : Tree)

/-- The stages in order. -/
def Tree.lin : Tree → List Nat
  | .nil => []
  | .leaf i => [i]
  | .seq a b => a.lin ++ b.lin
  | .par a b => a.lin ++ b.lin

/-- Stages at the same time do not conflict. -/
def Tree.Free (D : Nat → Nat → Prop) : Tree → Prop
  | .nil => True
  | .leaf _ => True
  | .seq a b => a.Free D ∧ b.Free D
  | .par a b => a.Free D ∧ b.Free D ∧ ∀ i ∈ a.lin, ∀ j ∈ b.lin, ¬ D i j

/-- Trees in a sequence. -/
def seqT : List Tree → Tree
  | [] => .nil
  | t :: ts => .seq t (seqT ts)

theorem seqT_lin (ts : List Tree) : (seqT ts).lin = ts.flatMap Tree.lin := by
  induction ts with
  | nil => rfl
  | cons t ts ih => simp [seqT, Tree.lin, ih]

theorem seqT_free (D : Nat → Nat → Prop) (ts : List Tree) (h : ∀ t ∈ ts, t.Free D) : (seqT ts).Free D := by
  induction ts with
  | nil => trivial
  | cons t ts ih => exact ⟨h t (by simp), ih fun t ht => h t (by simp [ht])⟩

/-- What the theorem needs to know about the way statements are put together. -/
structure Builds (Den : Stmt → Tree → Prop) : Prop where
  nil : Den .undef .nil
  blk : ∀ ss ts, List.Forall₂ Den ss ts → (seqT ts).lin.Nodup → Den (blockMake ss) (seqT ts)
  two : ∀ s t a b, Den s a → Den t b → (a.lin ++ b.lin).Nodup → Den (blockMake2 s t) (.seq a b)
  par : ∀ s t a b, Den s a → Den t b → (a.lin ++ b.lin).Nodup → Den (.async none s t) (.par a b)

/-- Stages that are left. -/
def Dag.Live (d : Dag) (n i : Nat) : Prop := i < n ∧ i ∉ d.done

/-- The order. -/
abbrev Ord (D : Nat → Nat → Prop) (l : List Nat) : Prop := l.Pairwise fun a b => D a b → a < b

/-- A tree is good. -/
structure Good (D : Nat → Nat → Prop) (n : Nat) (t : Tree) : Prop where
  ord : Ord D t.lin
  free : t.Free D
  nodup : t.lin.Nodup
  bound : ∀ a ∈ t.lin, a < n

/-- The invariant. -/
structure Inv (Den : Stmt → Tree → Prop) (D : Nat → Nat → Prop) (n : Nat) (d : Dag) (tr : Nat → Tree) (r : Stmt) (T : Tree) : Prop where
  den : ∀ i, d.Live n i → Den (d.body i) (tr i)
  denT : Den r T
  edge : ∀ i j, d.Live n i → d.Live n j → (j ∈ d.cons i ↔ i ∈ d.prod j)
  lt : ∀ i j, d.Live n i → j ∈ d.cons i → i < j ∧ d.Live n j
  plt : ∀ i j, d.Live n j → i ∈ d.prod j → d.Live n i
  conf : ∀ i j, d.Live n i → d.Live n j → i < j → ∀ a ∈ (tr i).lin, ∀ b ∈ (tr j).lin, D a b → a < b ∧ j ∈ d.cons i
  good : ∀ i, d.Live n i → Good D n (tr i)
  goodT : Good D n T
  cross : ∀ i, d.Live n i → ∀ a ∈ (tr i).lin, ∀ b ∈ T.lin, D a b → a < b
  disj : ∀ i j, d.Live n i → d.Live n j → i ≠ j → ∀ a ∈ (tr i).lin, a ∉ (tr j).lin
  disjT : ∀ i, d.Live n i → ∀ a ∈ (tr i).lin, a ∉ T.lin
  cover : ∀ a, a < n → a ∈ T.lin ∨ ∃ i, d.Live n i ∧ a ∈ (tr i).lin
  dnodup : d.done.Nodup
  dlt : ∀ i ∈ d.done, i < n

theorem mem_rm {l : List Nat} {x y : Nat} : y ∈ rm l x ↔ y ∈ l ∧ y ≠ x := by simp [rm]

/-! ## Fusing -/

variable {Den : Stmt → Tree → Prop} {D : Nat → Nat → Prop} {n : Nat} {d : Dag} {tr : Nat → Tree} {r : Stmt} {T : Tree}

theorem fuse_inv (hB : Builds Den) (hD : ∀ a b, D a b → D b a) (I : Inv Den D n d tr r T) {p c : Nat} (hp : d.Live n p) (hc : d.cons p = [c])
    (hl : (d.prod c).length = 1) : Inv Den D n (d.fuse c p) (put tr c (.seq (tr p) (tr c))) r T := by
  have hcp : c ∈ d.cons p := by simp [hc]
  obtain ⟨hlt, hcl⟩ := I.lt p c hp hcp
  have hpc : d.prod c = [p] := by
    have h1 : p ∈ d.prod c := (I.edge p c hp hcl).mp hcp
    obtain ⟨x, hx⟩ := List.length_eq_one_iff.mp hl
    rw [hx] at h1 ⊢
    simp at h1
    rw [h1]
  have hne : c ≠ p := by omega
  have hlive : ∀ i, (d.fuse c p).Live n i ↔ d.Live n i ∧ i ≠ p := by
    intro i
    simp only [Dag.Live, Dag.fuse, List.mem_cons]
    tauto
  have hcnp : c ∉ d.prod p := by
    intro h
    have h1 := (I.edge c p hcl hp).mpr h
    have := (I.lt c p hcl h1).1
    omega
  have hprod : ∀ j i, i ∈ (d.fuse c p).prod j ↔ if j = c then i ∈ d.prod p ∧ i ≠ p else i ∈ d.prod j := by
    intro j i
    simp only [Dag.fuse, put, hc, List.mem_singleton, hpc]
    by_cases hj : j = c
    · simp only [hj, if_true, mem_rm, List.mem_union_iff, List.mem_insert_iff]
      have h1 : ¬ p = c := fun h => hne h.symm
      simp only [h1, if_false]
      constructor
      · rintro ⟨⟨h1 | h1, h2⟩, h3⟩
        · rcases h1 with h1 | h1
          · exact absurd h1 h2
          · simp at h1
        · exact ⟨h1, h3⟩
      · rintro ⟨h1, h3⟩
        exact ⟨⟨Or.inr h1, fun h => hcnp (h ▸ h1)⟩, h3⟩
    · simp [hj]
  have hcons : ∀ i j, d.Live n i → i ≠ p → (j ∈ (d.fuse c p).cons i ↔
      if i = c then j ∈ d.cons c else if i ∈ d.prod p then j = c ∨ (j ∈ d.cons i ∧ j ≠ p) else j ∈ d.cons i) := by
    intro i j hi hip
    have h1 : ¬ p = c := fun h => hne h.symm
    have hpp : p ∉ d.prod p := fun h => by
      have := (I.lt p p hp ((I.edge p p hp hp).mpr h)).1
      omega
    simp only [Dag.fuse, put, hc, List.mem_singleton, h1, if_false, hcnp, hpp]
    by_cases hj : i = c
    · simp only [hj, if_true, mem_rm, List.mem_union_iff, List.mem_singleton]
      constructor
      · rintro ⟨⟨h2 | h2, h3⟩, h4⟩
        · exact h2
        · exact absurd h2 h3
      · intro h2
        have := (I.lt c j hcl h2).1
        exact ⟨⟨Or.inl h2, by omega⟩, by omega⟩
    · simp only [hj, if_false]
      by_cases h2 : i ∈ d.prod p
      · simp only [h2, if_true, List.mem_insert_iff, mem_rm]
      · simp only [h2, if_false]
  have hnd : ((tr p).lin ++ (tr c).lin).Nodup := by
    rw [List.nodup_append]
    refine ⟨(I.good p hp).nodup, (I.good c hcl).nodup, fun a ha b hb hab => ?_⟩
    subst hab
    exact I.disj p c hp hcl (by omega) a ha hb
  have hpair : ∀ a ∈ (tr p).lin, ∀ b ∈ (tr c).lin, D a b → a < b := fun a ha b hb h => (I.conf p c hp hcl hlt a ha b hb h).1
  have htr : ∀ i a, a ∈ (put tr c (.seq (tr p) (tr c)) i).lin ↔ if i = c then a ∈ (tr p).lin ∨ a ∈ (tr c).lin else a ∈ (tr i).lin := by
    intro i a
    by_cases h : i = c <;> simp [put, h, Tree.lin]
  refine { den := ?_, denT := I.denT, edge := ?_, lt := ?_, plt := ?_, conf := ?_, good := ?_, goodT := I.goodT, cross := ?_, disj := ?_, disjT := ?_, cover := ?_, dnodup := ?_, dlt := ?_ }
  · intro i hi
    obtain ⟨h1, h2⟩ := (hlive i).mp hi
    by_cases h : i = c
    · subst h
      simp only [Dag.fuse, put, if_true]
      exact hB.two _ _ _ _ (I.den p hp) (I.den i hcl) hnd
    · simp only [Dag.fuse, put, h, if_false]
      exact I.den i h1
  · intro i j hi hj
    obtain ⟨h1, h2⟩ := (hlive i).mp hi
    obtain ⟨h3, h4⟩ := (hlive j).mp hj
    rw [hcons i j h1 h2, hprod j i]
    have hci : c ∈ d.cons i ↔ i = p := by rw [I.edge i c h1 hcl, hpc, List.mem_singleton]
    by_cases hic : i = c
    · subst hic
      simp only [if_true]
      by_cases hjc : j = i
      · subst hjc
        simp only [if_true]
        constructor
        · intro h
          have := (I.lt j j hcl h).1
          omega
        · rintro ⟨h, _⟩
          exact absurd h hcnp
      · simp only [hjc, if_false]
        exact I.edge i j h1 h3
    · simp only [hic, if_false]
      by_cases hjc : j = c
      · subst hjc
        simp only [if_true]
        by_cases h5 : i ∈ d.prod p
        · simp [h5, h2]
        · simp [h5, hci, h2]
      · simp only [hjc, if_false]
        by_cases h5 : i ∈ d.prod p
        · simp [h5, h4, I.edge i j h1 h3]
        · simp [h5, I.edge i j h1 h3]
  · intro i j hi hj
    obtain ⟨h1, h2⟩ := (hlive i).mp hi
    rw [hcons i j h1 h2] at hj
    have hkey : j ∈ d.cons i → j ≠ p → i < j ∧ (d.fuse c p).Live n j := fun h h' => ⟨(I.lt i j h1 h).1, (hlive j).mpr ⟨(I.lt i j h1 h).2, h'⟩⟩
    by_cases hic : i = c
    · subst hic
      simp only [if_true] at hj
      have := (I.lt i j h1 hj).1
      exact hkey hj (by omega)
    · simp only [hic, if_false] at hj
      by_cases h5 : i ∈ d.prod p
      · simp only [h5, if_true] at hj
        rcases hj with hj | ⟨hj, h6⟩
        · subst hj
          have := (I.lt i p h1 ((I.edge i p h1 hp).mpr h5)).1
          exact ⟨by omega, (hlive j).mpr ⟨hcl, hne⟩⟩
        · exact hkey hj h6
      · simp only [h5, if_false] at hj
        refine hkey hj ?_
        rintro rfl
        exact h5 ((I.edge i j h1 hp).mp hj)
  · intro i j hj hi
    obtain ⟨h1, h2⟩ := (hlive j).mp hj
    rw [hprod j i] at hi
    rw [hlive]
    by_cases hjc : j = c
    · simp only [hjc, if_true] at hi
      exact ⟨I.plt i p hp hi.1, hi.2⟩
    · simp only [hjc, if_false] at hi
      refine ⟨I.plt i j h1 hi, ?_⟩
      rintro rfl
      have := (I.edge i j hp h1).mpr hi
      rw [hc] at this
      simp at this
      exact hjc this
  · intro i j hi hj hij a ha b hb hab
    obtain ⟨h1, h2⟩ := (hlive i).mp hi
    obtain ⟨h3, h4⟩ := (hlive j).mp hj
    rw [htr] at ha hb
    rw [hcons i j h1 h2]
    by_cases hic : i = c
    · subst hic
      have hjc : j ≠ i := by omega
      simp only [if_true] at ha ⊢
      simp only [hjc, if_false] at hb
      rcases ha with ha | ha
      · have := (I.conf p j hp h3 (by omega) a ha b hb hab).2
        rw [hc] at this
        simp at this
        exact absurd this hjc
      · exact I.conf i j h1 h3 hij a ha b hb hab
    · simp only [hic, if_false] at ha ⊢
      by_cases hjc : j = c
      · subst hjc
        simp only [if_true] at hb
        rcases hb with hb | hb
        · by_cases hip : i < p
          · obtain ⟨h5, h6⟩ := I.conf i p h1 hp hip a ha b hb hab
            refine ⟨h5, ?_⟩
            simp [(I.edge i p h1 hp).mp h6]
          · have := (I.conf p i hp h1 (by omega) b hb a ha (hD _ _ hab)).2
            rw [hc] at this
            simp at this
            exact absurd this hic
        · have := (I.conf i j h1 h3 hij a ha b hb hab).2
          have := (I.edge i j h1 h3).mp this
          rw [hpc] at this
          simp at this
          exact absurd this h2
      · simp only [hjc, if_false] at hb
        obtain ⟨h5, h6⟩ := I.conf i j h1 h3 hij a ha b hb hab
        refine ⟨h5, ?_⟩
        by_cases h7 : i ∈ d.prod p
        · simp [h7, h6, h4]
        · simp [h7, h6]
  · intro i hi
    obtain ⟨h1, h2⟩ := (hlive i).mp hi
    by_cases h : i = c
    · subst h
      have g1 := I.good p hp
      have g2 := I.good i hcl
      simp only [put, if_true]
      refine ⟨?_, ⟨g1.free, g2.free⟩, hnd, ?_⟩
      · exact List.pairwise_append.mpr ⟨g1.ord, g2.ord, hpair⟩
      · intro a ha
        simp only [Tree.lin, List.mem_append] at ha
        rcases ha with ha | ha
        · exact g1.bound a ha
        · exact g2.bound a ha
    · simp only [put, h, if_false]
      exact I.good i h1
  · intro i hi a ha b hb
    obtain ⟨h1, h2⟩ := (hlive i).mp hi
    rw [htr] at ha
    by_cases h : i = c
    · simp only [h, if_true] at ha
      rcases ha with ha | ha
      · exact I.cross p hp a ha b hb
      · exact I.cross c hcl a ha b hb
    · simp only [h, if_false] at ha
      exact I.cross i h1 a ha b hb
  · intro i j hi hj hij a ha hb
    obtain ⟨h1, h2⟩ := (hlive i).mp hi
    obtain ⟨h3, h4⟩ := (hlive j).mp hj
    rw [htr] at ha hb
    by_cases hic : i = c
    · subst hic
      have hji : j ≠ i := fun h => hij h.symm
      simp only [if_true, hji, if_false] at ha hb
      rcases ha with ha | ha
      · exact I.disj p j hp h3 (fun h => h4 h.symm) a ha hb
      · exact I.disj i j h1 h3 hij a ha hb
    · simp only [hic, if_false] at ha
      by_cases hjc : j = c
      · subst hjc
        simp only [if_true] at hb
        rcases hb with hb | hb
        · exact I.disj i p h1 hp h2 a ha hb
        · exact I.disj i j h1 h3 hij a ha hb
      · simp only [hjc, if_false] at hb
        exact I.disj i j h1 h3 hij a ha hb
  · intro i hi a ha
    obtain ⟨h1, h2⟩ := (hlive i).mp hi
    rw [htr] at ha
    by_cases h : i = c
    · simp only [h, if_true] at ha
      rcases ha with ha | ha
      · exact I.disjT p hp a ha
      · exact I.disjT c hcl a ha
    · simp only [h, if_false] at ha
      exact I.disjT i h1 a ha
  · intro a ha
    rcases I.cover a ha with h | ⟨i, hi, h⟩
    · exact Or.inl h
    · right
      by_cases hip : i = p
      · refine ⟨c, (hlive c).mpr ⟨hcl, hne⟩, ?_⟩
        rw [htr]
        simp [← hip, h]
      · refine ⟨i, (hlive i).mpr ⟨hi, hip⟩, ?_⟩
        rw [htr]
        by_cases hic : i = c
        · subst hic; simp [h]
        · simp [hic, h]
  · exact List.nodup_cons.mpr ⟨hp.2, I.dnodup⟩
  · intro i hi
    simp only [Dag.fuse, List.mem_cons] at hi
    rcases hi with rfl | hi
    · exact hp.1
    · exact I.dlt i hi

theorem tryFuse_inv (hB : Builds Den) (hD : ∀ a b, D a b → D b a) (m : Nat) (hm : m ≤ n) (d : Dag) (I : Inv Den D n d tr r T) (hd : d.done = []) :
    ∃ tr', Inv Den D n ((List.range m).foldl Dag.tryFuse d) tr' r T ∧ ∀ i ∈ ((List.range m).foldl Dag.tryFuse d).done, i < m := by
  induction m with
  | zero => exact ⟨tr, I, by simp [hd]⟩
  | succ m ih =>
    obtain ⟨tr', I', h⟩ := ih (by omega)
    rw [List.range_succ, List.foldl_append]
    simp only [List.foldl_cons, List.foldl_nil]
    set e := (List.range m).foldl Dag.tryFuse d
    unfold Dag.tryFuse
    have hw : ∀ i ∈ e.done, i < m + 1 := fun i hi => by have := h i hi; omega
    split
    · rename_i c hc
      split
      · rename_i hl
        refine ⟨_, fuse_inv hB hD I' ⟨by omega, fun hm => by have := h m hm; omega⟩ hc hl, ?_⟩
        intro i hi
        simp only [Dag.fuse, List.mem_cons] at hi
        rcases hi with rfl | hi
        · omega
        · exact hw i hi
      · exact ⟨tr', I', hw⟩
    · exact ⟨tr', I', hw⟩

/-! ## The groups -/

theorem produces (d : Dag) (X : List Nat) : (X.foldl Dag.produce d).body = d.body ∧ (X.foldl Dag.produce d).prod = d.prod ∧
    (X.foldl Dag.produce d).done = X.reverse ++ d.done ∧
    ∀ j x, x ∈ (X.foldl Dag.produce d).cons j ↔ x ∈ d.cons j ∧ ¬ (x ∈ X ∧ j ∈ d.prod x) := by
  induction X generalizing d with
  | nil => simp
  | cons y X ih =>
    obtain ⟨h1, h2, h3, h4⟩ := ih (d.produce y)
    simp only [List.foldl_cons]
    refine ⟨h1, h2, by rw [h3]; simp [Dag.produce], fun j x => ?_⟩
    rw [h4]
    simp only [Dag.produce, List.mem_cons]
    by_cases h : j ∈ d.prod y
    · simp only [h, if_true, mem_rm]
      constructor
      · rintro ⟨⟨h5, h6⟩, h7⟩
        exact ⟨h5, by rintro ⟨h8 | h8, h9⟩; exact h6 h8; exact h7 ⟨h8, h9⟩⟩
      · rintro ⟨h5, h6⟩
        exact ⟨⟨h5, fun h8 => h6 ⟨Or.inl h8, h8 ▸ h⟩⟩, fun h8 => h6 ⟨Or.inr h8.1, h8.2⟩⟩
    · simp only [h, if_false]
      constructor
      · rintro ⟨h5, h7⟩
        exact ⟨h5, by rintro ⟨h8 | h8, h9⟩; exact h (h8 ▸ h9); exact h7 ⟨h8, h9⟩⟩
      · rintro ⟨h5, h6⟩
        exact ⟨h5, fun h8 => h6 ⟨Or.inr h8.1, h8.2⟩⟩

/-- What a scan of the first `m` stages finds. -/
structure Scanned (d : Dag) (m : Nat) (k : Scan) (Y : List Nat) : Prop where
  dag : k.dag = Y.foldl Dag.produce d
  sync : k.sync = Y.map d.body
  mem : ∀ i, (i ∈ Y ∨ i ∈ k.todo) ↔ (i < m ∧ i ∉ d.done ∧ d.cons i = [])
  nodup : (Y ++ k.todo).Nodup

theorem scan_spec (I : Inv Den D n d tr r T) (m : Nat) (hm : m ≤ n) :
    ∃ Y, Scanned d m ((List.range m).foldl Scan.step ⟨d, [], []⟩) Y := by
  induction m with
  | zero => exact ⟨[], rfl, rfl, by simp, by simp⟩
  | succ m ih =>
    obtain ⟨Y, h1, h2, h3, h4⟩ := ih (by omega)
    rw [List.range_succ, List.foldl_append]
    simp only [List.foldl_cons, List.foldl_nil]
    set k := (List.range m).foldl Scan.step ⟨d, [], []⟩ with hk
    obtain ⟨p1, p2, p3, p4⟩ := produces d Y
    rw [← h1] at p1 p2 p3 p4
    have hY : ∀ i ∈ Y, i < m := fun i hi => ((h3 i).mp (Or.inl hi)).1
    have hT : ∀ i ∈ k.todo, i < m := fun i hi => ((h3 i).mp (Or.inr hi)).1
    have hmd : m ∈ k.dag.done ↔ m ∈ d.done := by
      rw [p3]
      simp only [List.mem_append, List.mem_reverse]
      exact ⟨fun h => h.elim (fun h => by have := hY m h; omega) id, Or.inr⟩
    have hc : m ∉ d.done → ((k.dag.cons m).isEmpty ↔ d.cons m = []) := by
      intro hm0
      rw [List.isEmpty_iff, List.eq_nil_iff_forall_not_mem, List.eq_nil_iff_forall_not_mem]
      refine forall_congr' fun x => not_congr ?_
      rw [p4]
      refine ⟨fun h => h.1, fun h => ⟨h, fun ⟨h5, h6⟩ => ?_⟩⟩
      have := hY x h5
      have := (I.lt m x ⟨by omega, hm0⟩ h).1
      omega
    have hsplit : ∀ i, (i < m + 1 ∧ i ∉ d.done ∧ d.cons i = []) ↔ (i = m ∧ m ∉ d.done ∧ d.cons m = []) ∨ (i < m ∧ i ∉ d.done ∧ d.cons i = []) := by
      intro i
      constructor
      · rintro ⟨h5, h6⟩
        by_cases h : i = m
        · exact Or.inl ⟨h, h ▸ h6⟩
        · exact Or.inr ⟨by omega, h6⟩
      · rintro (⟨rfl, h⟩ | ⟨h5, h6⟩)
        · exact ⟨by omega, h⟩
        · exact ⟨by omega, h6⟩
    unfold Scan.step
    by_cases hd0 : m ∈ d.done
    · rw [if_pos (hmd.mpr hd0)]
      refine ⟨Y, h1, h2, fun i => ?_, h4⟩
      rw [hsplit, h3]
      simp [hd0]
    · rw [if_neg (fun h => hd0 (hmd.mp h))]
      by_cases he : d.cons m = []
      · rw [if_pos ((hc hd0).mpr he)]
        split
        · refine ⟨Y, h1, h2, fun i => ?_, ?_⟩
          · rw [hsplit, ← h3]
            simp only [List.mem_cons]
            constructor
            · rintro (h | h | h)
              · exact Or.inr (Or.inl h)
              · exact Or.inl ⟨h, hd0, he⟩
              · exact Or.inr (Or.inr h)
            · rintro (⟨h, _⟩ | h | h)
              · exact Or.inr (Or.inl h)
              · exact Or.inl h
              · exact Or.inr (Or.inr h)
          · simp only
            rw [List.nodup_append] at h4 ⊢
            refine ⟨h4.1, List.nodup_cons.mpr ⟨fun h => by have := hT m h; omega, h4.2.1⟩, fun a ha b hb hab => ?_⟩
            simp only [List.mem_cons] at hb
            rcases hb with rfl | hb
            · have := hY a ha; omega
            · exact h4.2.2 a ha b hb hab
        · refine ⟨Y ++ [m], ?_, ?_, fun i => ?_, ?_⟩
          · simp only [List.foldl_append, List.foldl_cons, List.foldl_nil, ← h1]
          · simp only [List.map_append, List.map_cons, List.map_nil, ← h2, p1]
          · rw [hsplit, ← h3]
            simp only [List.mem_append, List.mem_singleton]
            constructor
            · rintro ((h | h) | h)
              · exact Or.inr (Or.inl h)
              · exact Or.inl ⟨h, hd0, he⟩
              · exact Or.inr (Or.inr h)
            · rintro (⟨h, _⟩ | h | h)
              · exact Or.inl (Or.inr h)
              · exact Or.inl (Or.inl h)
              · exact Or.inr h
          · simp only
            rw [List.append_assoc]
            rw [List.nodup_append] at h4 ⊢
            refine ⟨h4.1, List.nodup_cons.mpr ⟨fun h => by have := hT m h; omega, h4.2.1⟩, fun a ha b hb hab => ?_⟩
            simp only [List.singleton_append, List.mem_cons] at hb
            rcases hb with rfl | hb
            · have := hY a ha; omega
            · exact h4.2.2 a ha b hb hab
      · rw [if_neg (fun h => he ((hc hd0).mp h))]
        refine ⟨Y, h1, h2, fun i => ?_, h4⟩
        rw [hsplit, h3]
        simp [he]

/-- The statement of a group. -/
def groupS (body : Nat → Stmt) (Y todo : List Nat) : Stmt :=
  match todo with
  | [] => blockMake (Y.map body)
  | i :: rest => rest.foldl (fun s j => Stmt.async none (body j) s) (blockMake (Y.map body ++ [body i]))

/-- The tree of a group. -/
def groupT (tr : Nat → Tree) (Y todo : List Nat) : Tree :=
  match todo with
  | [] => seqT (Y.map tr)
  | i :: rest => rest.foldl (fun t j => .par (tr j) t) (seqT ((Y ++ [i]).map tr))

theorem foldl_par_mem (tr : Nat → Tree) (rest : List Nat) (t : Tree) (a : Nat) :
    a ∈ (rest.foldl (fun t j => Tree.par (tr j) t) t).lin ↔ a ∈ t.lin ∨ ∃ j ∈ rest, a ∈ (tr j).lin := by
  induction rest generalizing t with
  | nil => simp
  | cons j rest ih =>
    simp only [List.foldl_cons, ih, Tree.lin, List.mem_append, List.mem_cons, exists_eq_or_imp]
    tauto

theorem seqT_mem (tr : Nat → Tree) (Y : List Nat) (a : Nat) : a ∈ (seqT (Y.map tr)).lin ↔ ∃ j ∈ Y, a ∈ (tr j).lin := by
  rw [seqT_lin]
  simp

theorem group_mem (tr : Nat → Tree) (Y todo : List Nat) (a : Nat) :
    a ∈ (groupT tr Y todo).lin ↔ ∃ j, (j ∈ Y ∨ j ∈ todo) ∧ a ∈ (tr j).lin := by
  unfold groupT
  split
  · rw [seqT_mem]; simp
  · rw [foldl_par_mem, seqT_mem]
    simp only [List.mem_append, List.mem_cons, List.not_mem_nil, or_false]
    constructor
    · rintro (⟨j, h1 | h1, h2⟩ | ⟨j, h1, h2⟩)
      · exact ⟨j, Or.inl h1, h2⟩
      · exact ⟨j, Or.inr (Or.inl h1), h2⟩
      · exact ⟨j, Or.inr (Or.inr h1), h2⟩
    · rintro ⟨j, h1 | h1 | h1, h2⟩
      · exact Or.inl ⟨j, Or.inl h1, h2⟩
      · exact Or.inl ⟨j, Or.inr h1, h2⟩
      · exact Or.inr ⟨j, h1, h2⟩

/-- Stages of a group do not conflict and share nothing. -/
structure Apart (D : Nat → Nat → Prop) (n : Nat) (tr : Nat → Tree) (X : List Nat) : Prop where
  nodup : X.Nodup
  good : ∀ i ∈ X, Good D n (tr i)
  apart : ∀ i ∈ X, ∀ j ∈ X, i ≠ j → ∀ a ∈ (tr i).lin, ∀ b ∈ (tr j).lin, ¬ D a b ∧ a ≠ b

theorem good_seqT (tr : Nat → Tree) (X : List Nat) (h : Apart D n tr X) : Good D n (seqT (X.map tr)) := by
  induction X with
  | nil => exact ⟨by simp [seqT, Tree.lin], trivial, by simp [seqT, Tree.lin], by simp [seqT, Tree.lin]⟩
  | cons x X ih =>
    have hn := List.nodup_cons.mp h.nodup
    have g := ih ⟨hn.2, fun i hi => h.good i (by simp [hi]), fun i hi j hj => h.apart i (by simp [hi]) j (by simp [hj])⟩
    have gx := h.good x (by simp)
    have hap : ∀ a ∈ (tr x).lin, ∀ b ∈ (seqT (X.map tr)).lin, ¬ D a b ∧ a ≠ b := by
      intro a ha b hb
      obtain ⟨j, hj, hb⟩ := (seqT_mem tr X b).mp hb
      exact h.apart x (by simp) j (by simp [hj]) (fun h => hn.1 (h ▸ hj)) a ha b hb
    simp only [List.map_cons, seqT]
    refine ⟨List.pairwise_append.mpr ⟨gx.ord, g.ord, fun a ha b hb hab => absurd hab (hap a ha b hb).1⟩, ⟨gx.free, g.free⟩,
      List.nodup_append.mpr ⟨gx.nodup, g.nodup, fun a ha b hb => (hap a ha b hb).2⟩, ?_⟩
    intro a ha
    simp only [Tree.lin, List.mem_append] at ha
    exact ha.elim (gx.bound a) (g.bound a)

theorem good_par {s t : Tree} (hs : Good D n s) (ht : Good D n t) (h : ∀ a ∈ s.lin, ∀ b ∈ t.lin, ¬ D a b ∧ a ≠ b) : Good D n (.par s t) :=
  ⟨List.pairwise_append.mpr ⟨hs.ord, ht.ord, fun a ha b hb hab => absurd hab (h a ha b hb).1⟩, ⟨hs.free, ht.free, fun a ha b hb => (h a ha b hb).1⟩,
    List.nodup_append.mpr ⟨hs.nodup, ht.nodup, fun a ha b hb => (h a ha b hb).2⟩, fun a ha => by
      simp only [Tree.lin, List.mem_append] at ha
      exact ha.elim (hs.bound a) (ht.bound a)⟩

theorem good_foldl (tr : Nat → Tree) (rest : List Nat) (t : Tree) (body : Nat → Stmt) (s : Stmt) (hB : Builds Den) (ht : Good D n t) (hs : Den s t)
    (h : Apart D n tr rest) (hden : ∀ i ∈ rest, Den (body i) (tr i))
    (hap : ∀ i ∈ rest, ∀ a ∈ (tr i).lin, ∀ b ∈ t.lin, ¬ D a b ∧ a ≠ b) :
    Good D n (rest.foldl (fun t j => .par (tr j) t) t) ∧
      Den (rest.foldl (fun s j => Stmt.async none (body j) s) s) (rest.foldl (fun t j => .par (tr j) t) t) := by
  induction rest generalizing t s with
  | nil => exact ⟨ht, hs⟩
  | cons x rest ih =>
    have hn := List.nodup_cons.mp h.nodup
    have g := good_par (h.good x (by simp)) ht (hap x (by simp))
    refine ih (.par (tr x) t) _ g (hB.par _ _ _ _ (hden x (by simp)) hs g.nodup)
      ⟨hn.2, fun i hi => h.good i (by simp [hi]), fun i hi j hj => h.apart i (by simp [hi]) j (by simp [hj])⟩ (fun i hi => hden i (by simp [hi])) ?_
    intro i hi a ha b hb
    simp only [Tree.lin, List.mem_append] at hb
    rcases hb with hb | hb
    · exact h.apart i (by simp [hi]) x (by simp) (fun h => hn.1 (h ▸ hi)) a ha b hb
    · exact hap i (by simp [hi]) a ha b hb

theorem foldl_pair {α β : Type} (f : α → Nat → α) (g : β → Nat → β) (X : List Nat) (a : α) (b : β) :
    X.foldl (fun r j => (f r.1 j, g r.2 j)) (a, b) = (X.foldl f a, X.foldl g b) := by
  induction X generalizing a b with
  | nil => rfl
  | cons x X ih => exact ih _ _

/-- The group is good. -/
theorem group_good (hB : Builds Den) (body : Nat → Stmt) (Y todo : List Nat) (h : Apart D n tr (Y ++ todo))
    (hden : ∀ i ∈ Y ++ todo, Den (body i) (tr i)) :
    Good D n (groupT tr Y todo) ∧
      Den (groupS body Y todo) (groupT tr Y todo) := by
  have hF : ∀ X : List Nat, (∀ i ∈ X, Den (body i) (tr i)) → List.Forall₂ Den (X.map body) (X.map tr) := by
    intro X
    induction X with
    | nil => intro _; exact .nil
    | cons x X ih => intro h; exact .cons (h x (by simp)) (ih fun i hi => h i (by simp [hi]))
  have hsub : ∀ X : List Nat, X.Nodup → (∀ i ∈ X, i ∈ Y ++ todo) → Apart D n tr X := fun X hX hm =>
    ⟨hX, fun i hi => h.good i (hm i hi), fun i hi j hj => h.apart i (hm i hi) j (hm j hj)⟩
  unfold groupT groupS
  split
  · have hA := hsub Y (by have := h.nodup; rwa [List.append_nil] at this) (by simp)
    have g := good_seqT tr Y hA
    exact ⟨g, hB.blk _ _ (hF Y fun i hi => hden i (by simp [hi])) g.nodup⟩
  · rename_i i rest
    have hn := List.nodup_append.mp h.nodup
    have hn2 := List.nodup_cons.mp hn.2.1
    have hA := hsub (Y ++ [i]) (List.nodup_append.mpr ⟨hn.1, by simp, fun a ha b hb => hn.2.2 a ha b (by simp at hb; simp [hb])⟩) (by
      intro j hj
      simp only [List.mem_append, List.mem_singleton] at hj
      rcases hj with hj | hj <;> simp [hj])
    have g := good_seqT tr _ hA
    have hd := hB.blk _ _ (hF (Y ++ [i]) fun j hj => hden j (by
      simp only [List.mem_append, List.mem_singleton] at hj
      rcases hj with hj | hj <;> simp [hj])) g.nodup
    rw [List.map_append] at hd
    refine good_foldl tr rest _ body _ hB g hd (hsub rest hn2.2 fun j hj => by simp [hj]) (fun j hj => hden j (by simp [hj])) ?_
    intro j hj a ha b hb
    obtain ⟨l, hl, hb⟩ := (seqT_mem tr _ b).mp hb
    simp only [List.mem_append, List.mem_singleton] at hl
    refine h.apart j (by simp [hj]) l (by rcases hl with hl | hl <;> simp [hl]) ?_ a ha b hb
    rintro rfl
    rcases hl with hl | hl
    · exact hn.2.2 j hl j (by simp [hj]) rfl
    · exact hn2.1 (hl ▸ hj)

theorem level_none (I : Inv Den D n d tr r T) (h : d.level n = none) : ∀ i, ¬ d.Live n i := by
  obtain ⟨Y, h1, h2, h3, h4⟩ := scan_spec I n (le_refl n)
  have h0 : ∀ i, ¬ (i < n ∧ i ∉ d.done ∧ d.cons i = []) := by
    intro i hi
    rw [← h3] at hi
    unfold Dag.level at h
    simp only at h
    split at h
    · rename_i ht
      rw [ht] at hi
      simp only [List.not_mem_nil, or_false] at hi
      split at h
      · rename_i he
        rw [h2, List.isEmpty_iff, List.map_eq_nil_iff] at he
        rw [he] at hi
        simp at hi
      · simp at h
    · simp at h
  have : ∀ m i, d.Live n i → n - i ≤ m → False := by
    intro m
    induction m with
    | zero => intro i hi hm; have := hi.1; omega
    | succ m ih =>
      intro i hi hm
      rcases hc : d.cons i with _ | ⟨j, js⟩
      · exact h0 i ⟨hi.1, hi.2, hc⟩
      · obtain ⟨h5, h6⟩ := I.lt i j hi (by simp [hc])
        have := hi.1
        exact ih j h6 (by omega)
  intro i hi
  exact this _ i hi (le_refl _)

theorem level_inv (hB : Builds Den) (hD : ∀ a b, D a b → D b a) (I : Inv Den D n d tr r T) {d' : Dag} {t : Stmt} (h : d.level n = some (d', t)) :
    (∃ T', Inv Den D n d' tr (blockMake2 t r) T') ∧ d.done.length < d'.done.length := by
  obtain ⟨Y, h1, h2, h3, h4⟩ := scan_spec I n (le_refl n)
  unfold Dag.level at h
  set k := (List.range n).foldl Scan.step ⟨d, [], []⟩ with hk
  obtain ⟨p1, p2, p3, p4⟩ := produces d Y
  rw [← h1] at p1 p2 p3 p4
  -- the new graph and statement
  have hres : d' = (Y ++ k.todo).foldl Dag.produce d ∧ (Y ++ k.todo) ≠ [] ∧ t = groupS d.body Y k.todo := by
    unfold groupS
    rcases ht : k.todo with _ | ⟨i, rest⟩
    · simp only [ht] at h ⊢
      split at h
      · simp at h
      · rename_i he
        simp only [Option.some.injEq, Prod.mk.injEq] at h
        refine ⟨by rw [← h.1, h1, List.append_nil], ?_, by rw [← h.2, h2]⟩
        rw [h2, List.isEmpty_iff, List.map_eq_nil_iff] at he
        simpa using he
    · simp only [ht] at h ⊢
      simp only [Option.some.injEq] at h
      rw [foldl_pair Dag.produce (fun s j => Stmt.async none (k.dag.body j) s)] at h
      simp only [Prod.mk.injEq] at h
      refine ⟨?_, by simp, ?_⟩
      · rw [← h.1, List.foldl_append, List.foldl_cons, h1]
      · rw [← h.2, h2, p1]
  obtain ⟨hd', hne, ht⟩ := hres
  have hX : ∀ i, i ∈ Y ++ k.todo ↔ d.Live n i ∧ d.cons i = [] := by
    intro i
    rw [List.mem_append, h3]
    exact ⟨fun h => ⟨⟨h.1, h.2.1⟩, h.2.2⟩, fun h => ⟨h.1.1, h.1.2, h.2⟩⟩
  obtain ⟨q1, q2, q3, q4⟩ := produces d (Y ++ k.todo)
  rw [← hd'] at q1 q2 q3 q4
  have hap : Apart D n tr (Y ++ k.todo) := by
    refine ⟨h4, fun i hi => I.good i ((hX i).mp hi).1, fun i hi j hj hij a ha b hb => ⟨fun hab => ?_, ?_⟩⟩
    · obtain ⟨l1, c1⟩ := (hX i).mp hi
      obtain ⟨l2, c2⟩ := (hX j).mp hj
      rcases Nat.lt_or_gt_of_ne hij with hlt | hlt
      · have := (I.conf i j l1 l2 hlt a ha b hb hab).2
        rw [c1] at this
        simp at this
      · have := (I.conf j i l2 l1 hlt b hb a ha (hD _ _ hab)).2
        rw [c2] at this
        simp at this
    · rintro rfl
      exact I.disj i j ((hX i).mp hi).1 ((hX j).mp hj).1 hij a ha hb
  obtain ⟨g, hden⟩ := group_good hB d.body Y k.todo hap fun i hi => I.den i ((hX i).mp hi).1
  rw [← ht] at hden
  have hlive : ∀ i, d'.Live n i ↔ d.Live n i ∧ i ∉ Y ++ k.todo := by
    intro i
    simp only [Dag.Live, q3, List.mem_append, List.mem_reverse]
    tauto
  have hmem : ∀ a, a ∈ (groupT tr Y k.todo).lin ↔ ∃ j ∈ Y ++ k.todo, a ∈ (tr j).lin := by
    intro a
    rw [group_mem]
    simp only [List.mem_append]
  have hnd : ((groupT tr Y k.todo).lin ++ T.lin).Nodup := by
    rw [List.nodup_append]
    refine ⟨g.nodup, I.goodT.nodup, fun a ha b hb hab => ?_⟩
    subst hab
    obtain ⟨j, hj, ha⟩ := (hmem a).mp ha
    exact I.disjT j ((hX j).mp hj).1 a ha hb
  have hcons : ∀ i x, d'.Live n i → (x ∈ d'.cons i ↔ x ∈ d.cons i ∧ x ∉ Y ++ k.todo) := by
    intro i x hi
    obtain ⟨l1, l2⟩ := (hlive i).mp hi
    rw [q4]
    constructor
    · rintro ⟨h5, h6⟩
      refine ⟨h5, fun h7 => h6 ⟨h7, ?_⟩⟩
      exact (I.edge i x l1 ((hX x).mp h7).1).mp h5
    · rintro ⟨h5, h6⟩
      exact ⟨h5, fun h7 => h6 h7.1⟩
  refine ⟨⟨.seq (groupT tr Y k.todo) T, ?_⟩, ?_⟩
  · refine { den := ?_, denT := ?_, edge := ?_, lt := ?_, plt := ?_, conf := ?_, good := ?_, goodT := ?_, cross := ?_, disj := ?_, disjT := ?_, cover := ?_, dnodup := ?_, dlt := ?_ }
    · intro i hi
      rw [q1]
      exact I.den i ((hlive i).mp hi).1
    · exact hB.two _ _ _ _ hden I.denT hnd
    · intro i j hi hj
      rw [hcons i j hi, q2, I.edge i j ((hlive i).mp hi).1 ((hlive j).mp hj).1]
      exact ⟨fun h => h.1, fun h => ⟨h, ((hlive j).mp hj).2⟩⟩
    · intro i j hi hj
      rw [hcons i j hi] at hj
      obtain ⟨h5, h6⟩ := I.lt i j ((hlive i).mp hi).1 hj.1
      exact ⟨h5, (hlive j).mpr ⟨h6, hj.2⟩⟩
    · intro i j hj hi
      rw [q2] at hi
      obtain ⟨l1, l2⟩ := (hlive j).mp hj
      have hl := I.plt i j l1 hi
      refine (hlive i).mpr ⟨hl, fun h5 => ?_⟩
      have h6 := (I.edge i j hl l1).mpr hi
      rw [((hX i).mp h5).2] at h6
      simp at h6
    · intro i j hi hj hij a ha b hb hab
      obtain ⟨h5, h6⟩ := I.conf i j ((hlive i).mp hi).1 ((hlive j).mp hj).1 hij a ha b hb hab
      exact ⟨h5, (hcons i j hi).mpr ⟨h6, ((hlive j).mp hj).2⟩⟩
    · intro i hi
      exact I.good i ((hlive i).mp hi).1
    · refine ⟨List.pairwise_append.mpr ⟨g.ord, I.goodT.ord, fun a ha b hb hab => ?_⟩, ⟨g.free, I.goodT.free⟩, hnd, ?_⟩
      · obtain ⟨j, hj, ha⟩ := (hmem a).mp ha
        exact I.cross j ((hX j).mp hj).1 a ha b hb hab
      · intro a ha
        simp only [Tree.lin, List.mem_append] at ha
        exact ha.elim (g.bound a) (I.goodT.bound a)
    · intro i hi a ha b hb hab
      obtain ⟨l1, l2⟩ := (hlive i).mp hi
      simp only [Tree.lin, List.mem_append] at hb
      rcases hb with hb | hb
      · obtain ⟨j, hj, hb⟩ := (hmem b).mp hb
        obtain ⟨l3, c3⟩ := (hX j).mp hj
        have hij : i ≠ j := fun h => l2 (h ▸ hj)
        rcases Nat.lt_or_gt_of_ne hij with hlt | hlt
        · exact (I.conf i j l1 l3 hlt a ha b hb hab).1
        · have := (I.conf j i l3 l1 hlt b hb a ha (hD _ _ hab)).2
          rw [c3] at this
          simp at this
      · exact I.cross i l1 a ha b hb hab
    · intro i j hi hj
      exact I.disj i j ((hlive i).mp hi).1 ((hlive j).mp hj).1
    · intro i hi a ha hb
      obtain ⟨l1, l2⟩ := (hlive i).mp hi
      simp only [Tree.lin, List.mem_append] at hb
      rcases hb with hb | hb
      · obtain ⟨j, hj, hb⟩ := (hmem a).mp hb
        exact I.disj i j l1 ((hX j).mp hj).1 (fun h => l2 (h ▸ hj)) a ha hb
      · exact I.disjT i l1 a ha hb
    · intro a ha
      simp only [Tree.lin, List.mem_append]
      rcases I.cover a ha with h5 | ⟨i, h5, h6⟩
      · exact Or.inl (Or.inr h5)
      · by_cases h7 : i ∈ Y ++ k.todo
        · exact Or.inl (Or.inl ((hmem a).mpr ⟨i, h7, h6⟩))
        · exact Or.inr ⟨i, (hlive i).mpr ⟨h5, h7⟩, h6⟩
    · rw [q3, List.nodup_append]
      refine ⟨List.nodup_reverse.mpr h4, I.dnodup, fun a ha b hb hab => ?_⟩
      subst hab
      exact ((hX a).mp (List.mem_reverse.mp ha)).1.2 hb
    · intro i hi
      rw [q3, List.mem_append, List.mem_reverse] at hi
      rcases hi with hi | hi
      · exact ((hX i).mp hi).1.1
      · exact I.dlt i hi
  · rw [q3, List.length_append, List.length_reverse]
    have := List.length_pos_of_ne_nil hne
    omega

theorem build_inv (hB : Builds Den) (hD : ∀ a b, D a b → D b a) (m : Nat) (d : Dag) (r : Stmt) (T : Tree) (I : Inv Den D n d tr r T)
    (hm : n < m + d.done.length) :
    ∃ T', Inv Den D n (Dag.build n m d r).1 tr (Dag.build n m d r).2 T' ∧ ∀ i, ¬ (Dag.build n m d r).1.Live n i := by
  induction m generalizing d r T with
  | zero =>
    exfalso
    have h1 : d.done.length ≤ (List.range n).length := by
      refine List.Subperm.length_le (List.subperm_of_subset I.dnodup ?_)
      intro i hi
      rw [List.mem_range]
      exact I.dlt i hi
    simp at h1
    omega
  | succ m ih =>
    unfold Dag.build
    split
    · rename_i h
      exact ⟨T, I, level_none I h⟩
    · rename_i d' t h
      obtain ⟨⟨T', I'⟩, hl⟩ := level_inv hB hD I h
      exact ih d' _ T' I' (by omega)

/-- The stages conflict. -/
def Conf (L : List Stage) (i j : Nat) : Prop :=
  ∃ h1 : i < L.length, ∃ h2 : j < L.length, conflict (L[i]) (L[j]) = true ∨ conflict (L[j]) (L[i]) = true

theorem conflict_comm (a b : Stage) (h : conflict a b = true) : conflict b a = true := by
  simp only [conflict, Bool.or_eq_true, List.any_eq_true, List.contains_iff_mem] at h ⊢
  rcases h with (⟨x, h1, h2⟩ | ⟨x, h1, h2⟩) | ⟨x, h1, h2⟩
  · exact Or.inr ⟨x, h2, h1⟩
  · exact Or.inl (Or.inr ⟨x, h2, h1⟩)
  · exact Or.inl (Or.inl ⟨x, h2, h1⟩)

/-- The statement for a block is a tree of its stages: every stage is there once, conflicting stages are in the original order, and stages that run
at the same time do not conflict. -/
theorem schedule_tree (hB : Builds Den) (L : List Stage) (hden : ∀ i (h : i < L.length), Den L[i].body (.leaf i)) :
    ∃ T, Den (schedule L) T ∧ T.lin.Perm (List.range L.length) ∧ Ord (Conf L) T.lin ∧ T.Free (Conf L) := by
  have hD : ∀ a b, Conf L a b → Conf L b a := fun a b ⟨h1, h2, h⟩ => ⟨h2, h1, h.symm⟩
  have I : Inv Den (Conf L) L.length (mkDag L) Tree.leaf .undef .nil := by
    have hget : ∀ i (h : i < L.length), L.getD i ⟨.undef, false, [], []⟩ = L[i] := fun i h => List.getD_eq_getElem _ _ h
    refine { den := ?_, denT := hB.nil, edge := ?_, lt := ?_, plt := ?_, conf := ?_, good := ?_, goodT := ?_, cross := ?_, disj := ?_, disjT := ?_, cover := ?_, dnodup := ?_, dlt := ?_ }
    · intro i hi
      simp only [mkDag, hget i hi.1]
      exact hden i hi.1
    · intro i j hi hj
      simp only [mkDag, List.mem_filter, List.mem_range]
      have := hi.1
      have := hj.1
      tauto
    · intro i j hi hj
      simp only [mkDag, List.mem_filter, List.mem_range, Bool.and_eq_true, decide_eq_true_eq] at hj
      exact ⟨hj.2.1, hj.1, by simp [mkDag]⟩
    · intro i j hj hi
      simp only [mkDag, List.mem_filter, List.mem_range, Bool.and_eq_true, decide_eq_true_eq] at hi
      exact ⟨hi.1, by simp [mkDag]⟩
    · intro i j hi hj hij a ha b hb hab
      simp only [Tree.lin, List.mem_singleton] at ha hb
      subst ha hb
      refine ⟨hij, ?_⟩
      obtain ⟨h1, h2, h3⟩ := hab
      simp only [mkDag, List.mem_filter, List.mem_range, Bool.and_eq_true, decide_eq_true_eq, hget a h1, hget b h2]
      exact ⟨h2, hij, h3.elim id (conflict_comm _ _)⟩
    · intro i hi
      exact ⟨by simp [Tree.lin, Ord], trivial, by simp [Tree.lin], by simp only [Tree.lin, List.mem_singleton]; rintro a rfl; exact hi.1⟩
    · exact ⟨by simp [Tree.lin, Ord], trivial, by simp [Tree.lin], by simp [Tree.lin]⟩
    · intro i hi a ha b hb
      simp [Tree.lin] at hb
    · intro i j hi hj hij a ha hb
      simp only [Tree.lin, List.mem_singleton] at ha hb
      omega
    · intro i hi a ha
      simp [Tree.lin]
    · intro a ha
      exact Or.inr ⟨a, ⟨ha, by simp [mkDag]⟩, by simp [Tree.lin]⟩
    · simp [mkDag]
    · simp [mkDag]
  obtain ⟨tr', I', -⟩ := tryFuse_inv hB hD L.length (le_refl _) _ I (by simp [mkDag])
  obtain ⟨T, I'', hl⟩ := build_inv hB hD (L.length + 1) _ _ _ I' (by omega)
  refine ⟨T, I''.denT, ?_, I''.goodT.ord, I''.goodT.free⟩
  rw [List.perm_ext_iff_of_nodup I''.goodT.nodup List.nodup_range]
  intro a
  rw [List.mem_range]
  refine ⟨I''.goodT.bound a, fun ha => ?_⟩
  rcases I''.cover a ha with h | ⟨i, h, _⟩
  · exact h
  · exact absurd h (hl i)

end PT
end Slinky
