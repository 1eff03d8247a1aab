import Verif.Layout

/-! # C49: the placement of allocations -/

namespace Slinky

namespace APipe

open SPipe (around lastId callsL)

/-! ### Specification -/

mutual
/-- The statement without allocations and constants. -/
def ANest.strip : ANest → List SPipe.Nest
  | .call f => [.call f]
  | .loop l body => [.loop l (stripL body)]
  | .decl _ _ body => stripL body
/-- The statements without allocations and constants. -/
def stripL : List ANest → List SPipe.Nest
  | [] => []
  | m :: ms => m.strip ++ stripL ms
end

/-- The calls in statements, in the order of the text. -/
def callsA (ms : List ANest) : List Nat := (callsL [] (stripL ms)).map Prod.snd

/-- An allocation (or a constant, `k`) of `b` in the loops `q`, and the calls in its scope. -/
structure Decl where
  q : List (Nat × Nat)
  k : Bool
  b : Nat
  cs : List Nat

mutual
/-- The declarations of a statement that is in the loops `q`. -/
def ANest.decls (q : List (Nat × Nat)) : ANest → List Decl
  | .call _ => []
  | .loop l body => declsL (q ++ [l]) body
  | .decl k b body => ⟨q, k, b, callsA body⟩ :: declsL q body
/-- The declarations of statements that are in the loops `q`. -/
def declsL (q : List (Nat × Nat)) : List ANest → List Decl
  | [] => []
  | m :: ms => m.decls q ++ declsL q ms
end

/-- The buffers that are allocated. -/
def aKeys (ds : List Decl) : List Nat := ds.filterMap fun x => if x.k then none else some x.b
/-- The constants that are declared. -/
def cKeys (ds : List Decl) : List Nat := ds.filterMap fun x => if x.k then some x.b else none

/-- All calls that use the buffer are in the scope. -/
def Fit (A : APipe) (order : List Nat) (x : Decl) : Prop := ∀ f ∈ order, x.b ∈ A.inputs f ∨ x.b ∈ A.outputs f → f ∈ x.cs

/-- What a pipeline is expected to be. -/
structure WF (A : APipe) (order : List Nat) : Prop where
  /-- A buffer is an output of one func, at one place. -/
  outs : (order.flatMap A.outputs).Nodup
  prod : ∀ f ∈ order, ∀ b ∈ A.outputs f, A.prodOf b = some f
  /-- A constant has no producer. -/
  const : ∀ b, A.const b = true → A.prodOf b = none
  /-- A func has an output. -/
  some : ∀ f ∈ order, A.outputs f ≠ []

/-! ### Statements -/

variable {A : APipe} {order T : List Nat}

theorem stripL_append : ∀ a b : List ANest, stripL (a ++ b) = stripL a ++ stripL b
  | [], b => by simp [stripL]
  | m :: a, b => by simp [stripL, stripL_append a b]

theorem stripL_flatMap : ∀ rs : List Rng, stripL (rs.flatMap Rng.body) = rs.flatMap fun r => stripL r.body
  | [] => by simp [stripL]
  | r :: rs => by simp [stripL_append, stripL_flatMap rs]

theorem declsL_append (q : List (Nat × Nat)) : ∀ a b : List ANest, declsL q (a ++ b) = declsL q a ++ declsL q b
  | [], b => by simp [declsL]
  | m :: a, b => by simp [declsL, declsL_append q a b]

theorem declsL_flatMap (q : List (Nat × Nat)) : ∀ rs : List Rng, declsL q (rs.flatMap Rng.body) = rs.flatMap fun r => declsL q r.body
  | [] => by simp [declsL]
  | r :: rs => by simp [declsL_append, declsL_flatMap q rs]

theorem callsA_append (a b : List ANest) : callsA (a ++ b) = callsA a ++ callsA b := by
  simp [callsA, stripL_append, SPipe.callsL_append]

theorem callsA_decl (k : Bool) (b : Nat) (body : List ANest) : callsA [.decl k b body] = callsA body := by
  simp [callsA, stripL, ANest.strip]

theorem stripL_decl (k : Bool) (b : Nat) (body : List ANest) : stripL [.decl k b body] = stripL body := by
  simp [stripL, ANest.strip]

theorem declsL_decl (q : List (Nat × Nat)) (k : Bool) (b : Nat) (body : List ANest) : declsL q [.decl k b body] = ⟨q, k, b, callsA body⟩ :: declsL q body := by
  simp [declsL, ANest.decls]

mutual
theorem calls_snd : ∀ (m : SPipe.Nest) (q q' : List (Nat × Nat)), (m.calls q).map Prod.snd = (m.calls q').map Prod.snd
  | .call f, q, q' => by simp [SPipe.Nest.calls]
  | .loop l body, q, q' => by simpa [SPipe.Nest.calls] using callsL_snd body (q ++ [l]) (q' ++ [l])
theorem callsL_snd : ∀ (ms : List SPipe.Nest) (q q' : List (Nat × Nat)), (callsL q ms).map Prod.snd = (callsL q' ms).map Prod.snd
  | [], q, q' => by simp [callsL]
  | m :: ms, q, q' => by simp only [callsL, List.map_append, calls_snd m q q', callsL_snd ms q q']
end

theorem callsA_loop (l : Nat × Nat) (body : List ANest) : callsA [.loop l body] = callsA body := by
  simp only [callsA, stripL, ANest.strip, List.append_nil, callsL, SPipe.Nest.calls]
  exact callsL_snd _ _ _

theorem aKeys_append (a b : List Decl) : aKeys (a ++ b) = aKeys a ++ aKeys b := by simp [aKeys]
theorem cKeys_append (a b : List Decl) : cKeys (a ++ b) = cKeys a ++ cKeys b := by simp [cKeys]
theorem aKeys_perm {a b : List Decl} (h : a.Perm b) : (aKeys a).Perm (aKeys b) := h.filterMap _
theorem cKeys_perm {a b : List Decl} (h : a.Perm b) : (cKeys a).Perm (cKeys b) := h.filterMap _

theorem mem_aKeys {ds : List Decl} {b : Nat} : b ∈ aKeys ds ↔ ∃ x ∈ ds, x.k = false ∧ x.b = b := by
  simp only [aKeys, List.mem_filterMap]
  constructor
  · rintro ⟨x, hx, h⟩
    cases hk : x.k with
    | true => simp [hk] at h
    | false => simp [hk] at h; exact ⟨x, hx, hk, h⟩
  · rintro ⟨x, hx, hk, h⟩
    exact ⟨x, hx, by simp [hk, h]⟩

theorem mem_cKeys {ds : List Decl} {b : Nat} : b ∈ cKeys ds ↔ ∃ x ∈ ds, x.k = true ∧ x.b = b := by
  simp only [cKeys, List.mem_filterMap]
  constructor
  · rintro ⟨x, hx, h⟩
    cases hk : x.k with
    | false => simp [hk] at h
    | true => simp [hk] at h; exact ⟨x, hx, hk, h⟩
  · rintro ⟨x, hx, hk, h⟩
    exact ⟨x, hx, by simp [hk, h]⟩

theorem mem_ins {x y : Nat} {l : List Nat} : y ∈ ins x l ↔ y ∈ l ∨ y = x := by
  unfold ins
  split
  · next h => exact ⟨Or.inl, fun h' => h'.elim id (fun e => e ▸ h)⟩
  · simp

theorem nodup_ins {x : Nat} {l : List Nat} (h : l.Nodup) : (ins x l).Nodup := by
  unfold ins
  split
  · exact h
  · next hx =>
    rw [List.nodup_append]
    exact ⟨h, by simp, by simp only [List.mem_singleton, forall_eq]; rintro a ha rfl; exact hx ha⟩

theorem mem_insAll {y : Nat} : ∀ (xs l : List Nat), y ∈ xs.foldl (fun l x => ins x l) l ↔ y ∈ l ∨ y ∈ xs
  | [], l => by simp
  | x :: xs, l => by rw [List.foldl_cons, mem_insAll xs, mem_ins, List.mem_cons, or_assoc]

/-! ### Ranges -/

/-- The calls from `a` to before `e`. -/
def slice (T : List Nat) (a e : Nat) : List Nat := (T.take e).drop a

theorem slice_append {a m e : Nat} (h1 : a ≤ m) (h2 : m ≤ e) (h3 : e ≤ T.length) : slice T a m ++ slice T m e = slice T a e := by
  unfold slice
  have : T.take e = T.take m ++ (T.take e).drop m := by
    conv_lhs => rw [← List.take_append_drop m (T.take e)]
    rw [List.take_take, Nat.min_eq_left h2]
  conv_rhs => rw [this, List.drop_append_of_le_length (by simp; omega)]

theorem mem_slice {a e f : Nat} : f ∈ slice T a e ↔ ∃ i, a ≤ i ∧ i < e ∧ T[i]? = some f := by
  unfold slice
  rw [List.mem_iff_getElem?]
  constructor
  · rintro ⟨i, hi⟩
    rw [List.getElem?_drop, List.getElem?_take] at hi
    split at hi
    · exact ⟨a + i, by omega, by omega, hi⟩
    · cases hi
  · rintro ⟨i, h1, h2, h3⟩
    refine ⟨i - a, ?_⟩
    rw [List.getElem?_drop, List.getElem?_take, if_pos (by omega)]
    rw [show a + (i - a) = i by omega]
    exact h3

/-- A statement with the calls from `a` to before `e`. -/
structure ROK (A : APipe) (order T : List Nat) (r : Rng) (a e : Nat) : Prop where
  start : r.start = a
  stop : r.stop = (e : Int) - 1
  lt : a < e
  le : e ≤ T.length
  calls : callsA r.body = slice T a e
  allocs : ∀ b ∈ r.allocs, ∀ f ∈ order, b ∈ A.outputs f → f ∈ slice T a e

/-- Statements that follow each other, with the calls from `a` to before `e`. -/
def Chain (A : APipe) (order T : List Nat) : Nat → Nat → List Rng → Prop
  | a, e, [] => a = e
  | a, e, r :: rs => ∃ m, ROK A order T r a m ∧ Chain A order T m e rs

theorem Chain.le : ∀ {rs : List Rng} {a e : Nat}, Chain A order T a e rs → a ≤ e
  | [], a, e, h => by simp only [Chain] at h; omega
  | r :: rs, a, e, h => by
    obtain ⟨m, h1, h2⟩ := h
    have := h1.lt
    have := Chain.le h2
    omega

theorem Chain.length : ∀ {rs : List Rng} {a e : Nat}, Chain A order T a e rs → rs ≠ [] → a < e ∧ e ≤ T.length
  | [], a, e, _, hne => absurd rfl hne
  | [r], a, e, h, _ => by
    obtain ⟨m, h1, h2⟩ := h
    simp only [Chain] at h2
    subst h2
    exact ⟨h1.lt, h1.le⟩
  | r :: r' :: rs, a, e, h, _ => by
    obtain ⟨m, h1, h2⟩ := h
    have := Chain.length h2 (by simp)
    have := h1.lt
    omega

theorem Chain.append : ∀ {rs rs' : List Rng} {a m e : Nat}, Chain A order T a m rs → Chain A order T m e rs' → Chain A order T a e (rs ++ rs')
  | [], rs', a, m, e, h, h' => by simp only [Chain] at h; subst h; exact h'
  | r :: rs, rs', a, m, e, ⟨k, h1, h2⟩, h' => ⟨k, h1, Chain.append h2 h'⟩

theorem Chain.split : ∀ {rs rs' : List Rng} {a e : Nat}, Chain A order T a e (rs ++ rs') → ∃ m, Chain A order T a m rs ∧ Chain A order T m e rs'
  | [], rs', a, e, h => ⟨a, rfl, h⟩
  | r :: rs, rs', a, e, ⟨k, h1, h2⟩ => by
    obtain ⟨m, h3, h4⟩ := Chain.split h2
    exact ⟨m, ⟨k, h1, h3⟩, h4⟩

theorem Chain.calls : ∀ {rs : List Rng} {a e : Nat}, Chain A order T a e rs → e ≤ T.length → callsA (rs.flatMap Rng.body) = slice T a e
  | [], a, e, h, _ => by
    simp only [Chain] at h
    subst h
    simp [callsA, stripL, callsL, slice]
  | r :: rs, a, e, ⟨m, h1, h2⟩, he => by
    have := h1.lt
    have := Chain.le h2
    rw [List.flatMap_cons, callsA_append, h1.calls, Chain.calls h2 he, slice_append (by omega) (by omega) he]

theorem Chain.stops : ∀ {rs : List Rng} {a e : Nat}, Chain A order T a e rs → ∀ r ∈ rs, (a : Int) ≤ r.start ∧ r.start ≤ r.stop ∧ r.stop < e
  | [], a, e, _, r, hr => by cases hr
  | r0 :: rs, a, e, ⟨m, h1, h2⟩, r, hr => by
    have h0 := h1.lt
    have hme := Chain.le h2
    rcases List.mem_cons.1 hr with rfl | hr
    · have e1 := h1.start
      have e2 := h1.stop
      omega
    · have := Chain.stops h2 r hr
      omega

theorem Chain.allocs : ∀ {rs : List Rng} {a e : Nat}, Chain A order T a e rs → e ≤ T.length → ∀ r ∈ rs, ∀ b ∈ r.allocs, ∀ f ∈ order, b ∈ A.outputs f → f ∈ slice T a e
  | [], a, e, _, _, r, hr => by cases hr
  | r0 :: rs, a, e, ⟨m, h1, h2⟩, he, r, hr => by
    intro b hb f hf hbf
    have h0 := h1.lt
    have hme := Chain.le h2
    rw [← slice_append (T := T) (a := a) (m := m) (e := e) (by omega) hme he, List.mem_append]
    rcases List.mem_cons.1 hr with rfl | hr
    · exact Or.inl (h1.allocs b hb f hf hbf)
    · exact Or.inr (Chain.allocs h2 he r hr b hb f hf hbf)

theorem combine_start : ∀ (rs : List Rng) (x : Int) {m e : Nat}, Chain A order T m e rs → x ≤ m → rs.foldl (fun m x => min m x.start) x = x
  | [], x, m, e, _, _ => rfl
  | r :: rs, x, m, e, ⟨k, h1, h2⟩, hx => by
    have := h1.start
    have := h1.lt
    rw [List.foldl_cons, show min x r.start = x by omega]
    exact combine_start rs x h2 (by omega)

theorem combine_stop : ∀ (rs : List Rng) (x : Int) {m e : Nat}, Chain A order T m e rs → x = (m : Int) - 1 → rs.foldl (fun m x => max m x.stop) x = (e : Int) - 1
  | [], x, m, e, h, hx => by simp only [Chain] at h; subst h; exact hx
  | r :: rs, x, m, e, ⟨k, h1, h2⟩, hx => by
    have := h1.stop
    have := h1.lt
    rw [List.foldl_cons, show max x r.stop = r.stop by omega]
    exact combine_stop rs _ h2 h1.stop

theorem mem_combine_allocs {y : Nat} : ∀ (rs : List Rng) (l : List Nat), y ∈ rs.foldl (fun l x => x.allocs.foldl (fun l y => ins y l) l) l ↔ y ∈ l ∨ ∃ r ∈ rs, y ∈ r.allocs
  | [], l => by simp
  | r :: rs, l => by
    rw [List.foldl_cons, mem_combine_allocs rs, mem_insAll]
    simp [or_assoc]

theorem combine_ROK {r : Rng} {rs : List Rng} {a e : Nat} (h : Chain A order T a e (r :: rs)) : ROK A order T (combine r rs) a e := by
  obtain ⟨hlt, hle⟩ := h.length (by simp)
  have hc := h.calls hle
  have ha := h.allocs hle
  obtain ⟨m, h1, h2⟩ := h
  refine ⟨?_, ?_, hlt, hle, hc, ?_⟩
  · show rs.foldl _ r.start = _
    have := h1.lt
    rw [combine_start rs r.start h2 (by rw [h1.start]; omega), h1.start]
  · exact combine_stop rs r.stop h2 h1.stop
  · intro b hb f hf hbf
    obtain ⟨x, hx, hbx⟩ : ∃ x ∈ r :: rs, b ∈ x.allocs := by
      have := (mem_combine_allocs (r :: rs) []).1 hb
      simpa using this
    exact ha x hx b hbx f hf hbf

/-! ### Allocations around statements -/

/-- The lifetime of `b` is in the calls from `a` to before `e`. -/
def IOK (A : APipe) (order T : List Nat) (info : Nat → Info) (a e : Nat) (b : Nat) : Prop :=
  ∃ i j : Nat, (info b).lstart = i ∧ (info b).lend = j ∧ a ≤ i ∧ i ≤ j ∧ j < e ∧ ∀ f ∈ order, b ∈ A.inputs f ∨ b ∈ A.outputs f → f ∈ slice T i (j + 1)

theorem slice_sub {a i j e f : Nat} (h : f ∈ slice T i j) (h1 : a ≤ i) (h2 : j ≤ e) : f ∈ slice T a e := by
  obtain ⟨k, hk1, hk2, hk3⟩ := mem_slice.1 h
  exact mem_slice.2 ⟨k, by omega, by omega, hk3⟩

theorem allocate_ROK {r : Rng} {a e b : Nat} (h : ROK A order T r a e) (hb : ∀ f ∈ order, b ∈ A.outputs f → f ∈ slice T a e) : ROK A order T (allocate b r) a e := by
  refine ⟨h.start, h.stop, h.lt, h.le, ?_, ?_⟩
  · show callsA [.decl false b r.body] = _
    rw [callsA_decl, h.calls]
  · intro x hx f hf hxf
    rcases mem_ins.1 hx with hx | rfl
    · exact h.allocs x hx f hf hxf
    · exact hb f hf hxf

theorem constant_ROK {r : Rng} {a e c : Nat} (h : ROK A order T r a e) : ROK A order T (constant c r) a e :=
  ⟨h.start, h.stop, h.lt, h.le, by show callsA [.decl true c r.body] = _; rw [callsA_decl, h.calls], h.allocs⟩

/-- The declarations in statements. -/
def D (q : List (Nat × Nat)) (rs : List Rng) : List Decl := rs.flatMap fun r => declsL q r.body

theorem D_append (q : List (Nat × Nat)) (a b : List Rng) : D q (a ++ b) = D q a ++ D q b := by simp [D]
theorem D_cons (q : List (Nat × Nat)) (r : Rng) (b : List Rng) : D q (r :: b) = declsL q r.body ++ D q b := by simp [D]

theorem declsL_combine (q : List (Nat × Nat)) (r : Rng) (rs : List Rng) : declsL q (combine r rs).body = D q (r :: rs) := declsL_flatMap q (r :: rs)

/-- The statements without declarations. -/
def strips (rs : List Rng) : List SPipe.Nest := rs.flatMap fun r => stripL r.body

theorem strips_append (a b : List Rng) : strips (a ++ b) = strips a ++ strips b := by simp [strips]
theorem strips_cons (r : Rng) (b : List Rng) : strips (r :: b) = stripL r.body ++ strips b := by simp [strips]

/-- What a step of the placement does: `rs'` has the same calls as `rs`, and the new declarations `new`. -/
structure Ext (A : APipe) (order T : List Nat) (q : List (Nat × Nat)) (a e : Nat) (rs rs' : List Rng) (as cs : List Nat) : Prop where
  chain : Chain A order T a e rs'
  strip : strips rs' = strips rs
  decls : ∃ new, (D q rs').Perm (new ++ D q rs) ∧ (aKeys new).Perm as ∧ (cKeys new).Perm cs ∧ ∀ x ∈ new, x.q = q ∧ Fit A order x ∧ ∀ f ∈ x.cs, f ∈ slice T a e

theorem Ext.refl {q : List (Nat × Nat)} {a e : Nat} {rs : List Rng} (h : Chain A order T a e rs) : Ext A order T q a e rs rs [] [] :=
  ⟨h, rfl, [], by simp, by simp [aKeys], by simp [cKeys], by simp⟩

theorem Ext.trans {q : List (Nat × Nat)} {a e : Nat} {r1 r2 r3 : List Rng} {as as' cs cs' : List Nat} (h : Ext A order T q a e r1 r2 as cs) (h' : Ext A order T q a e r2 r3 as' cs') :
    Ext A order T q a e r1 r3 (as' ++ as) (cs' ++ cs) := by
  obtain ⟨n1, p1, k1, c1, f1⟩ := h.decls
  obtain ⟨n2, p2, k2, c2, f2⟩ := h'.decls
  refine ⟨h'.chain, h'.strip.trans h.strip, n2 ++ n1, ?_, ?_, ?_, ?_⟩
  · rw [List.append_assoc]
    exact p2.trans (p1.append_left n2)
  · rw [aKeys_append]; exact k2.append k1
  · rw [cKeys_append]; exact c2.append c1
  · intro x hx
    rcases List.mem_append.1 hx with hx | hx
    · exact f2 x hx
    · exact f1 x hx

theorem Ext.perm {q : List (Nat × Nat)} {a e : Nat} {r1 r2 : List Rng} {as as' cs cs' : List Nat} (h : Ext A order T q a e r1 r2 as cs) (ha : as.Perm as') (hc : cs.Perm cs') :
    Ext A order T q a e r1 r2 as' cs' := by
  obtain ⟨n, p, k, c, f⟩ := h.decls
  exact ⟨h.chain, h.strip, n, p, k.trans ha, c.trans hc, f⟩

/-- Steps on two parts. -/
theorem Ext.append {q : List (Nat × Nat)} {a m e : Nat} {r1 r1' r2 r2' : List Rng} {as as' cs cs' : List Nat} (h : Ext A order T q a m r1 r1' as cs) (h' : Ext A order T q m e r2 r2' as' cs')
    (he : e ≤ T.length) : Ext A order T q a e (r1 ++ r2) (r1' ++ r2') (as ++ as') (cs ++ cs') := by
  obtain ⟨n1, p1, k1, c1, f1⟩ := h.decls
  obtain ⟨n2, p2, k2, c2, f2⟩ := h'.decls
  have l1 := h.chain.le
  have l2 := h'.chain.le
  refine ⟨h.chain.append h'.chain, by rw [strips_append, strips_append, h.strip, h'.strip], n1 ++ n2, ?_, ?_, ?_, ?_⟩
  · rw [D_append, D_append]
    refine (p1.append p2).trans ?_
    rw [List.append_assoc, List.append_assoc]
    refine List.Perm.append_left n1 ?_
    rw [← List.append_assoc, ← List.append_assoc]
    exact List.Perm.append_right _ List.perm_append_comm
  · rw [aKeys_append]; exact k1.append k2
  · rw [cKeys_append]; exact c1.append c2
  · intro x hx
    rcases List.mem_append.1 hx with hx | hx
    · obtain ⟨a1, a2, a3⟩ := f1 x hx
      exact ⟨a1, a2, fun f hf => slice_sub (a3 f hf) (Nat.le_refl _) l2⟩
    · obtain ⟨a1, a2, a3⟩ := f2 x hx
      exact ⟨a1, a2, fun f hf => slice_sub (a3 f hf) l1 (Nat.le_refl _)⟩

theorem Ext.allocate {q : List (Nat × Nat)} {a e : Nat} {r : Rng} {b : Nat} (h : ROK A order T r a e) (hb : ∀ f ∈ order, b ∈ A.inputs f ∨ b ∈ A.outputs f → f ∈ slice T a e) :
    Ext A order T q a e [r] [allocate b r] [b] [] := by
  refine ⟨⟨e, allocate_ROK h fun f hf hbf => hb f hf (Or.inr hbf), rfl⟩, ?_, [⟨q, false, b, callsA r.body⟩], ?_, by simp [aKeys], by simp [cKeys], ?_⟩
  · simp [strips, APipe.allocate, stripL_decl]
  · simp [D, APipe.allocate, declsL_decl]
  · intro x hx
    simp only [List.mem_singleton] at hx
    subst hx
    exact ⟨rfl, fun f hf hbf => by simp only [h.calls]; exact hb f hf hbf, fun f hf => by simpa only [h.calls] using hf⟩

theorem Ext.constant {q : List (Nat × Nat)} {a e : Nat} {r : Rng} {c : Nat} (h : ROK A order T r a e) (hc : ∀ f ∈ order, c ∈ A.inputs f ∨ c ∈ A.outputs f → f ∈ slice T a e) :
    Ext A order T q a e [r] [constant c r] [] [c] := by
  refine ⟨⟨e, constant_ROK h, rfl⟩, ?_, [⟨q, true, c, callsA r.body⟩], ?_, by simp [aKeys], by simp [cKeys], ?_⟩
  · simp [strips, APipe.constant, stripL_decl]
  · simp [D, APipe.constant, declsL_decl]
  · intro x hx
    simp only [List.mem_singleton] at hx
    subst hx
    exact ⟨rfl, fun f hf hbf => by simp only [h.calls]; exact hc f hf hbf, fun f hf => by simpa only [h.calls] using hf⟩

theorem Ext.combine {q : List (Nat × Nat)} {a e : Nat} {r : Rng} {rs : List Rng} (h : Chain A order T a e (r :: rs)) : Ext A order T q a e (r :: rs) [combine r rs] [] [] := by
  refine ⟨⟨e, combine_ROK h, rfl⟩, ?_, [], ?_, by simp [aKeys], by simp [cKeys], by simp⟩
  · simp only [strips, List.flatMap_cons, List.flatMap_nil, List.append_nil]
    exact stripL_flatMap (r :: rs)
  · rw [D_cons, declsL_combine]
    simp [D]

/-! ### One pass -/

/-- Statements before the lifetime are skipped, and then come those of the lifetime. -/
theorem chain_cut : ∀ {rs : List Rng} {a e i j : Nat}, Chain A order T a e rs → a ≤ i → i ≤ j → j < e → ∃ m m' x xs, rs.takeWhile (fun x => decide (x.stop < (i : Int))) ++
      rs.dropWhile (fun x => decide (x.stop < (i : Int))) = rs ∧ Chain A order T a m (rs.takeWhile fun x => decide (x.stop < (i : Int))) ∧ m ≤ i ∧ j < m' ∧
      (rs.dropWhile fun x => decide (x.stop < (i : Int))).takeWhile (fun x => decide (x.start ≤ (j : Int) ∧ (i : Int) ≤ x.stop)) = x :: xs ∧ Chain A order T m m' (x :: xs) ∧
      Chain A order T m' e ((rs.dropWhile fun x => decide (x.stop < (i : Int))).dropWhile fun x => decide (x.start ≤ (j : Int) ∧ (i : Int) ≤ x.stop))
  | [], a, e, i, j, h, h1, h2, h3 => by
    simp only [Chain] at h
    omega
  | r :: rs, a, e, i, j, ⟨k, hr, hrs⟩, h1, h2, h3 => by
    have hs := hr.start
    have ht := hr.stop
    have hlt := hr.lt
    by_cases hc : r.stop < (i : Int)
    · obtain ⟨m, m', x, xs, e0, c1, l1, l2, e1, c2, c3⟩ := chain_cut hrs (i := i) (j := j) (by omega) h2 h3
      refine ⟨m, m', x, xs, List.takeWhile_append_dropWhile, ?_, l1, l2, ?_, c2, ?_⟩
      · rw [List.takeWhile_cons_of_pos (by simpa using hc)]
        exact ⟨k, hr, c1⟩
      · rw [List.dropWhile_cons_of_pos (by simpa using hc)]; exact e1
      · rw [List.dropWhile_cons_of_pos (by simpa using hc)]; exact c3
    · have hneg : ¬ (decide (r.stop < (i : Int)) = true) := by simpa using hc
      -- the block is a first part of the statements
      have key : ∀ (l : List Rng) (m : Nat), Chain A order T m e l → (m : Int) ≤ j + 1 → i < m → ∃ m', Chain A order T m m' (l.takeWhile fun x => decide (x.start ≤ (j : Int) ∧ (i : Int) ≤ x.stop)) ∧ j < m' ∧
          Chain A order T m' e (l.dropWhile fun x => decide (x.start ≤ (j : Int) ∧ (i : Int) ≤ x.stop)) := by
        intro l
        induction l with
        | nil =>
          intro m hl hm him
          simp only [Chain] at hl
          exact ⟨m, rfl, by omega, by simpa [Chain] using hl⟩
        | cons y l ih =>
          intro m hl hm him
          obtain ⟨n, hy, hl'⟩ := hl
          have ys := hy.start
          have yt := hy.stop
          have yl := hy.lt
          by_cases hcy : y.start ≤ (j : Int)
          · have hd : decide (y.start ≤ (j : Int) ∧ (i : Int) ≤ y.stop) = true := by simp; omega
            rw [List.takeWhile_cons_of_pos (by exact hd), List.dropWhile_cons_of_pos (by exact hd)]
            by_cases hn : (n : Int) ≤ j + 1
            · obtain ⟨m', c1, l1, c2⟩ := ih n hl' hn (by omega)
              exact ⟨m', ⟨n, hy, c1⟩, l1, c2⟩
            · have hstop : ∀ l : List Rng, Chain A order T n e l → l.takeWhile (fun x => decide (x.start ≤ (j : Int) ∧ (i : Int) ≤ x.stop)) = [] ∧
                  l.dropWhile (fun x => decide (x.start ≤ (j : Int) ∧ (i : Int) ≤ x.stop)) = l := by
                intro l hl
                cases l with
                | nil => exact ⟨rfl, rfl⟩
                | cons z l =>
                  obtain ⟨w, hz, -⟩ := hl
                  have zs := hz.start
                  have hd : ¬ decide (z.start ≤ (j : Int) ∧ (i : Int) ≤ z.stop) = true := by simp; omega
                  rw [List.takeWhile_cons_of_neg (by exact hd), List.dropWhile_cons_of_neg (by exact hd)]
                  exact ⟨rfl, rfl⟩
              obtain ⟨e1, e2⟩ := hstop l hl'
              rw [e1, e2]
              exact ⟨n, ⟨n, hy, rfl⟩, by omega, hl'⟩
          · have hd : ¬ decide (y.start ≤ (j : Int) ∧ (i : Int) ≤ y.stop) = true := by simp; omega
            rw [List.takeWhile_cons_of_neg (by exact hd), List.dropWhile_cons_of_neg (by exact hd)]
            exact ⟨m, rfl, by omega, n, hy, hl'⟩
      have hd : decide (r.start ≤ (j : Int) ∧ (i : Int) ≤ r.stop) = true := by simp; omega
      by_cases hk : (k : Int) ≤ j + 1
      · obtain ⟨m', c1, l1, c2⟩ := key rs k hrs hk (by omega)
        refine ⟨a, m', r, rs.takeWhile fun x => decide (x.start ≤ (j : Int) ∧ (i : Int) ≤ x.stop), List.takeWhile_append_dropWhile, ?_, h1, l1, ?_, ⟨k, hr, c1⟩, ?_⟩
        · rw [List.takeWhile_cons_of_neg (by exact hneg)]; rfl
        · rw [List.dropWhile_cons_of_neg (by exact hneg), List.takeWhile_cons_of_pos (by exact hd)]
        · rw [List.dropWhile_cons_of_neg (by exact hneg), List.dropWhile_cons_of_pos (by exact hd)]; exact c2
      · have hstop : rs.takeWhile (fun x => decide (x.start ≤ (j : Int) ∧ (i : Int) ≤ x.stop)) = [] ∧
            rs.dropWhile (fun x => decide (x.start ≤ (j : Int) ∧ (i : Int) ≤ x.stop)) = rs := by
          cases rs with
          | nil => exact ⟨rfl, rfl⟩
          | cons z l =>
            obtain ⟨w, hz, -⟩ := hrs
            have zs := hz.start
            have hd : ¬ decide (z.start ≤ (j : Int) ∧ (i : Int) ≤ z.stop) = true := by simp; omega
            rw [List.takeWhile_cons_of_neg (by exact hd), List.dropWhile_cons_of_neg (by exact hd)]
            exact ⟨rfl, rfl⟩
        refine ⟨a, k, r, [], List.takeWhile_append_dropWhile, ?_, h1, by omega, ?_, ⟨k, hr, rfl⟩, ?_⟩
        · rw [List.takeWhile_cons_of_neg (by exact hneg)]; rfl
        · rw [List.dropWhile_cons_of_neg (by exact hneg), List.takeWhile_cons_of_pos (by exact hd), hstop.1]
        · rw [List.dropWhile_cons_of_neg (by exact hneg), List.dropWhile_cons_of_pos (by exact hd), hstop.2]; exact hrs

theorem chain_last : ∀ {rs : List Rng} {a e : Nat}, Chain A order T a e rs → rs ≠ [] → ∃ r ∈ rs, r.stop = (e : Int) - 1
  | [], _, _, _, h => absurd rfl h
  | [r], a, e, ⟨m, h1, h2⟩, _ => by
    simp only [Chain] at h2
    subst h2
    exact ⟨r, by simp, h1.stop⟩
  | r :: r' :: rs, a, e, ⟨m, _, h2⟩, _ => by
    obtain ⟨x, hx, hx'⟩ := chain_last h2 (by simp)
    exact ⟨x, List.mem_cons_of_mem _ hx, hx'⟩

theorem walk_spec {q : List (Nat × Nat)} {info : Nat → Info} : ∀ (n : Nat) (bs : List Nat) (rs : List Rng) (a a0 e : Nat), bs.length ≤ n → Chain A order T a e rs → e ≤ T.length →
    (∀ b ∈ bs, IOK A order T info a0 e b) → (∀ b, bs.head? = some b → (a : Int) ≤ (info b).lstart) →
    Ext A order T q a e rs (walk info n bs rs).1 (walk info n bs rs).2.2 [] ∧ bs.Perm ((walk info n bs rs).2.1 ++ (walk info n bs rs).2.2)
  | n, [], rs, a, a0, e, hn, hc, he, hI, hh => by
    cases n <;> exact ⟨Ext.refl hc, by simp [walk]⟩
  | n, b :: bs, [], a, a0, e, hn, hc, he, hI, hh => by
    exfalso
    simp only [Chain] at hc
    obtain ⟨i, j, h1, h2, h3, h4, h5, -⟩ := hI b (List.mem_cons_self ..)
    have := hh b rfl
    omega
  | 0, b :: bs, r :: rs, a, a0, e, hn, hc, he, hI, hh => by simp at hn
  | n + 1, b :: bs, r :: rs, a, a0, e, hn, hc, he, hI, hh => by
    obtain ⟨i, j, h1, h2, h3, h4, h5, h6⟩ := hI b (List.mem_cons_self ..)
    have ha := hh b rfl
    obtain ⟨m, m', x, xs, e0, c1, l1, l2, e1, c2, c3⟩ := chain_cut hc (i := i) (j := j) (by omega) h4 h5
    have hm'e := c3.le
    have hlen : (bs.dropWhile fun c => (x :: xs).any fun x => decide ((info c).lstart ≤ x.stop)).length ≤ n := by
      have := (List.dropWhile_suffix (l := bs) fun c => (x :: xs).any fun x => decide ((info c).lstart ≤ x.stop)).length_le
      simp only [List.length_cons] at hn
      omega
    obtain ⟨w1, w2⟩ := walk_spec (q := q) (info := info) n (bs.dropWhile fun c => (x :: xs).any fun x => decide ((info c).lstart ≤ x.stop))
      (((r :: rs).dropWhile fun x => decide (x.stop < (i : Int))).dropWhile fun x => decide (x.start ≤ (j : Int) ∧ (i : Int) ≤ x.stop)) m' a0 e hlen c3 he
      (fun c hc => hI c (List.mem_cons_of_mem _ ((List.dropWhile_suffix _).subset hc)))
      (fun c hc => by
        have := List.head?_dropWhile_not (fun c => (x :: xs).any fun x => decide ((info c).lstart ≤ x.stop)) bs
        rw [hc] at this
        simp only at this
        obtain ⟨y, hy, hy'⟩ := chain_last c2 (by simp)
        by_contra hcon
        have hany : ((x :: xs).any fun x => decide ((info c).lstart ≤ x.stop)) = true := by
          rw [List.any_eq_true]
          exact ⟨y, hy, by simp; omega⟩
        rw [hany] at this
        cases this)
    simp only [walk, h1, h2]
    rw [e1]
    simp only
    have hfit : ∀ f ∈ order, b ∈ A.inputs f ∨ b ∈ A.outputs f → f ∈ slice T m m' := fun f hf hbf => slice_sub (h6 f hf hbf) l1 (by omega)
    have hblk := ((Ext.combine (q := q) c2).trans (Ext.allocate (combine_ROK c2) hfit)).append w1 he
    have hall := (Ext.refl (q := q) c1).append hblk he
    refine ⟨?_, ?_⟩
    · have hsplit : (r :: rs).takeWhile (fun x => decide (x.stop < (i : Int))) ++ (x :: xs ++ ((r :: rs).dropWhile fun x => decide (x.stop < (i : Int))).dropWhile
          fun x => decide (x.start ≤ (j : Int) ∧ (i : Int) ≤ x.stop)) = r :: rs := by
        rw [← e1, List.takeWhile_append_dropWhile, e0]
      rw [hsplit] at hall
      simpa using hall
    · have hb : bs.Perm (bs.takeWhile (fun c => (x :: xs).any fun x => decide ((info c).lstart ≤ x.stop)) ++
          bs.dropWhile fun c => (x :: xs).any fun x => decide ((info c).lstart ≤ x.stop)) := by rw [List.takeWhile_append_dropWhile]
      have h7 : (b :: bs).Perm (b :: (bs.takeWhile (fun c => (x :: xs).any fun x => decide ((info c).lstart ≤ x.stop)) ++ _)) := (hb.trans (w2.append_left _)).cons b
      refine h7.trans ?_
      rw [← List.append_assoc]
      exact List.perm_middle.symm

end APipe

end Slinky
