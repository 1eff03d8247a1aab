import Verif.SubstStmt
import Verif.DependsStmt

/-!
# Moving statements out of loops

`visit(const loop*)` of the simplifier moves the statements of the body of a loop that do not depend on the loop variable to before the loop. If such
a statement consumes what another statement of the body produces, it tries to remove the loop variable from the crops of the other statement, and moves
it too.
-/

namespace Slinky.LI

open Slinky

/-- What the simplifier knows. -/
structure Info where
  /-- `buffers.lookup(i)->src` (`none`: not known, or undefined): the buffer of which the buffer is a crop, slice, ... -/
  src : Nat → Option Nat
  /-- a bound of the length of the chains of `src` -/
  depth : Nat
  /-- the dimension of the buffer is not known, or is folded (simplify.cc:1308-1317) -/
  folded : Nat → Nat → Bool
  /-- `mutate`: the simplifier of statements -/
  simp : Stmt → Stmt

/-- simplify.cc:1283-1292: a buffer and the buffers that it is an alias of (the `while` loop, at most `n` times). -/
def chain (src : Nat → Option Nat) : Nat → Nat → List Nat
  | 0, x => [x]
  | n + 1, x => x :: match src x with
    | some y => if y ≠ x then chain src n y else []
    | none => []

/-- simplify.cc:1280-1294 `buffers_accessed_via_aliases` -/
def accessed (E : Info) (s : Stmt) (consumed : Bool) : List Nat :=
  (findBufferDependencies s consumed consumed (!consumed) (!consumed)).flatMap (chain E.src E.depth)

/-- simplify.cc:1306-1319 `mutate_crop_bounds` -/
def cropB (E : Info) (x src d : Nat) (i : Interval) : Interval := if E.folded src d then i else substI x .undef i

/-- simplify.cc:1330-1334 -/
def cropBs (E : Info) (x src : Nat) : Nat → List Interval → List Interval
  | _, [] => []
  | d, i :: is => cropB E x src d i :: cropBs E x src (d + 1) is

mutual
/-- simplify.cc:1298-1344 `remove_loop_var_in_crop_bounds`: the crops, and the other statements as in `node_mutator` (node_mutator.cc:75-330: only the
bodies, since the expressions are not changed). -/
def removeVar (E : Info) (x : Nat) : Stmt → Stmt
  | .cropDim y src d b body => .cropDim y src d (cropB E x src d b) (removeVar E x body)
  | .cropBuffer y src bs body => .cropBuffer y src (cropBs E x src 0 bs) (removeVar E x body)
  | .lets bs body c => .lets bs (removeVar E x body) c
  | .block ss => blockMake (removeVars E x ss).toList
  | .loop y wk b st body => .loop y wk b st (removeVar E x body)
  | .allocate y sto e ds body => .allocate y sto e ds (removeVar E x body)
  | .makeBuffer y p e ds body => .makeBuffer y p e ds (removeVar E x body)
  | .constantBuffer y b body => .constantBuffer y b (removeVar E x body)
  | .cloneBuffer y src body => .cloneBuffer y src (removeVar E x body)
  | .sliceBuffer y src es body => .sliceBuffer y src es (removeVar E x body)
  | .sliceDim y src d e body => .sliceDim y src d e (removeVar E x body)
  | .transpose y src ds body => .transpose y src ds (removeVar E x body)
  | .async y task body => .async y (removeVar E x task) (removeVar E x body)
  | .undef => .undef
  | .call t i o sc => .call t i o sc
  | .copy t src xs dst ys pad => .copy t src xs dst ys pad
  | .check c => .check c
/-- See `removeVar`. -/
def removeVars (E : Info) (x : Nat) : Stmts → Stmts
  | .nil => .nil
  | .cons s ss => .cons (removeVar E x s) (removeVars E x ss)
end

/-- `depends_on(s, sym).var` (simplify.cc:1444, 1472) -/
def variant (x : Nat) (s : Stmt) : Bool := (dependsOnS s x).any fun d => d == .var

/-- simplify.cc:1451-1460: does `j` consume what `i` produces? -/
def conflict (E : Info) (i j : Stmt) : Bool := (accessed E i false).any fun b => (accessed E j true).contains b

/-- simplify.cc:1441-1492: one statement of the body. The state: the statements to lift (as lifted, and as they were in the loop), and the statements
of the loop. The vectors of the code are in reverse order; the lists here are in the order of the program, so the search for the first conflict
(1456-1465) begins with the first element. -/
def step (E : Info) (x : Nat) (i : Stmt) (S : List (Stmt × Stmt) × List Stmt) : List (Stmt × Stmt) × List Stmt :=
  if variant x i then
    match S.1.dropWhile fun p => !conflict E i p.1 with
    | [] => (S.1, i :: S.2)
    | c :: rest =>
      if variant x (removeVar E x i) then (S.1.takeWhile fun p => !conflict E i p.1, i :: ((c :: rest).map Prod.snd ++ S.2))
      else ((S.1.takeWhile fun p => !conflict E i p.1) ++ (E.simp (removeVar E x i), i) :: c :: rest, S.2)
  else ((i, i) :: S.1, S.2)

/-- simplify.cc:1428-1492: all statements, from the last to the first. -/
def licm (E : Info) (x : Nat) (ss : List Stmt) : List (Stmt × Stmt) × List Stmt := ss.foldr (step E x) ([], [])

/-- simplify.cc:1428-1509: the result for `loop(x, workers, bounds, step, block(ss))`, or `none` if there is nothing to lift. (The loop is simplified again
by the code.) -/
def hoist (E : Info) (x : Nat) (workers : Expr) (bounds : Interval) (st : Expr) (ss : List Stmt) : Option Stmt :=
  if (licm E x ss).1.isEmpty then none
  else some (blockMake ((licm E x ss).1.map Prod.fst ++ [.loop x workers bounds st (blockMake (licm E x ss).2)]))

/-! ## Specification -/

/-- What the statements of a loop do to memory. -/
structure LWorld (Loc Val : Type) where
  /-- does the statement need the element, with this value of the loop variable? -/
  reads : Stmt → Int → Loc → Bool
  /-- does the statement compute the element? -/
  writes : Stmt → Int → Loc → Bool
  /-- the value that the statement computes for an element, given the memory -/
  val : Stmt → Int → (Loc → Val) → Loc → Val
  /-- the buffer that has the element -/
  buf : Loc → Nat

variable {Loc Val : Type}

/-- Run a statement. -/
def LWorld.run (W : LWorld Loc Val) (m : Loc → Val) (e : Stmt × Int) : Loc → Val := fun a => if W.writes e.1 e.2 a then W.val e.1 e.2 m a else m a

/-- Run statements. -/
def LWorld.runs (W : LWorld Loc Val) (es : List (Stmt × Int)) (m : Loc → Val) : Loc → Val := es.foldl W.run m

/-- The loop: for each value of the loop variable, all statements of the body. -/
def iterations (ks : List Int) (ss : List Stmt) : List (Stmt × Int) := ks.flatMap fun k => ss.map fun s => (s, k)

/-- Each element is computed before it is used (or is in `P`). -/
def LWorld.ProduceFirst (W : LWorld Loc Val) : (Loc → Prop) → List (Stmt × Int) → Prop
  | _, [] => True
  | P, e :: es => (∀ a, W.reads e.1 e.2 a = true → P a) ∧ W.ProduceFirst (fun a => P a ∨ W.writes e.1 e.2 a = true) es

/-- `t` computes, in some iteration, an element that `s` uses in some iteration. -/
def LWorld.Feeds (W : LWorld Loc Val) (ks : List Int) (t s : Stmt) : Prop := ∃ k ∈ ks, ∃ k' ∈ ks, ∃ a, W.writes t k a = true ∧ W.reads s k' a = true

/-- No statement uses an element that it computes itself, or that a later statement computes. -/
def LWorld.Forward (W : LWorld Loc Val) (ks : List Int) : List Stmt → Prop
  | [] => True
  | s :: ss => (∀ t ∈ s :: ss, ¬ W.Feeds ks t s) ∧ W.Forward ks ss

/-- The buffer at the end of a chain of aliases. -/
def rootOf (src : Nat → Option Nat) : Nat → Nat → Nat
  | 0, x => x
  | n + 1, x => match src x with
    | some y => if y ≠ x then rootOf src n y else x
    | none => x

/-- What is assumed of a statement: it uses elements of the buffers that it consumes, it computes elements of the buffers that it produces, all elements
have only one right value `T`, and if it does not depend on the loop variable, it does the same in each iteration. -/
structure LWorld.Right (W : LWorld Loc Val) (E : Info) (x : Nat) (T : Loc → Val) (s : Stmt) : Prop where
  consumes : ∀ k a, W.reads s k a = true → ∃ y ∈ findBufferDependencies s true true false false, W.buf a = rootOf E.src E.depth y
  produces : ∀ k a, W.writes s k a = true → ∃ y ∈ findBufferDependencies s false false true true, W.buf a = rootOf E.src E.depth y
  value : ∀ k m, (∀ a, W.reads s k a = true → m a = T a) → ∀ a, W.writes s k a = true → W.val s k m a = T a
  invariant : variant x s = false → ∀ k k' a, W.reads s k a = W.reads s k' a ∧ W.writes s k a = W.writes s k' a

/-- `s'` is `s` for the whole loop: it uses the elements that the iterations of `s` use together, and computes at least those that they compute. -/
def LWorld.Whole (W : LWorld Loc Val) (ks : List Int) (s s' : Stmt) : Prop :=
  ∀ k0, (∀ a, W.reads s' k0 a = true ↔ ∃ k ∈ ks, W.reads s k a = true) ∧ ∀ k ∈ ks, ∀ a, W.writes s k a = true → W.writes s' k0 a = true

/-! ## The order of the statements -/

/-- Each statement of the list comes after the statements of `S` that feed it (or they are in `P`). -/
def Ord (D : Stmt → Stmt → Prop) (S : Stmt → Prop) : (Stmt → Prop) → List Stmt → Prop
  | _, [] => True
  | P, s :: l => (∀ t, S t → D t s → P t) ∧ Ord D S (fun u => P u ∨ u = s) l

theorem Ord.mono {D : Stmt → Stmt → Prop} {S : Stmt → Prop} : ∀ {l : List Stmt} {P P' : Stmt → Prop}, Ord D S P l → (∀ u, P u → P' u) → Ord D S P' l
  | [], _, _, _, _ => trivial
  | _ :: _, _, _, h, hp => ⟨fun t h1 h2 => hp t (h.1 t h1 h2), h.2.mono fun u hu => hu.imp (hp u) id⟩

theorem Ord.append {D : Stmt → Stmt → Prop} {S : Stmt → Prop} : ∀ {l l' : List Stmt} {P : Stmt → Prop},
    Ord D S P (l ++ l') ↔ Ord D S P l ∧ Ord D S (fun u => P u ∨ u ∈ l) l'
  | [], l', P => by simp [Ord]
  | s :: l, l', P => by
    simp only [List.cons_append, Ord, Ord.append (l := l), and_assoc, List.mem_cons]
    have : (fun u => (P u ∨ u = s) ∨ u ∈ l) = (fun u => P u ∨ u = s ∨ u ∈ l) := by funext u; simp [or_assoc]
    rw [this]

theorem Ord.more {D : Stmt → Stmt → Prop} {S : Stmt → Prop} {i : Stmt} : ∀ {l : List Stmt} {P : Stmt → Prop}, Ord D S P l → (∀ s ∈ l, D i s → P i) →
    Ord D (fun t => t = i ∨ S t) P l
  | [], _, _, _ => trivial
  | s :: l, P, h, hi => by
    refine ⟨fun t ht hd => ?_, h.2.more fun s hs hd => Or.inl (hi s (by simp [hs]) hd)⟩
    rcases ht with rfl | ht
    · exact hi s (by simp) hd
    · exact h.1 t ht hd

/-- What holds of the lifted statements and the statements of the loop, after the statements `ss`. -/
structure Inv (E : Info) (x : Nat) (D : Stmt → Stmt → Prop) (ss : List Stmt) (S : List (Stmt × Stmt) × List Stmt) : Prop where
  all : ∀ s ∈ ss, s ∈ S.2 ∨ s ∈ S.1.map Prod.snd
  loop : ∀ s ∈ S.2, s ∈ ss
  lift : ∀ p ∈ S.1, p.2 ∈ ss
  pair : ∀ p ∈ S.1, (p.1 = p.2 ∧ variant x p.2 = false) ∨
    (variant x p.2 = true ∧ variant x (removeVar E x p.2) = false ∧ p.1 = E.simp (removeVar E x p.2))
  ordL : Ord D (· ∈ ss) (fun _ => False) (S.1.map Prod.snd)
  ordB : Ord D (· ∈ ss) (· ∈ S.1.map Prod.snd) S.2

theorem mem_cons_eq {i : Stmt} {ss : List Stmt} : (fun t => t = i ∨ t ∈ ss) = (· ∈ i :: ss) := by funext t; simp

theorem takeWhile_all {α : Type} {p : α → Bool} : ∀ {l : List α} {s : α}, s ∈ l.takeWhile p → p s = true
  | t :: ts, s, h => by
    rw [List.takeWhile_cons] at h
    split at h
    · rename_i ht
      rcases List.mem_cons.1 h with rfl | h
      · exact ht
      · exact takeWhile_all h
    · cases h

theorem step_inv {E : Info} {x : Nat} {D : Stmt → Stmt → Prop} {i : Stmt} {ss : List Stmt} {S : List (Stmt × Stmt) × List Stmt} (h : Inv E x D ss S)
    (hf : ∀ t ∈ i :: ss, ¬ D t i) (hc : ∀ p ∈ S.1, D i p.2 → conflict E i p.1 = true) : Inv E x D (i :: ss) (step E x i S) := by
  obtain ⟨L, B⟩ := S
  obtain ⟨h1, h2, h3, h4, h5, h6⟩ := h
  simp only at h1 h2 h3 h4 h5 h6 hc
  have hno : ∀ s ∈ (L.takeWhile fun p => !conflict E i p.1).map Prod.snd, ¬ D i s := fun s hs hd => by
    obtain ⟨p, hp, rfl⟩ := List.mem_map.1 hs
    have e1 := takeWhile_all hp
    rw [hc p ((List.takeWhile_sublist _).subset hp) hd] at e1
    cases e1
  unfold step
  by_cases hv : variant x i = true
  · rw [if_pos hv]
    have hL := List.takeWhile_append_dropWhile (p := fun p : Stmt × Stmt => !conflict E i p.1) (l := L)
    simp only
    generalize hT : (L.takeWhile fun p => !conflict E i p.1) = A at *
    cases hdw : L.dropWhile fun p => !conflict E i p.1 with
    | nil =>
      rw [hdw, List.append_nil] at hL
      subst hL
      refine ⟨?_, ?_, ?_, h4, ?_, ?_⟩
      · intro s hs
        rcases List.mem_cons.1 hs with rfl | hs
        · simp
        · exact (h1 s hs).imp (fun h => by simp [h]) id
      · intro s hs
        rcases List.mem_cons.1 hs with rfl | hs
        · simp
        · simp [h2 s hs]
      · intro p hp; simp [h3 p hp]
      · rw [← mem_cons_eq]; exact h5.more fun s hs hd => hno s hs hd
      · refine ⟨fun t ht hd => absurd hd (hf t ht), ?_⟩
        rw [← mem_cons_eq]
        exact (h6.mono fun u hu => Or.inl hu).more fun _ _ _ => Or.inr rfl
    | cons c rest =>
      rw [hdw] at hL
      simp only
      rw [← hL, List.map_append, Ord.append] at h5
      have hmem : ∀ s, s ∈ L.map Prod.snd ↔ s ∈ A.map Prod.snd ∨ s ∈ (c :: rest).map Prod.snd := fun s => by rw [← hL, List.map_append, List.mem_append]
      have hsubA : ∀ p ∈ A, p ∈ L := fun p hp => by rw [← hL]; simp [hp]
      have hsubC : ∀ p ∈ c :: rest, p ∈ L := fun p hp => by rw [← hL]; exact List.mem_append_right _ hp
      generalize c :: rest = C at *
      by_cases hr : variant x (removeVar E x i) = true
      · rw [if_pos hr]
        refine ⟨?_, ?_, ?_, ?_, ?_, ?_⟩
        · intro s hs
          rcases List.mem_cons.1 hs with rfl | hs
          · simp
          · rcases h1 s hs with h | h
            · exact Or.inl (by simp [h])
            · rcases (hmem s).1 h with h | h
              · exact Or.inr h
              · exact Or.inl (List.mem_cons_of_mem _ (List.mem_append_left _ h))
        · intro s hs
          rcases List.mem_cons.1 hs with rfl | hs
          · simp
          · rcases List.mem_append.1 hs with hs | hs
            · obtain ⟨p, hp, rfl⟩ := List.mem_map.1 hs
              simp [h3 p (hsubC p hp)]
            · simp [h2 s hs]
        · intro p hp; simp [h3 p (hsubA p hp)]
        · intro p hp; exact h4 p (hsubA p hp)
        · rw [← mem_cons_eq]; exact h5.1.more fun s hs hd => hno s hs hd
        · refine ⟨fun t ht hd => absurd hd (hf t ht), ?_⟩
          rw [← mem_cons_eq, Ord.append]
          refine ⟨(h5.2.mono fun u hu => ?_).more fun _ _ _ => Or.inr rfl, (h6.mono fun u hu => ?_).more fun _ _ _ => Or.inl (Or.inr rfl)⟩
          · rcases hu with hu | hu
            · exact hu.elim
            · exact Or.inl hu
          · rcases (hmem u).1 hu with hu | hu
            · exact Or.inl (Or.inl hu)
            · exact Or.inr hu
      · rw [if_neg hr]
        have hr' : variant x (removeVar E x i) = false := by simpa using hr
        refine ⟨?_, ?_, ?_, ?_, ?_, ?_⟩
        · intro s hs
          rcases List.mem_cons.1 hs with rfl | hs
          · simp
          · rcases h1 s hs with h | h
            · exact Or.inl h
            · right
              rcases (hmem s).1 h with h | h
              · simp only [List.map_append, List.mem_append, h, true_or]
              · simp only [List.map_append, List.map_cons, List.mem_append, List.mem_cons, h, or_true]
        · intro s hs; simp [h2 s hs]
        · intro p hp
          rcases List.mem_append.1 hp with hp | hp
          · simp [h3 p (hsubA p hp)]
          · rcases List.mem_cons.1 hp with rfl | hp
            · simp
            · simp [h3 p (hsubC p hp)]
        · intro p hp
          rcases List.mem_append.1 hp with hp | hp
          · exact h4 p (hsubA p hp)
          · rcases List.mem_cons.1 hp with rfl | hp
            · exact Or.inr ⟨hv, hr', rfl⟩
            · exact h4 p (hsubC p hp)
        · rw [← mem_cons_eq, List.map_append, Ord.append, List.map_cons]
          refine ⟨h5.1.more fun s hs hd => hno s hs hd, fun t ht hd => absurd hd (hf t (by simpa using ht)), ?_⟩
          exact (h5.2.mono fun u hu => Or.inl hu).more fun _ _ _ => Or.inr rfl
        · rw [← mem_cons_eq]
          refine (h6.mono fun u hu => ?_).more fun _ _ _ => by simp
          rcases (hmem u).1 hu with hu | hu
          · simp only [List.map_append, List.mem_append, hu, true_or]
          · simp only [List.map_append, List.map_cons, List.mem_append, List.mem_cons, hu, or_true]
  · rw [if_neg hv]
    have hv' : variant x i = false := by simpa using hv
    refine ⟨?_, ?_, ?_, ?_, ?_, ?_⟩
    · intro s hs
      rcases List.mem_cons.1 hs with rfl | hs
      · simp
      · exact (h1 s hs).imp id fun h => by simp only [List.map_cons, List.mem_cons, h, or_true]
    · intro s hs; simp [h2 s hs]
    · intro p hp
      rcases List.mem_cons.1 hp with rfl | hp
      · simp
      · simp [h3 p hp]
    · intro p hp
      rcases List.mem_cons.1 hp with rfl | hp
      · exact Or.inl ⟨rfl, hv'⟩
      · exact h4 p hp
    · rw [List.map_cons, ← mem_cons_eq]
      exact ⟨fun t ht hd => hf t (by simpa using ht) hd, (h5.mono fun u hu => hu.elim).more fun _ _ _ => Or.inr rfl⟩
    · rw [← mem_cons_eq]
      exact (h6.mono fun u hu => by simp only [List.map_cons, List.mem_cons, hu, or_true]).more fun _ _ _ => by simp

end Slinky.LI
