import Verif.SemLe
import Verif.Canonicalize
import Verif.DependsSem
import Verif.DeshadowThm

/-!
# Model of `fuse_siblings` (slinky/builder/optimizations.cc:1213-1307)

Declarations of buffers that follow each other in a block, and that declare the same buffer, become one declaration: the second body follows
the first one, with a clone of the first buffer.

Simplifications:
* a block for which nothing changes is returned as it is in the code; here `block::make` is applied to its statements. It is the same for blocks
  that were made by `block::make` (`Stmt.Flat`);
* the recursion has fuel (`fuseS`), because a fused statement is not a part of the original one. `fuseS_stable` shows that there is enough.
-/

namespace Slinky

/-- optimizations.cc:1215-1222 `match(span, span)` -/
def matchAll {α : Type} (f : α → α → Bool) : List α → List α → Bool
  | [], [] => true
  | a :: as, b :: bs => f a b && matchAll f as bs
  | _, _ => false

/-- `match(interval_expr, interval_expr)` (substitute.cc:129-135, 420-440) -/
def matchI (a b : Interval) : Bool := cmpI a b == .eq

/-- `match(dim_expr, dim_expr)` (substitute.cc:137-142, 420-440) -/
def matchDimE (a b : DimE) : Bool := cmpDimE a b == .eq

/-- optimizations.cc:1248-1266 `fuse`, with `can_fuse` (1226-1246): the fused declaration, if `a` and `b` declare the same buffer. -/
def fuse2 : Stmt → Stmt → Option Stmt
  | .allocate x st e ds a, .allocate y st' e' ds' b =>
    if st == st' && matchE e e' && matchAll matchDimE ds ds' then some (.allocate x st e ds (blockMake [a, .cloneBuffer y x b])) else none
  | .makeBuffer x p e ds a, .makeBuffer y p' e' ds' b =>
    if matchE p p' && matchE e e' && matchAll matchDimE ds ds' then some (.makeBuffer x p e ds (blockMake [a, .cloneBuffer y x b])) else none
  | .cropDim x s d i a, .cropDim y s' d' i' b =>
    if s == s' && d == d' && matchI i i' then some (.cropDim x s d i (blockMake [a, .cloneBuffer y x b])) else none
  | .cropBuffer x s is a, .cropBuffer y s' is' b =>
    if s == s' && matchAll matchI is is' then some (.cropBuffer x s is (blockMake [a, .cloneBuffer y x b])) else none
  | .sliceDim x s d e a, .sliceDim y s' d' e' b =>
    if s == s' && d == d' && matchE e e' then some (.sliceDim x s d e (blockMake [a, .cloneBuffer y x b])) else none
  | .sliceBuffer x s es a, .sliceBuffer y s' es' b =>
    if s == s' && matchAll matchE es es' then some (.sliceBuffer x s es (blockMake [a, .cloneBuffer y x b])) else none
  | .transpose x s ds a, .transpose y s' ds' b =>
    if s == s' && ds == ds' then some (.transpose x s ds (blockMake [a, .cloneBuffer y x b])) else none
  | _, _ => none

/-- optimizations.cc:1281-1297: the statements of a block; `cur` is `result.back()`. -/
def fuseRun : Stmt → List Stmt → List Stmt
  | cur, [] => [cur]
  | cur, s :: ss =>
    match fuse2 cur s with
    | some f => fuseRun f ss
    | none => cur :: fuseRun s ss

/-- optimizations.cc:1269-1304 `sibling_fuser::visit(const block*)`, and node_mutator.cc:106-143 for the other statements. -/
def fuseS : Nat → Stmt → Stmt
  | 0, s => s
  | n + 1, .block ss =>
    match ss.toList with
    | [] => .block ss
    | s :: rest => blockMake ((fuseRun s rest).map (fuseS n))
  | n + 1, .lets bs b c => .lets bs (fuseS n b) c
  | n + 1, .loop x wk i st b => .loop x wk i st (fuseS n b)
  | n + 1, .allocate x st e ds b => .allocate x st e ds (fuseS n b)
  | n + 1, .makeBuffer x p e ds b => .makeBuffer x p e ds (fuseS n b)
  | n + 1, .constantBuffer x v b => .constantBuffer x v (fuseS n b)
  | n + 1, .cloneBuffer x s b => .cloneBuffer x s (fuseS n b)
  | n + 1, .cropBuffer x s is b => .cropBuffer x s is (fuseS n b)
  | n + 1, .cropDim x s d i b => .cropDim x s d i (fuseS n b)
  | n + 1, .sliceBuffer x s es b => .sliceBuffer x s es (fuseS n b)
  | n + 1, .sliceDim x s d e b => .sliceDim x s d e (fuseS n b)
  | n + 1, .transpose x s ds b => .transpose x s ds (fuseS n b)
  | n + 1, .async x t b => .async x (fuseS n t) (fuseS n b)
  | _ + 1, s => s

mutual
/-- The number of statements. -/
def Stmt.size : Stmt → Nat
  | .lets _ b _ => b.size + 1
  | .block ss => ss.size + 1
  | .loop _ _ _ _ b => b.size + 1
  | .allocate _ _ _ _ b => b.size + 1
  | .makeBuffer _ _ _ _ b => b.size + 1
  | .constantBuffer _ _ b => b.size + 1
  | .cloneBuffer _ _ b => b.size + 1
  | .cropBuffer _ _ _ b => b.size + 1
  | .cropDim _ _ _ _ b => b.size + 1
  | .sliceBuffer _ _ _ b => b.size + 1
  | .sliceDim _ _ _ _ b => b.size + 1
  | .transpose _ _ _ b => b.size + 1
  | .async _ t b => t.size + b.size + 1
  | _ => 1
/-- See `Stmt.size`. -/
def Stmts.size : Stmts → Nat
  | .nil => 0
  | .cons s ss => s.size + ss.size
end

/-- The recursion of the pass is not deeper. -/
def Stmt.fuseFuel (s : Stmt) : Nat := 2 * s.size + if s.isBlock then 1 else 0

/-- optimizations.cc:1306-1309 `fuse_siblings` -/
def fuseSiblings (s : Stmt) : Stmt := fuseS s.fuseFuel s

/-! ## Specification -/

/-- The symbol and the body of a declaration of a buffer. -/
def Stmt.decl? : Stmt → Option (Nat × Stmt)
  | .allocate x _ _ _ b => some (x, b)
  | .makeBuffer x _ _ _ b => some (x, b)
  | .constantBuffer x _ b => some (x, b)
  | .cloneBuffer x _ b => some (x, b)
  | .cropBuffer x _ _ b => some (x, b)
  | .cropDim x _ _ _ b => some (x, b)
  | .sliceBuffer x _ _ b => some (x, b)
  | .sliceDim x _ _ _ b => some (x, b)
  | .transpose x _ _ b => some (x, b)
  | _ => none

/-- No calls of the world in the parameters of the declaration. -/
def Stmt.ParamsLogFree : Stmt → Prop
  | .allocate _ _ e ds _ => e.LogFree ∧ ∀ d ∈ ds, d.LogFree
  | .makeBuffer _ p e ds _ => p.LogFree ∧ e.LogFree ∧ ∀ d ∈ ds, d.LogFree
  | .cropBuffer _ _ is _ => ∀ i ∈ is, i.LogFree
  | .cropDim _ _ _ i _ => i.LogFree
  | .sliceBuffer _ _ es _ => ∀ e ∈ es, e.LogFree
  | .sliceDim _ _ _ e _ => e.LogFree
  | _ => True

/-- Is it an allocation? -/
def Stmt.isAlloc : Stmt → Bool
  | .allocate .. => true
  | _ => false

/-- What is needed of two statements `a`, `b` of a block that declare the same buffer, `a` before `b`: their parameters do not call the world
(the second declaration may then be evaluated where the first one is), and the symbol of `a` is not the name of something else in the body of
`b`. If `al` is false, then they are not allocations. -/
def SibPair (al : Bool) (a b : Stmt) : Prop :=
  (fuse2 a b).isSome → (a.isAlloc = true → al = true) ∧ a.ParamsLogFree ∧
    ∀ x A y B, a.decl? = some (x, A) → b.decl? = some (y, B) → x = y ∨ (¬ B.Free x ∧ B.BufOK ∧ B.ClosOK)

mutual
/-- The statements of all blocks satisfy `SibPair`, no block is empty or contains undefined statements (`block::make` does not make them), and
there are no closures (they are added after this pass). -/
def Stmt.SibOK (al : Bool) : Stmt → Prop
  | .lets _ b c => c = false ∧ b.SibOK al
  | .block ss => (ss.toList ≠ [] ∧ ∀ s ∈ ss.toList, s.Solid) ∧ ss.toList.Pairwise (SibPair al) ∧ ss.SibOK al
  | .loop _ _ _ _ b => b.SibOK al
  | .allocate _ _ _ _ b => b.SibOK al
  | .makeBuffer _ _ _ _ b => b.SibOK al
  | .constantBuffer _ _ b => b.SibOK al
  | .cloneBuffer _ _ b => b.SibOK al
  | .cropBuffer _ _ _ b => b.SibOK al
  | .cropDim _ _ _ _ b => b.SibOK al
  | .sliceBuffer _ _ _ b => b.SibOK al
  | .sliceDim _ _ _ _ b => b.SibOK al
  | .transpose _ _ _ b => b.SibOK al
  | .async _ t b => t.SibOK al ∧ b.SibOK al
  | _ => True
/-- See `Stmt.SibOK`. -/
def Stmts.SibOK (al : Bool) : Stmts → Prop
  | .nil => True
  | .cons s ss => s.SibOK al ∧ ss.SibOK al
end

/-- The world gives the same memory to each allocation of the same buffer, and allocations are not observed. -/
structure World.SameAlloc (w : World) (vis : Ev → Bool) : Prop where
  allocate : ∀ b l l', w.allocate b l = w.allocate b l'
  stackAddr : ∀ l l', w.stackAddr l = w.stackAddr l'
  alloc : ∀ x h, vis (.alloc x h) = false
  free : ∀ x h, vis (.free x h) = false

/-! ## Declarations with the same parameters -/

theorem Interval.Same.canon_eq {a b : Interval} (h : a.Same b) : a.canon = b.canon := by
  simp [Interval.canon, h.1, h.2]

theorem DimE.Same.canon_eq {a b : DimE} (h : a.Same b) : a.canon = b.canon := by
  simp [DimE.canon, h.1.canon_eq, h.2.1, h.2.2]

theorem matchE_eq {a b : Expr} : matchE a b = true ↔ a = b := by simp [matchE, cmpE_eq]
theorem matchI_canon {a b : Interval} (h : matchI a b = true) : a.canon = b.canon := Interval.Same.canon_eq (by simpa [matchI, cmpI_eq] using h)
theorem matchDimE_canon {a b : DimE} (h : matchDimE a b = true) : a.canon = b.canon := DimE.Same.canon_eq (by simpa [matchDimE, cmpDimE_eq] using h)

theorem matchAll_map {α β : Type} {f : α → α → Bool} {g : α → β} (hf : ∀ a b, f a b = true → g a = g b) : ∀ {as bs : List α}, matchAll f as bs = true →
    as.map g = bs.map g
  | [], [], _ => rfl
  | [], _ :: _, h => by simp [matchAll] at h
  | _ :: _, [], h => by simp [matchAll] at h
  | a :: as, b :: bs, h => by
    simp only [matchAll, Bool.and_eq_true] at h
    simp [hf _ _ h.1, matchAll_map hf h.2]

theorem matchAll_eq {as bs : List Expr} (h : matchAll matchE as bs = true) : as = bs := by
  simpa using matchAll_map (g := id) (fun a b h => matchE_eq.1 h) h

/-- The declarations declare the same buffer. -/
def Head.Same (h h' : Head) : Prop := ∀ (w : World) (l : List Ev) (ρ : SEnv) (x : Nat), h.val w l ρ x = h'.val w l ρ x

theorem fuse2_some {a b f : Stmt} (h : fuse2 a b = some f) :
    (∃ (H H' : Head) (x y : Nat) (A B : Stmt), a = H.stmt x A ∧ b = H'.stmt y B ∧ f = H.stmt x (blockMake [A, .cloneBuffer y x B]) ∧ H.Same H' ∧
      (a.ParamsLogFree → H.LogFree)) ∨
    ∃ st e ds ds' x y A B, a = .allocate x st e ds A ∧ b = .allocate y st e ds' B ∧ f = .allocate x st e ds (blockMake [A, .cloneBuffer y x B]) ∧
      ds.map DimE.canon = ds'.map DimE.canon := by
  unfold fuse2 at h
  split at h
  · right
    split at h
    · rename_i hc
      simp only [Bool.and_eq_true, beq_iff_eq] at hc
      cases h
      obtain ⟨⟨rfl, h2⟩, h3⟩ := hc
      rw [matchE_eq] at h2
      subst h2
      exact ⟨_, _, _, _, _, _, _, _, rfl, rfl, rfl, matchAll_map (fun a b h => matchDimE_canon h) h3⟩
    · cases h
  · left
    split at h
    · rename_i x p e ds a y p' e' ds' b hc
      simp only [Bool.and_eq_true, matchE_eq] at hc
      cases h
      obtain ⟨⟨rfl, rfl⟩, h3⟩ := hc
      refine ⟨.makeBuffer p e ds, .makeBuffer p e ds', _, _, _, _, rfl, rfl, rfl, fun w l ρ z => ?_, id⟩
      simp only [Head.val]
      rw [← evalDimsS_canon, matchAll_map (fun a b h => matchDimE_canon h) h3, evalDimsS_canon]
    · cases h
  · left
    split at h
    · rename_i x s d i a y s' d' i' b hc
      simp only [Bool.and_eq_true, beq_iff_eq] at hc
      cases h
      obtain ⟨⟨rfl, rfl⟩, h3⟩ := hc
      refine ⟨.cropDim s d i, .cropDim s d i', _, _, _, _, rfl, rfl, rfl, fun w l ρ z => ?_, id⟩
      simp only [Head.val]
      congr 1; funext b
      rw [← evalIvDefS_canon, matchI_canon h3, evalIvDefS_canon]
    · cases h
  · left
    split at h
    · rename_i x s is a y s' is' b hc
      simp only [Bool.and_eq_true, beq_iff_eq] at hc
      cases h
      obtain ⟨rfl, h3⟩ := hc
      refine ⟨.cropBuffer s is, .cropBuffer s is', _, _, _, _, rfl, rfl, rfl, fun w l ρ z => ?_, id⟩
      simp only [Head.val]
      congr 1; funext b
      rw [← cropS_canon, ← cropSeqS_canon, matchAll_map (fun a b h => matchI_canon h) h3, cropS_canon, cropSeqS_canon]
    · cases h
  · left
    split at h
    · rename_i x s d e a y s' d' e' b hc
      simp only [Bool.and_eq_true, beq_iff_eq, matchE_eq] at hc
      cases h
      obtain ⟨⟨rfl, rfl⟩, rfl⟩ := hc
      exact ⟨.sliceDim s d e, .sliceDim s d e, _, _, _, _, rfl, rfl, rfl, fun w l ρ z => rfl, id⟩
    · cases h
  · left
    split at h
    · rename_i x s es a y s' es' b hc
      simp only [Bool.and_eq_true, beq_iff_eq] at hc
      cases h
      obtain ⟨rfl, h3⟩ := hc
      rw [matchAll_eq h3]
      exact ⟨.sliceBuffer s es', .sliceBuffer s es', _, _, _, _, rfl, rfl, rfl, fun w l ρ z => rfl, id⟩
    · cases h
  · left
    split at h
    · rename_i x s ds a y s' ds' b hc
      simp only [Bool.and_eq_true, beq_iff_eq] at hc
      cases h
      obtain ⟨rfl, rfl⟩ := hc
      exact ⟨.transpose s ds, .transpose s ds, _, _, _, _, rfl, rfl, rfl, fun w l ρ z => rfl, fun _ => trivial⟩
    · cases h
  · cases h

/-- The buffer does not depend on the symbol, if the declaration has a meaning for both symbols. -/
theorem Head.val_sym {w : World} {l : List Ev} {ρ : SEnv} {x y : Nat} {h : Head} {v v' : Option Buf} (h1 : h.val w l ρ x = some v) (h2 : h.val w l ρ y = some v') :
    v = v' := by
  cases h with
  | cropBuffer src bs =>
    simp only [Head.val] at h1 h2
    obtain ⟨b, a1, h1⟩ := Option.bind_eq_some_iff.1 h1
    obtain ⟨b', a2, h1⟩ := Option.bind_eq_some_iff.1 h1
    rw [a1, Option.bind_some, a2, Option.bind_some] at h2
    split at h1 <;> cases h1
    split at h2 <;> cases h2
    rfl
  | transpose src ds =>
    simp only [Head.val] at h1 h2
    obtain ⟨b, a1, h1⟩ := Option.bind_eq_some_iff.1 h1
    rw [a1, Option.bind_some] at h2
    split at h1 <;> cases h1
    split at h2 <;> cases h2
    rfl
  | _ =>
    have : ∀ a b : Option (Option Buf), a = some v → b = some v' → a = b → v = v' := fun a b h1 h2 h3 => by rw [h1, h2] at h3; exact Option.some.inj h3
    exact this _ _ h1 h2 rfl

theorem Head.stmt_decl (h : Head) (x : Nat) (b : Stmt) : (h.stmt x b).decl? = some (x, b) := by cases h <;> rfl

/-! ## Two declarations -/

section
variable {w : World} {vis : Ev → Bool}

/-- Two statements one after another. -/
def seq2 (w : World) (a b : Stmt) (ρ : SEnv) (l : List Ev) : Option (Int × List Ev) :=
  (sem w false a ρ l).bind fun p => if p.1 ≠ 0 then some p else sem w false b ρ p.2

theorem semSeq_pair {a b : Stmt} (ha : a ≠ .undef) (hb : b ≠ .undef) (ρ : SEnv) (l : List Ev) : semSeq w [a, b] ρ l = seq2 w a b ρ l := by
  rw [semSeq_cons ha, seq2]
  congr 1; funext p
  rw [semSeq_cons hb]
  split
  · rfl
  · cases e : sem w false b ρ p.2 with
    | none => rfl
    | some q =>
      rw [Option.bind_some, semSeq]
      obtain ⟨q1, q2⟩ := q
      by_cases h : q1 = 0
      · simp [h]
      · simp [h]

theorem blockMake_last {A : Stmt} {y x : Nat} {B : Stmt} : blockMake [A, .cloneBuffer y x B] ≠ .undef := by
  unfold blockMake
  have hm : Stmt.cloneBuffer y x B ∈ eraseUndefs (flattenBlocks [A, .cloneBuffer y x B]) := by
    cases A <;> simp [flattenBlocks, eraseUndefs, Stmt.defined]
  split
  · rename_i e; rw [e] at hm; cases hm
  · rename_i s e
    rw [e] at hm
    simp only [List.mem_singleton] at hm
    rw [← hm]; simp
  · simp

theorem set_ne_agree {B : Stmt} {ρ : SEnv} {x y : Nat} {b : Buf} (h : x = y ∨ ¬ B.Free x) :
    Agree (fun p z => B.Uses p z) ((ρ.set x (.buf b)).set y (.buf b)) (ρ.set y (.buf b)) := fun z => by
  by_cases hy : z = y
  · left; simp [SEnv.set, hy]
  · by_cases hx : z = x
    · rcases h with h | h
      · exact absurd (hx.trans h) hy
      · subst hx
        exact Or.inr ⟨fun p hp => h ⟨_, hp⟩, fun hp => absurd ⟨_, hp⟩ h⟩
    · left; simp [SEnv.set, hy, hx]

/-- The body of a fused declaration. -/
theorem body_le (hw : w.Blind vis) {A B : Stmt} {x y : Nat} {b : Buf} {ρ : SEnv} (h : x = y ∨ (¬ B.Free x ∧ B.BufOK ∧ B.ClosOK)) {l l' : List Ev} {r1 : Int}
    {m1 : List Ev} (hl : LogEq vis l l') (h1 : sem w false A (ρ.set x (.buf b)) l = some (r1, m1)) :
    (r1 ≠ 0 → ∃ m', sem w false (blockMake [A, .cloneBuffer y x B]) (ρ.set x (.buf b)) l' = some (r1, m') ∧ LogEq vis m1 m') ∧
    (r1 = 0 → ∀ l2 r2 m2, LogEq vis m1 l2 → sem w false B (ρ.set y (.buf b)) l2 = some (r2, m2) →
      ∃ m', sem w false (blockMake [A, .cloneBuffer y x B]) (ρ.set x (.buf b)) l' = some (r2, m') ∧ LogEq vis m2 m') := by
  have hA : A ≠ .undef := by rintro rfl; simp [sem] at h1
  obtain ⟨m1', a1, a2⟩ := sem_le hw A false _ hl h1
  refine ⟨fun h0 => ⟨m1', sem_blockMake ?_ blockMake_last, a2⟩, fun h0 l2 r2 m2 hl2 h2 => ?_⟩
  · rw [semSeq_pair hA (by simp), seq2, a1, Option.bind_some, if_pos h0]
  · obtain ⟨m2', b1, b2⟩ := sem_le hw B false _ (hl2.symm.trans a2) h2
    refine ⟨m2', sem_blockMake ?_ blockMake_last, b2⟩
    rw [semSeq_pair hA (by simp), seq2, a1, Option.bind_some, if_neg (by simpa using h0)]
    simp only [sem]
    have : (ρ.set x (.buf b)).buf? x = some b := by simp [SEnv.buf?, SEnv.set, Val.buf?]
    rw [this, Option.bind_some]
    rcases h with rfl | ⟨h, hb, hc⟩
    · have : (ρ.set x (.buf b)).set x (.buf b) = ρ.set x (.buf b) := by funext z; by_cases hz : z = x <;> simp [SEnv.set, hz]
      rw [this]; exact b1
    · rw [sem_congr_eq hb hc (set_ne_agree (Or.inr h))]
      exact b1

theorem fuse2_head_le (hw : w.Blind vis) {H H' : Head} {x y : Nat} {A B : Stmt} {ρ : SEnv} (hs : H.Same H') (hf : H.LogFree)
    (h : x = y ∨ (¬ B.Free x ∧ B.BufOK ∧ B.ClosOK)) :
    Le vis (seq2 w (H.stmt x A) (H'.stmt y B) ρ) (sem w false (H.stmt x (blockMake [A, .cloneBuffer y x B])) ρ) := fun l l' r m hl hq => by
  rw [seq2] at hq
  obtain ⟨⟨r1, m1⟩, g1, g2⟩ := Option.bind_eq_some_iff.1 hq
  rw [sem_head] at g1 ⊢
  rw [← H.val_log ρ x (Or.inl (hw.hostEq hl))]
  obtain ⟨v, g3, g4⟩ := Option.bind_eq_some_iff.1 g1
  rw [g3, Option.bind_some]
  cases v with
  | none =>
    simp only at g4 ⊢
    cases g4
    rw [if_pos (by simp)] at g2
    cases g2
    exact ⟨_, rfl, hl.cons _⟩
  | some b =>
    simp only at g4 ⊢
    obtain ⟨k1, k2⟩ := body_le hw h hl g4
    by_cases h0 : r1 = 0
    · rw [if_neg (by simpa using h0)] at g2
      simp only at g2
      rw [sem_head, ← hs, H.val_log (l' := l) ρ y (Or.inr hf)] at g2
      obtain ⟨v', g5, g6⟩ := Option.bind_eq_some_iff.1 g2
      have := Head.val_sym g3 g5
      subst this
      simp only at g6
      exact k2 h0 m1 r m (LogEq.refl _ _) g6
    · rw [if_pos h0] at g2
      cases g2
      exact k1 h0

theorem allocS_same (ha : w.SameAlloc vis) (l l' : List Ev) (sto : Storage) (b : Buf) :
    (allocS w sto b l = none ∧ allocS w sto b l' = none) ∨
    ∃ b1 h l1 l1', allocS w sto b l = some (b1, h, l1) ∧ allocS w sto b l' = some (b1, h, l1') ∧ LogEq vis l l1 ∧ LogEq vis l' l1' := by
  have hh : ∀ (l : List Ev) (e : Ev), vis e = false → LogEq vis l (e :: l) := fun l e he => ((LogEq.refl vis l).hide he).symm
  unfold allocS
  split
  · right
    rw [← ha.allocate b l l']
    exact ⟨_, _, _, _, rfl, rfl, hh _ _ (ha.alloc _ _), hh _ _ (ha.alloc _ _)⟩
  · split
    · exact Or.inl ⟨rfl, rfl⟩
    · right
      split
      · rw [← ha.stackAddr l l']
        exact ⟨_, _, _, _, rfl, rfl, LogEq.refl _ _, LogEq.refl _ _⟩
      · simp only
        rw [← ha.allocate _ l l']
        exact ⟨_, _, _, _, rfl, rfl, hh _ _ (ha.alloc _ _), hh _ _ (ha.alloc _ _)⟩

theorem freeS_same (ha : w.SameAlloc vis) (h : Int) (l : List Ev) : LogEq vis (freeS h l) l := by
  unfold freeS
  split
  · exact (LogEq.refl _ _).hide (ha.free _ _)
  · exact LogEq.refl _ _

theorem fuse2_alloc_le (hw : w.Blind vis) (ha : w.SameAlloc vis) {x y : Nat} {st : Storage} {e : Expr} {ds ds' : List DimE} {A B : Stmt} {ρ : SEnv}
    (hd : ds.map DimE.canon = ds'.map DimE.canon) (hf : e.LogFree ∧ ∀ d ∈ ds, d.LogFree) (h : x = y ∨ (¬ B.Free x ∧ B.BufOK ∧ B.ClosOK)) :
    Le vis (seq2 w (.allocate x st e ds A) (.allocate y st e ds' B) ρ) (sem w false (.allocate x st e ds (blockMake [A, .cloneBuffer y x B])) ρ) :=
  fun l l' r m hl hq => by
  rw [seq2] at hq
  obtain ⟨⟨r1, m1⟩, g1, g2⟩ := Option.bind_eq_some_iff.1 hq
  have hh := hw.hostEq hl
  simp only [sem, Option.bind_eq_bind, Option.bind_eq_some_iff] at g1 ⊢
  obtain ⟨n, e1, v, e2, g3⟩ := g1
  have e1' := e1; have e2' := e2
  rw [evalI_log e ρ (Or.inl hh)] at e1
  rw [evalDimsS_log ρ _ ds (Or.inl hh)] at e2
  suffices hk : ∃ m', (match allocS w st ⟨none, n, v.take (trimRank v)⟩ l' with
      | none => some (-1, .failed 0 :: l')
      | some (b, h, l1) =>
        if b.base = none ∧ b.elemCount > 0 then some (-1, freeS h (.failed 0 :: l1))
        else (sem w false (blockMake [A, .cloneBuffer y x B]) (ρ.set x (.buf b)) l1).map fun p => (p.1, freeS h p.2)) = some (r, m') ∧ LogEq vis m m' by
    obtain ⟨m', a1, a2⟩ := hk
    exact ⟨m', ⟨n, e1, v, e2, a1⟩, a2⟩
  rcases allocS_same ha l l' st ⟨none, n, v.take (trimRank v)⟩ with ⟨k1, k2⟩ | ⟨b1, h1, l1, l1', k1, k2, k3, k4⟩
  · rw [k1] at g3
    rw [k2]
    simp only at g3 ⊢
    cases g3
    rw [if_pos (by simp)] at g2
    cases g2
    exact ⟨_, rfl, hl.cons _⟩
  · rw [k1] at g3
    rw [k2]
    simp only at g3 ⊢
    have hl1 : LogEq vis l1 l1' := k3.symm.trans (hl.trans k4)
    by_cases hc : b1.base = none ∧ b1.elemCount > 0
    · rw [if_pos hc] at g3 ⊢
      cases g3
      rw [if_pos (by simp)] at g2
      cases g2
      exact ⟨_, rfl, freeS_log (hl1.cons _) h1⟩
    · rw [if_neg hc] at g3 ⊢
      simp only [Option.map_eq_some_iff] at g3 ⊢
      obtain ⟨⟨r2, m2⟩, g4, g5⟩ := g3
      cases g5
      obtain ⟨c1, c2⟩ := body_le hw h hl1 g4
      by_cases h0 : r2 = 0
      · rw [if_neg (by simpa using h0)] at g2
        simp only [sem, Option.bind_eq_bind, Option.bind_eq_some_iff] at g2
        obtain ⟨n', f1, v', f2, g6⟩ := g2
        rw [evalI_log (l' := l) e ρ (Or.inr hf.1), e1'] at f1
        cases f1
        rw [← evalDimsS_canon, ← hd, evalDimsS_canon, evalDimsS_log (l' := l) ρ _ ds (Or.inr hf.2), e2'] at f2
        cases f2
        rcases allocS_same ha l (freeS h1 m2) st ⟨none, n, v.take (trimRank v)⟩ with ⟨j1, j2⟩ | ⟨b2, h2, l2, l2', j1, j2, j3, j4⟩
        · rw [k1] at j1; cases j1
        · rw [k1] at j1
          cases j1
          rw [j2] at g6
          simp only at g6
          rw [if_neg hc] at g6
          simp only [Option.map_eq_some_iff] at g6
          obtain ⟨⟨r3, m3⟩, g7, g8⟩ := g6
          cases g8
          obtain ⟨m', c3, c4⟩ := c2 h0 l2' r3 m3 ((freeS_same ha h1 m2).symm.trans j4) g7
          exact ⟨_, ⟨(r3, m'), c3, rfl⟩, freeS_log c4 h1⟩
      · rw [if_pos h0] at g2
        cases g2
        obtain ⟨m', c3, c4⟩ := c1 h0
        exact ⟨_, ⟨(r2, m'), c3, rfl⟩, freeS_log c4 h1⟩

theorem fuse2_le (hw : w.Blind vis) {al : Bool} (ha : al = true → w.SameAlloc vis) {a b f : Stmt} {ρ : SEnv} (hp : SibPair al a b) (h : fuse2 a b = some f) :
    Le vis (seq2 w a b ρ) (sem w false f ρ) := by
  obtain ⟨p1, p2, p3⟩ := hp (by rw [h]; rfl)
  rcases fuse2_some h with ⟨H, H', x, y, A, B, rfl, rfl, rfl, hs, hf⟩ | ⟨st, e, ds, ds', x, y, A, B, rfl, rfl, rfl, hd⟩
  · exact fuse2_head_le hw hs (hf p2) (p3 x A y B (H.stmt_decl _ _) (H'.stmt_decl _ _))
  · exact fuse2_alloc_le hw (ha (p1 rfl)) hd p2 (p3 x A y B rfl rfl)

end

/-! ## Sequences -/

section
variable {w : World} {vis : Ev → Bool}

theorem semSeq_cons_le (hw : w.Blind vis) {a a' : Stmt} {ss ss' : List Stmt} {ρ : SEnv} (h : Le vis (sem w false a ρ) (sem w false a' ρ))
    (h0 : a = .undef ↔ a' = .undef) (hs : Le vis (semSeq w ss ρ) (semSeq w ss' ρ)) : Le vis (semSeq w (a :: ss) ρ) (semSeq w (a' :: ss') ρ) := fun l l' r m hl hq => by
  by_cases hu : a = .undef
  · have hu' := h0.1 hu
    subst hu hu'
    exact hs hl hq
  · rw [semSeq_cons (fun e => hu (h0.2 e))]
    rw [semSeq_cons hu] at hq
    obtain ⟨⟨r1, m1⟩, g1, g2⟩ := Option.bind_eq_some_iff.1 hq
    obtain ⟨m', a1, a2⟩ := h hl g1
    rw [a1, Option.bind_some]
    split at g2
    · rename_i h1
      rw [if_pos h1]
      cases g2
      exact ⟨m', rfl, a2⟩
    · rename_i h1
      rw [if_neg h1]
      exact hs a2 g2

theorem semSeq_refl_le (hw : w.Blind vis) {ρ : SEnv} : ∀ (ss : List Stmt), Le vis (semSeq w ss ρ) (semSeq w ss ρ)
  | [] => fun l l' r m hl hq => by
    simp only [semSeq] at hq ⊢
    cases hq
    exact ⟨l', rfl, hl⟩
  | s :: ss => semSeq_cons_le hw (sem_le hw s false ρ) Iff.rfl (semSeq_refl_le hw ss)

end

/-! ## Blocks -/

theorem fuse2_isSome {a b f : Stmt} (h : fuse2 a b = some f) (c : Stmt) : (fuse2 f c).isSome = (fuse2 a c).isSome ∧ f.isAlloc = a.isAlloc ∧
    (f.ParamsLogFree ↔ a.ParamsLogFree) ∧ f.decl?.map Prod.fst = a.decl?.map Prod.fst := by
  unfold fuse2 at h
  split at h <;> first
    | (cases h; done)
    | (split at h
       · cases h
         refine ⟨?_, rfl, Iff.rfl, rfl⟩
         cases c <;> simp only [fuse2] <;> split <;> rfl
       · cases h)

theorem SibPair.fused {al : Bool} {a b f c : Stmt} (h : fuse2 a b = some f) (hp : SibPair al a c) : SibPair al f c := fun hs => by
  obtain ⟨h1, h2, h3, h4⟩ := fuse2_isSome h c
  rw [h1] at hs
  obtain ⟨p1, p2, p3⟩ := hp hs
  rw [h2, h3]
  refine ⟨p1, p2, fun x A y B hx hy => ?_⟩
  rw [hx] at h4
  cases ha : a.decl? with
  | none => rw [ha] at h4; cases h4
  | some q =>
    obtain ⟨x', A'⟩ := q
    rw [ha] at h4
    cases h4
    exact p3 _ _ _ _ ha hy

theorem sibPair_clone {al : Bool} {a : Stmt} {y x : Nat} {B : Stmt} : SibPair al a (.cloneBuffer y x B) := fun h => by
  cases a <;> simp [fuse2] at h

theorem Stmts.sibOK_iff {al : Bool} : ∀ {ss : Stmts}, ss.SibOK al ↔ ∀ s ∈ ss.toList, s.SibOK al
  | .nil => by simp [Stmts.SibOK, Stmts.toList]
  | .cons s ss => by simp [Stmts.SibOK, Stmts.toList, Stmts.sibOK_iff (ss := ss)]

theorem sibOK_last {al : Bool} {A B : Stmt} {x y : Nat} (hA : A.SibOK al) (hB : B.SibOK al) : (blockMake [A, .cloneBuffer y x B]).SibOK al := by
  have key : (flattenBlocks [A, .cloneBuffer y x B]).Pairwise (SibPair al) ∧ ∀ s ∈ flattenBlocks [A, .cloneBuffer y x B], s.SibOK al ∧ (s.defined = true → s.Solid) := by
    have hc : (Stmt.cloneBuffer y x B).SibOK al := hB
    cases A with
    | block ss =>
      obtain ⟨⟨h0, h1⟩, h2, h3⟩ := hA
      simp only [flattenBlocks]
      refine ⟨List.pairwise_append.2 ⟨h2, by simp, fun a _ b hb => ?_⟩, fun s hs => ?_⟩
      · simp only [List.mem_singleton] at hb
        subst hb
        exact sibPair_clone
      · rcases List.mem_append.1 hs with h | h
        · exact ⟨Stmts.sibOK_iff.1 h3 s h, fun _ => h1 s h⟩
        · simp only [List.mem_singleton] at h
          subst h
          exact ⟨hc, fun _ => trivial⟩
    | _ =>
      simp only [flattenBlocks]
      refine ⟨by simpa using sibPair_clone, fun s hs => ?_⟩
      simp only [List.mem_cons, List.not_mem_nil, or_false] at hs
      rcases hs with rfl | rfl
      · refine ⟨hA, fun h => ?_⟩
        first | trivial | cases h
      · exact ⟨hc, fun _ => trivial⟩
  obtain ⟨k1, k2⟩ := key
  have k1' := k1.filter Stmt.defined
  have k2' : ∀ s ∈ eraseUndefs (flattenBlocks [A, .cloneBuffer y x B]), s.SibOK al ∧ s.Solid := fun s hs =>
    ⟨(k2 s (List.mem_filter.1 hs).1).1, (k2 s (List.mem_filter.1 hs).1).2 (List.mem_filter.1 hs).2⟩
  unfold blockMake
  split
  · trivial
  · rename_i s e
    exact (k2' s (by rw [e]; simp)).1
  · rename_i L h0 h1
    refine ⟨⟨?_, ?_⟩, ?_, Stmts.sibOK_iff.2 ?_⟩
    · rw [Stmts.toList_ofList]; exact h0
    · rw [Stmts.toList_ofList]; exact fun s hs => (k2' s hs).2
    · rw [Stmts.toList_ofList]; exact k1'
    · rw [Stmts.toList_ofList]; exact fun s hs => (k2' s hs).1

theorem fuse2_sibOK {al : Bool} {a b f : Stmt} (h : fuse2 a b = some f) (ha : a.SibOK al) (hb : b.SibOK al) : f.SibOK al := by
  unfold fuse2 at h
  split at h <;> first
    | (cases h; done)
    | (split at h
       · cases h
         exact sibOK_last ha hb
       · cases h)

theorem fuse2_defined {a b f : Stmt} (h : fuse2 a b = some f) : f.Solid ∧ f.closure? = none := by
  unfold fuse2 at h
  split at h <;> first
    | (cases h; done)
    | (split at h
       · cases h
         exact ⟨trivial, rfl⟩
       · cases h)

theorem semSeq_fuse_le {w : World} {vis : Ev → Bool} (hw : w.Blind vis) {a b f : Stmt} {ss : List Stmt} {ρ : SEnv} (hf : f ≠ .undef)
    (h : Le vis (seq2 w a b ρ) (sem w false f ρ)) (ha : a ≠ .undef) (hb : b ≠ .undef) :
    Le vis (semSeq w (a :: b :: ss) ρ) (semSeq w (f :: ss) ρ) := fun l l' r m hl hq => by
  rw [semSeq_cons hf]
  rw [semSeq_cons ha] at hq
  obtain ⟨⟨r1, m1⟩, g1, g2⟩ := Option.bind_eq_some_iff.1 hq
  split at g2
  · rename_i h0
    cases g2
    obtain ⟨m', a1, a2⟩ := h hl (by rw [seq2, g1, Option.bind_some, if_pos h0])
    exact ⟨m', by rw [a1, Option.bind_some, if_pos h0], a2⟩
  · rename_i h0
    rw [semSeq_cons hb] at g2
    obtain ⟨⟨r2, m2⟩, g3, g4⟩ := Option.bind_eq_some_iff.1 g2
    obtain ⟨m', a1, a2⟩ := h (r := r2) (m := m2) hl (by rw [seq2, g1, Option.bind_some, if_neg h0]; exact g3)
    rw [a1, Option.bind_some]
    split at g4
    · rename_i h1
      rw [if_pos h1]
      cases g4
      exact ⟨m', rfl, a2⟩
    · rename_i h1
      rw [if_neg h1]
      exact semSeq_refl_le hw ss a2 g4

theorem fuseRun_le {w : World} {vis : Ev → Bool} (hw : w.Blind vis) {al : Bool} (ha : al = true → w.SameAlloc vis) {ρ : SEnv} :
    ∀ (ss : List Stmt) (cur : Stmt), (cur :: ss).Pairwise (SibPair al) → Le vis (semSeq w (cur :: ss) ρ) (semSeq w (fuseRun cur ss) ρ)
  | [], cur, _ => semSeq_refl_le hw _
  | s :: ss, cur, hp => by
    rw [List.pairwise_cons] at hp
    have hp2 := List.pairwise_cons.1 hp.2
    unfold fuseRun
    cases hf : fuse2 cur s with
    | none =>
      simp only
      exact semSeq_cons_le hw (sem_le hw cur false ρ) Iff.rfl (fuseRun_le hw ha ss s hp.2)
    | some f =>
      simp only
      have h2 : (f :: ss).Pairwise (SibPair al) := List.pairwise_cons.2 ⟨fun c hc => (hp.1 c (List.mem_cons_of_mem _ hc)).fused hf, hp2.2⟩
      have hcs : cur ≠ .undef ∧ s ≠ .undef := by
        constructor <;> rintro rfl
        · simp [fuse2] at hf
        · cases cur <;> simp [fuse2] at hf
      have hfd : f ≠ .undef := by
        rintro rfl
        exact (fuse2_defined hf).1
      exact (semSeq_fuse_le hw hfd (fuse2_le hw ha (hp.1 s (by simp)) hf) hcs.1 hcs.2).trans (fuseRun_le hw ha ss f h2)

/-! ## The pass -/

theorem fuseRun_all {al : Bool} : ∀ (ss : List Stmt) (cur : Stmt), (∀ s ∈ cur :: ss, s.SibOK al ∧ s.Solid) → ∀ s ∈ fuseRun cur ss, s.SibOK al ∧ s.Solid
  | [], cur, h => h
  | s :: ss, cur, h => by
    unfold fuseRun
    cases hf : fuse2 cur s with
    | none =>
      simp only
      intro t ht
      rcases List.mem_cons.1 ht with rfl | ht
      · exact h _ (by simp)
      · exact fuseRun_all ss s (fun t ht => h t (List.mem_cons_of_mem _ ht)) t ht
    | some f =>
      simp only
      refine fuseRun_all ss f fun t ht => ?_
      rcases List.mem_cons.1 ht with rfl | ht
      · exact ⟨fuse2_sibOK hf (h cur (by simp)).1 (h s (by simp)).1, (fuse2_defined hf).1⟩
      · exact h t (by simp [ht])

theorem fuseRun_ne : ∀ (ss : List Stmt) (cur : Stmt), fuseRun cur ss ≠ []
  | [], cur => by simp [fuseRun]
  | s :: ss, cur => by
    unfold fuseRun
    cases hf : fuse2 cur s with
    | none => simp
    | some f => exact fuseRun_ne ss f

mutual
theorem Stmt.SibOK.topOk {al : Bool} : ∀ (s : Stmt), s.SibOK al → s.TopOk
  | .lets _ _ _, h => h.1
  | .block ss, h => Stmts.SibOK.topOk ss h.2.2
  | .undef, _ => trivial
  | .call .., _ => trivial
  | .copy .., _ => trivial
  | .loop .., _ => trivial
  | .allocate .., _ => trivial
  | .makeBuffer .., _ => trivial
  | .constantBuffer .., _ => trivial
  | .cloneBuffer .., _ => trivial
  | .cropBuffer .., _ => trivial
  | .cropDim .., _ => trivial
  | .sliceBuffer .., _ => trivial
  | .sliceDim .., _ => trivial
  | .transpose .., _ => trivial
  | .async .., _ => trivial
  | .check .., _ => trivial
theorem Stmts.SibOK.topOk {al : Bool} : ∀ (ss : Stmts), ss.SibOK al → ss.TopOk
  | .nil, _ => trivial
  | .cons s ss, h => ⟨Stmt.SibOK.topOk s h.1, Stmts.SibOK.topOk ss h.2⟩
end

theorem fuseS_topOk {al : Bool} : ∀ (n : Nat) (s : Stmt), s.SibOK al → (fuseS n s).TopOk
  | 0, s, h => Stmt.SibOK.topOk s h
  | n + 1, .block ss, h => by
    rw [fuseS]
    cases e : ss.toList with
    | nil => exact Stmt.SibOK.topOk (.block ss) h
    | cons t rest =>
      refine blockMake_topOk fun u hu => ?_
      obtain ⟨v, hv, rfl⟩ := List.mem_map.1 hu
      refine fuseS_topOk (al := al) n v (fuseRun_all rest t (fun c hc => ?_) v hv).1
      rw [← e] at hc
      exact ⟨Stmts.sibOK_iff.1 h.2.2 c hc, h.1.2 c hc⟩
  | n + 1, .lets _ _ _, h => h.1
  | _ + 1, .undef, _ => trivial
  | _ + 1, .call .., _ => trivial
  | _ + 1, .copy .., _ => trivial
  | _ + 1, .loop .., _ => trivial
  | _ + 1, .allocate .., _ => trivial
  | _ + 1, .makeBuffer .., _ => trivial
  | _ + 1, .constantBuffer .., _ => trivial
  | _ + 1, .cloneBuffer .., _ => trivial
  | _ + 1, .cropBuffer .., _ => trivial
  | _ + 1, .cropDim .., _ => trivial
  | _ + 1, .sliceBuffer .., _ => trivial
  | _ + 1, .sliceDim .., _ => trivial
  | _ + 1, .transpose .., _ => trivial
  | _ + 1, .async .., _ => trivial
  | _ + 1, .check .., _ => trivial

theorem fuseS_solid {al : Bool} : ∀ (n : Nat) (s : Stmt), s.SibOK al → s.Solid → (fuseS n s).Solid
  | 0, s, _, h => h
  | n + 1, .block ss, h, hs => by
    rw [fuseS]
    cases e : ss.toList with
    | nil => exact hs
    | cons t rest =>
      have hall := fuseRun_all (al := al) rest t fun c hc => by
        rw [← e] at hc
        exact ⟨Stmts.sibOK_iff.1 h.2.2 c hc, h.1.2 c hc⟩
      simp only
      cases e2 : fuseRun t rest with
      | nil => exact absurd e2 (fuseRun_ne _ _)
      | cons f fs =>
        rw [e2] at hall
        exact blockMake_solid (fuseS_solid n f (hall f (by simp)).1 (hall f (by simp)).2)
  | n + 1, .undef, _, h => h
  | n + 1, .lets _ _ _, _, _ => trivial
  | _ + 1, .call .., _, _ => trivial
  | _ + 1, .copy .., _, _ => trivial
  | _ + 1, .loop .., _, _ => trivial
  | _ + 1, .allocate .., _, _ => trivial
  | _ + 1, .makeBuffer .., _, _ => trivial
  | _ + 1, .constantBuffer .., _, _ => trivial
  | _ + 1, .cloneBuffer .., _, _ => trivial
  | _ + 1, .cropBuffer .., _, _ => trivial
  | _ + 1, .cropDim .., _, _ => trivial
  | _ + 1, .sliceBuffer .., _, _ => trivial
  | _ + 1, .sliceDim .., _, _ => trivial
  | _ + 1, .transpose .., _, _ => trivial
  | _ + 1, .async .., _, _ => trivial
  | _ + 1, .check .., _, _ => trivial

section
variable {w : World} {vis : Ev → Bool}

theorem forall₂_map_self {α : Type} {R : α → α → Prop} {f : α → α} : ∀ {as : List α}, (∀ a ∈ as, R a (f a)) → List.Forall₂ R as (as.map f)
  | [], _ => .nil
  | a :: as, h => .cons (h a (by simp)) (forall₂_map_self fun b hb => h b (by simp [hb]))

theorem fuseS_le (hw : w.Blind vis) {al : Bool} (ha : al = true → w.SameAlloc vis) : ∀ (n : Nat) (s : Stmt) (ρ : SEnv), s.SibOK al →
    Le vis (sem w false s ρ) (sem w false (fuseS n s) ρ)
  | 0, s, ρ, _ => sem_le hw s false ρ
  | n + 1, .block ss, ρ, h => by
    rw [fuseS]
    cases e : ss.toList with
    | nil => exact sem_le hw _ false ρ
    | cons t rest =>
      have hall := fuseRun_all (al := al) rest t fun c hc => by
        rw [← e] at hc
        exact ⟨Stmts.sibOK_iff.1 h.2.2 c hc, h.1.2 c hc⟩
      have h1 := fuseRun_le hw ha (ρ := ρ) rest t (by rw [← e]; exact h.2.1)
      have h2 : Le vis (semSeq w (fuseRun t rest) ρ) (semSeq w ((fuseRun t rest).map (fuseS n)) ρ) := semSeq_le (forall₂_map_self fun u hu =>
        ⟨(hall u hu).2.ne, (fuseS_solid n u (hall u hu).1 (hall u hu).2).ne, fuseS_le hw ha n u ρ (hall u hu).1⟩)
      have hu : (blockMake ((fuseRun t rest).map (fuseS n))).Solid := by
        cases e2 : fuseRun t rest with
        | nil => exact absurd e2 (fuseRun_ne _ _)
        | cons f fs =>
          rw [e2] at hall
          exact blockMake_solid (fuseS_solid n f (hall f (by simp)).1 (hall f (by simp)).2)
      intro l l' r m hl hf
      simp only [sem] at hf
      have hf := semAll_semSeq hf
      rw [e] at hf
      obtain ⟨m', a1, a2⟩ := h1.trans h2 hl hf
      exact ⟨m', sem_blockMake a1 hu.ne, a2⟩
  | n + 1, .lets bs b c, ρ, h => by
    rw [fuseS]
    exact lets_le hw fun ρ1 _ _ => fuseS_le hw ha n b ρ1 h.2
  | n + 1, .loop x wk i st b, ρ, h => by
    rw [fuseS]
    exact loop_le' hw (Stmt.SibOK.topOk b h).closure? (fuseS_topOk n b h).closure? fun i => fuseS_le hw ha n b _ h
  | n + 1, .allocate x st e ds b, ρ, h => allocate_le hw fun v => fuseS_le hw ha n b _ h
  | n + 1, .makeBuffer x p e ds b, ρ, h => head_le hw (.makeBuffer p e ds) fun v _ _ => fuseS_le hw ha n b _ h
  | n + 1, .constantBuffer x v b, ρ, h => head_le hw (.constantBuffer v) fun v _ _ => fuseS_le hw ha n b _ h
  | n + 1, .cloneBuffer x s b, ρ, h => head_le hw (.cloneBuffer s) fun v _ _ => fuseS_le hw ha n b _ h
  | n + 1, .cropBuffer x s is b, ρ, h => head_le hw (.cropBuffer s is) fun v _ _ => fuseS_le hw ha n b _ h
  | n + 1, .cropDim x s d i b, ρ, h => head_le hw (.cropDim s d i) fun v _ _ => fuseS_le hw ha n b _ h
  | n + 1, .sliceBuffer x s es b, ρ, h => head_le hw (.sliceBuffer s es) fun v _ _ => fuseS_le hw ha n b _ h
  | n + 1, .sliceDim x s d e b, ρ, h => head_le hw (.sliceDim s d e) fun v _ _ => fuseS_le hw ha n b _ h
  | n + 1, .transpose x s ds b, ρ, h => head_le hw (.transpose s ds) fun v _ _ => fuseS_le hw ha n b _ h
  | n + 1, .async x t b, ρ, h => by
    rw [fuseS]
    exact async_le' hw (Stmt.SibOK.topOk t h.1).closure? (fuseS_topOk n t h.1).closure? (Stmt.SibOK.topOk b h.2).closure? (fuseS_topOk n b h.2).closure?
      (fun ρt _ => fuseS_le hw ha n t ρt h.1) fun _ => fuseS_le hw ha n b _ h.2
  | _ + 1, .undef, ρ, _ => sem_le hw _ false ρ
  | _ + 1, .call .., ρ, _ => sem_le hw _ false ρ
  | _ + 1, .copy .., ρ, _ => sem_le hw _ false ρ
  | _ + 1, .check .., ρ, _ => sem_le hw _ false ρ

/-- **`fuse_siblings`**: the pass does not change the result of a program, and what it does is the same except for events that are not visible. If
allocations are fused, allocations are not visible. -/
theorem fuseSiblings_le (hw : w.Blind vis) {al : Bool} (ha : al = true → w.SameAlloc vis) {s : Stmt} (hs : s.SibOK al) (ρ : SEnv) :
    Le vis (sem w false s ρ) (sem w false (fuseSiblings s) ρ) := fuseS_le hw ha _ s ρ hs

end

/-! ## Fuel -/

theorem Stmt.size_pos (s : Stmt) : 1 ≤ s.size := by cases s <;> simp [Stmt.size]

/-- The size of a list. -/
def sizes (ss : List Stmt) : Nat := (ss.map Stmt.size).sum

theorem Stmts.size_eq : ∀ ss : Stmts, ss.size = sizes ss.toList
  | .nil => rfl
  | .cons s ss => by simp [Stmts.size, Stmts.toList, sizes, Stmts.size_eq ss]

/-- The size, and one more if the body of the declaration is not a block. -/
def Stmt.pot (s : Stmt) : Nat := s.size + match s.decl? with
  | some (_, b) => if b.isBlock then 0 else 1
  | none => 0

theorem Stmt.pot_le (s : Stmt) : s.size ≤ s.pot ∧ s.pot ≤ s.size + 1 := by
  unfold Stmt.pot
  split
  · split <;> omega
  · omega

theorem sizes_filter (p : Stmt → Bool) : ∀ ss : List Stmt, sizes (ss.filter p) ≤ sizes ss
  | [] => by simp
  | s :: ss => by
    have := sizes_filter p ss
    simp only [List.filter_cons]
    split <;> simp only [sizes, List.map_cons, List.sum_cons] at this ⊢ <;> omega

theorem last_block (A : Stmt) {y x : Nat} {B : Stmt} (h1 : A.isBlock = false) (h2 : A.defined = true) :
    blockMake [A, .cloneBuffer y x B] = .block (.cons A (.cons (.cloneBuffer y x B) .nil)) := by
  cases A <;> first | rfl | (cases h1; done) | cases h2

theorem last_size (A : Stmt) (y x : Nat) (B : Stmt) : (blockMake [A, .cloneBuffer y x B]).size + (if (blockMake [A, .cloneBuffer y x B]).isBlock then 0 else 1) ≤
    A.size + (if A.isBlock then 0 else 1) + B.size + 1 := by
  have hB := B.size_pos
  cases A with
  | undef =>
    have e : blockMake [.undef, .cloneBuffer y x B] = .cloneBuffer y x B := rfl
    rw [e]; simp [Stmt.size, Stmt.isBlock]; omega
  | block ss =>
    have h1 := sizes_filter Stmt.defined ss.toList
    have e : eraseUndefs (flattenBlocks [.block ss, .cloneBuffer y x B]) = ss.toList.filter Stmt.defined ++ [.cloneBuffer y x B] := by
      simp [flattenBlocks, eraseUndefs, Stmt.defined]
    unfold blockMake
    rw [e]
    cases e2 : ss.toList.filter Stmt.defined with
    | nil => simp [Stmt.size, Stmt.isBlock, Stmts.size_eq]; omega
    | cons t ts =>
      have e3 : sizes (t :: (ts ++ [.cloneBuffer y x B])) = sizes (t :: ts) + (B.size + 1) := by simp [sizes, Stmt.size]; omega
      rw [e2] at h1
      cases e4 : ts ++ [Stmt.cloneBuffer y x B] with
      | nil => simp at e4
      | cons u us =>
        rw [e4] at e3
        simp only [List.cons_append, e4, Stmt.size, Stmt.isBlock, Stmts.size_eq, Stmts.toList_ofList, if_true]
        omega
  | _ => rw [last_block _ (by rfl) (by rfl)]; simp only [Stmt.size, Stmt.isBlock, Stmts.size, if_true]; simp; omega

theorem last_size' (A : Stmt) (y x : Nat) (B : Stmt) :
    (blockMake [A, .cloneBuffer y x B]).size + 1 + (if (blockMake [A, .cloneBuffer y x B]).isBlock then 0 else 1) ≤
      A.size + 1 + (if A.isBlock then 0 else 1) + (B.size + 1) := by
  have := last_size A y x B
  omega

theorem fuse2_pot {a b f : Stmt} (h : fuse2 a b = some f) : f.pot ≤ a.pot + b.size ∧ f.isBlock = false := by
  unfold fuse2 at h
  split at h <;> first
    | (cases h; done)
    | (split at h
       · cases h
         refine ⟨?_, rfl⟩
         simp only [Stmt.pot, Stmt.decl?, Stmt.size]
         exact last_size' _ _ _ _
       · cases h)

theorem fuseRun_pot : ∀ (ss : List Stmt) (cur : Stmt), ∀ v ∈ fuseRun cur ss, v ∈ cur :: ss ∨ (v.isBlock = false ∧ v.size ≤ cur.pot + sizes ss)
  | [], cur, v, hv => Or.inl hv
  | s :: ss, cur, v, hv => by
    unfold fuseRun at hv
    cases hf : fuse2 cur s with
    | none =>
      rw [hf] at hv
      rcases List.mem_cons.1 hv with rfl | hv
      · exact Or.inl (by simp)
      · rcases fuseRun_pot ss s v hv with h | ⟨h1, h2⟩
        · exact Or.inl (List.mem_cons_of_mem _ h)
        · refine Or.inr ⟨h1, ?_⟩
          have := s.pot_le
          have := cur.pot_le
          have := cur.size_pos
          simp only [sizes, List.map_cons, List.sum_cons] at h2 ⊢
          omega
    | some f =>
      rw [hf] at hv
      obtain ⟨p1, p2⟩ := fuse2_pot hf
      rcases fuseRun_pot ss f v hv with h | ⟨h1, h2⟩
      · rcases List.mem_cons.1 h with rfl | h
        · refine Or.inr ⟨p2, ?_⟩
          have := v.pot_le
          simp only [sizes, List.map_cons, List.sum_cons] at p1 ⊢
          omega
        · exact Or.inl (by simp [h])
      · refine Or.inr ⟨h1, ?_⟩
        simp only [sizes, List.map_cons, List.sum_cons] at h2 ⊢
        omega

theorem size_mem {s : Stmt} : ∀ {ss : List Stmt}, s ∈ ss → s.size ≤ sizes ss
  | t :: ss, h => by
    simp only [sizes, List.map_cons, List.sum_cons]
    rcases List.mem_cons.1 h with rfl | h
    · omega
    · have := size_mem h
      simp only [sizes] at this
      omega

theorem Stmt.fuseFuel_le (s : Stmt) : s.fuseFuel ≤ 2 * s.size + 1 := by unfold Stmt.fuseFuel; split <;> omega

/-- There is enough fuel: more makes no difference. -/
theorem fuseS_stable : ∀ (n m : Nat) (s : Stmt), s.fuseFuel ≤ n → s.fuseFuel ≤ m → fuseS n s = fuseS m s
  | 0, m, s, h, _ => by have := s.size_pos; unfold Stmt.fuseFuel at h; omega
  | n + 1, 0, s, _, h => by have := s.size_pos; unfold Stmt.fuseFuel at h; omega
  | n + 1, m + 1, s, hn, hm => by
    have body : ∀ b : Stmt, 2 * b.size + 2 ≤ s.fuseFuel → fuseS n b = fuseS m b := fun b hb => fuseS_stable n m b (by have := b.fuseFuel_le; omega) (by have := b.fuseFuel_le; omega)
    cases s with
    | block ss =>
      simp only [fuseS]
      cases e : ss.toList with
      | nil => rfl
      | cons t rest =>
        simp only
        congr 1
        refine List.map_congr_left fun v hv => ?_
        simp only [Stmt.fuseFuel, Stmt.size, Stmt.isBlock, if_true, Stmts.size_eq, e] at hn hm
        have hv' : v.fuseFuel ≤ 2 * sizes (t :: rest) + 2 := by
          rcases fuseRun_pot rest t v hv with h | ⟨h1, h2⟩
          · have := size_mem h
            have := v.fuseFuel_le
            omega
          · have := t.pot_le
            simp only [sizes, List.map_cons, List.sum_cons] at h2 ⊢
            simp only [Stmt.fuseFuel, h1, Bool.false_eq_true, if_false]
            omega
        exact fuseS_stable n m v (by omega) (by omega)
    | async x t b => simp only [fuseS]; rw [body t (by simp only [Stmt.fuseFuel, Stmt.size]; omega), body b (by simp only [Stmt.fuseFuel, Stmt.size]; omega)]
    | undef => rfl
    | call => rfl
    | copy => rfl
    | check => rfl
    | lets bs b c => simp only [fuseS]; rw [body b (by simp only [Stmt.fuseFuel, Stmt.size]; omega)]
    | loop x wk i st b => simp only [fuseS]; rw [body b (by simp only [Stmt.fuseFuel, Stmt.size]; omega)]
    | allocate x st e ds b => simp only [fuseS]; rw [body b (by simp only [Stmt.fuseFuel, Stmt.size]; omega)]
    | makeBuffer x p e ds b => simp only [fuseS]; rw [body b (by simp only [Stmt.fuseFuel, Stmt.size]; omega)]
    | constantBuffer x v b => simp only [fuseS]; rw [body b (by simp only [Stmt.fuseFuel, Stmt.size]; omega)]
    | cloneBuffer x s b => simp only [fuseS]; rw [body b (by simp only [Stmt.fuseFuel, Stmt.size]; omega)]
    | cropBuffer x s is b => simp only [fuseS]; rw [body b (by simp only [Stmt.fuseFuel, Stmt.size]; omega)]
    | cropDim x s d i b => simp only [fuseS]; rw [body b (by simp only [Stmt.fuseFuel, Stmt.size]; omega)]
    | sliceBuffer x s es b => simp only [fuseS]; rw [body b (by simp only [Stmt.fuseFuel, Stmt.size]; omega)]
    | sliceDim x s d e b => simp only [fuseS]; rw [body b (by simp only [Stmt.fuseFuel, Stmt.size]; omega)]
    | transpose x s ds b => simp only [fuseS]; rw [body b (by simp only [Stmt.fuseFuel, Stmt.size]; omega)]

end Slinky
