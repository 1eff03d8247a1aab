import Verif.DeshadowEx

/-!
# C45: how `slide_and_fold_storage` visits loops

A fragment of the pass: statements without buffer declarations (calls, checks, blocks, loops). Nothing can slide or fold there, so the pass should not change anything. `slide_and_fold::visit(const loop*)`
(slide_and_fold_storage.cc:667-720) returns early if nothing changed, without removing the loop from the stack `loops`; then the surrounding loop takes the min of the inner loop for its own.
-/

namespace Slinky

/-- The state of the pass: `bounds.min` of the loops on the stack (the last one first), and the next unused symbol. -/
structure SlideSt where
  loops : List Expr
  next : Nat

mutual
/-- slide_and_fold_storage.cc: `slide_and_fold::mutate` for statements without buffer declarations. The result is `none` if it is the same statement as before (`same_as`).
Simplification: expressions are the same if they are structurally equal. All loops are data parallel, because nothing slides. -/
def slideVisit : Stmt → SlideSt → Option Stmt × SlideSt
  | .block ss, st =>
    let r := slideVisitL ss st
    (r.1.map .block, r.2)
  -- slide_and_fold_storage.cc:667-720
  | .loop x w b s body, st =>
    let orig := st.next
    let r := slideVisit body ⟨b.min :: st.loops, st.next + 1⟩
    let mn := r.2.loops.headD .undef
    if r.1.isNone && decide (mn = b.min) then (none, r.2)
    else
      let l := .loop x w ⟨mn, b.max, false⟩ s (r.1.getD body)
      (some (.lets (.cons orig b.min .nil) l false), ⟨r.2.loops.tail, r.2.next⟩)
  | _, st => (none, st)
/-- The statements of a block. -/
def slideVisitL : Stmts → SlideSt → Option Stmts × SlideSt
  | .nil, st => (none, st)
  | .cons s ss, st =>
    let r := slideVisit s st
    let r' := slideVisitL ss r.2
    (if r.1.isNone && r'.1.isNone then none else some (.cons (r.1.getD s) (r'.1.getD ss)), r'.2)
end

/-- `slide_and_fold_storage(s)`: the stack begins with an empty `loop_info`. `next` is an unused symbol. -/
def slidePass (s : Stmt) (next : Nat) : Stmt := (slideVisit s ⟨[.undef], next⟩).1.getD s

mutual
/-- Only calls, checks and blocks. -/
def Stmt.noLoops : Stmt → Bool
  | .block ss => ss.noLoops
  | .call .. => true
  | .check _ => true
  | _ => false
/-- Without loops. -/
def Stmts.noLoops : Stmts → Bool
  | .nil => true
  | .cons s ss => s.noLoops && ss.noLoops
end

mutual
/-- Calls, checks, blocks and loops; no loop contains a loop. -/
def Stmt.flatLoops : Stmt → Bool
  | .block ss => ss.flatLoops
  | .loop _ _ _ _ b => b.noLoops
  | .call .. => true
  | .check _ => true
  | _ => false
/-- No loop contains a loop. -/
def Stmts.flatLoops : Stmts → Bool
  | .nil => true
  | .cons s ss => s.flatLoops && ss.flatLoops
end

mutual
theorem slideVisit_noLoops : ∀ (s : Stmt) (st : SlideSt), s.noLoops = true → slideVisit s st = (none, st)
  | .block ss, st, h => by
    rw [Stmt.noLoops] at h
    rw [slideVisit, slideVisitL_noLoops ss st h]
    rfl
  | .loop .., _, h => by simp [Stmt.noLoops] at h
  | .call .., _, _ | .check _, _, _ => by rw [slideVisit] <;> simp
  | .undef, _, h | .copy .., _, h | .lets .., _, h | .allocate .., _, h | .makeBuffer .., _, h | .constantBuffer .., _, h | .cloneBuffer .., _, h
  | .cropBuffer .., _, h | .cropDim .., _, h | .sliceBuffer .., _, h | .sliceDim .., _, h | .transpose .., _, h | .async .., _, h => by simp [Stmt.noLoops] at h
theorem slideVisitL_noLoops : ∀ (ss : Stmts) (st : SlideSt), ss.noLoops = true → slideVisitL ss st = (none, st)
  | .nil, _, _ => by rw [slideVisitL]
  | .cons s ss, st, h => by
    rw [Stmts.noLoops, Bool.and_eq_true] at h
    rw [slideVisitL, slideVisit_noLoops s st h.1]
    dsimp only
    rw [slideVisitL_noLoops ss st h.2]
    rfl
end

mutual
theorem slideVisit_flat : ∀ (s : Stmt) (st : SlideSt), s.flatLoops = true → (slideVisit s st).1 = none
  | .block ss, st, h => by
    rw [Stmt.flatLoops] at h
    rw [slideVisit]
    dsimp only
    rw [slideVisitL_flat ss st h]
    rfl
  | .loop x w b s body, st, h => by
    rw [Stmt.flatLoops] at h
    rw [slideVisit, slideVisit_noLoops body _ h]
    simp
  | .call .., _, _ | .check _, _, _ => by rw [slideVisit] <;> simp
  | .undef, _, h | .copy .., _, h | .lets .., _, h | .allocate .., _, h | .makeBuffer .., _, h | .constantBuffer .., _, h | .cloneBuffer .., _, h
  | .cropBuffer .., _, h | .cropDim .., _, h | .sliceBuffer .., _, h | .sliceDim .., _, h | .transpose .., _, h | .async .., _, h => by simp [Stmt.flatLoops] at h
theorem slideVisitL_flat : ∀ (ss : Stmts) (st : SlideSt), ss.flatLoops = true → (slideVisitL ss st).1 = none
  | .nil, _, _ => by rw [slideVisitL]
  | .cons s ss, st, h => by
    rw [Stmts.flatLoops, Bool.and_eq_true] at h
    rw [slideVisitL]
    dsimp only
    rw [slideVisit_flat s st h.1, slideVisitL_flat ss _ h.2]
    rfl
end

/-- C45 (partial): the pass does not change a statement in which nothing can slide or fold, if no loop contains another one. -/
theorem slidePass_flat_partial (s : Stmt) (next : Nat) (h : s.flatLoops = true) : slidePass s next = s := by
  unfold slidePass
  rw [slideVisit_flat s _ h]
  rfl

/-- An example for `slidePass_flat_partial`. -/
theorem slidePass_flat_example : Stmt.flatLoops (.block (.cons (.loop 1 (.const 1) ⟨.const 0, .const 2, false⟩ .undef (.call 7 [] [] [.const 0])) (.cons (.check (.const 1)) .nil))) = true := rfl

/-- C45, counterexample: `for (y = 0; y <= 2; ++y) for (x = 1; x <= 1; ++x) f();` calls `f` three times; after the pass it is called only twice, because the loop over `y` begins
at the min of the loop over `x`. -/
theorem slidePass_nested_counterexample :
    let s : Stmt := .loop 1 (.const 1) ⟨.const 0, .const 2, false⟩ .undef (.loop 2 (.const 1) ⟨.const 1, .const 1, false⟩ .undef (.call 7 [] [] [.const 0]))
    slidePass s 3 = .lets (.cons 3 (.const 0) .nil)
      (.loop 1 (.const 1) ⟨.const 1, .const 2, false⟩ .undef (.loop 2 (.const 1) ⟨.const 1, .const 1, false⟩ .undef (.call 7 [] [] [.const 0]))) false ∧
    sem dsW false s dsEnv [] = some (0, [.call 7 0, .call 7 0, .call 7 0]) ∧ sem dsW false (slidePass s 3) dsEnv [] = some (0, [.call 7 0, .call 7 0]) :=
  ⟨rfl, by decide +kernel, by decide +kernel⟩

end Slinky
