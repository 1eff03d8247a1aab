import Verif.ParTasksEx

/-!
# C51: `parallelize_tasks` does not move semaphore operations
-/

namespace Slinky

/-- The operations of semaphores. -/
def Fn.isSemOp : Fn → Prop
  | .semInit => True
  | .semSignal => True
  | .semWait => True
  | _ => False

mutual
/-- An expression has an operation of semaphores. -/
def Expr.HasSem : Expr → Prop
  | .undef => False
  | .var _ _ _ => False
  | .const _ => False
  | .lets bs b => bs.HasSem ∨ b.HasSem
  | .bin _ a b => a.HasSem ∨ b.HasSem
  | .not a => a.HasSem
  | .select c t f => c.HasSem ∨ t.HasSem ∨ f.HasSem
  | .call fn as => fn.isSemOp ∨ as.HasSem
/-- See `Expr.HasSem`. -/
def Exprs.HasSem : Exprs → Prop
  | .nil => False
  | .cons e es => e.HasSem ∨ es.HasSem
/-- See `Expr.HasSem`. -/
def Binds.HasSem : Binds → Prop
  | .nil => False
  | .cons _ e bs => e.HasSem ∨ bs.HasSem
end

/-- An interval has an operation of semaphores. (An interval that is a point has only one expression.) -/
def Interval.HasSem (i : Interval) : Prop := i.min.HasSem ∨ i.maxEnd.HasSem

/-- A dimension has an operation of semaphores. -/
def DimE.HasSem (d : DimE) : Prop := d.bounds.HasSem ∨ d.stride.HasSem ∨ d.fold.HasSem

mutual
/-- A statement has an operation of semaphores (other than in the scalar arguments of calls and the indices of copies). -/
def Stmt.HasSem : Stmt → Prop
  | .undef => False
  | .call .. => False
  | .copy .. => False
  | .check c => c.HasSem
  | .lets bs s _ => bs.HasSem ∨ s.HasSem
  | .block ss => ss.HasSem
  | .loop _ wk b step s => wk.HasSem ∨ b.HasSem ∨ step.HasSem ∨ s.HasSem
  | .allocate _ _ e ds s => e.HasSem ∨ (∃ d ∈ ds, d.HasSem) ∨ s.HasSem
  | .constantBuffer _ _ s => s.HasSem
  | .makeBuffer _ base e ds s => base.HasSem ∨ e.HasSem ∨ (∃ d ∈ ds, d.HasSem) ∨ s.HasSem
  | .cloneBuffer _ _ s => s.HasSem
  | .cropBuffer _ _ bs s => (∃ b ∈ bs, b.HasSem) ∨ s.HasSem
  | .cropDim _ _ _ b s => b.HasSem ∨ s.HasSem
  | .sliceBuffer _ _ es s => (∃ e ∈ es, e.HasSem) ∨ s.HasSem
  | .sliceDim _ _ _ e s => e.HasSem ∨ s.HasSem
  | .transpose _ _ _ s => s.HasSem
  | .async _ t s => t.HasSem ∨ s.HasSem
/-- See `Stmt.HasSem`. -/
def Stmts.HasSem : Stmts → Prop
  | .nil => False
  | .cons s ss => s.HasSem ∨ ss.HasSem
end

mutual
/-- The second statement differs from the first one only in parts that have no operation of semaphores; in particular a block that has one keeps its
statements in order. -/
inductive SemKept : Stmt → Stmt → Prop
  | part (s s' : Stmt) : ¬ s.HasSem → SemKept s s'
  | same (s : Stmt) : SemKept s s
  | lets (bs : Binds) (cl : Bool) {s s' : Stmt} : SemKept s s' → SemKept (.lets bs s cl) (.lets bs s' cl)
  | block (ss : Stmts) (ls : List Stmt) : SemKepts ss ls → SemKept (.block ss) (blockMake ls)
  | loop (x : Nat) (wk : Expr) (b : Interval) (st : Expr) {s s' : Stmt} : SemKept s s' → SemKept (.loop x wk b st s) (.loop x wk b st s')
  | allocate (x : Nat) (k : Storage) (e : Expr) (ds : List DimE) {s s' : Stmt} : SemKept s s' → SemKept (.allocate x k e ds s) (.allocate x k e ds s')
  | constantBuffer (x : Nat) (b : Buf) {s s' : Stmt} : SemKept s s' → SemKept (.constantBuffer x b s) (.constantBuffer x b s')
  | view (b : HBnd) {s s' : Stmt} : SemKept s s' → SemKept (b.plug s) (b.plug s')
  | async (x : Option Nat) {t t' s s' : Stmt} : SemKept t t' → SemKept s s' → SemKept (.async x t s) (.async x t' s')
/-- See `SemKept`. -/
inductive SemKepts : Stmts → List Stmt → Prop
  | nil : SemKepts .nil []
  | cons {s s' : Stmt} {ss : Stmts} {ls : List Stmt} : SemKept s s' → SemKepts ss ls → SemKepts (.cons s ss) (s' :: ls)
end

namespace PT

theorem isBarrier_iff (fn : Fn) : isBarrier fn = true ↔ fn.isSemOp := by
  cases fn <;> simp [isBarrier, Fn.isSemOp] <;> decide

mutual
theorem hasBarrier_iff : ∀ e : Expr, hasBarrier e = true ↔ e.HasSem
  | .undef => by simp [hasBarrier, Expr.HasSem]
  | .var _ _ _ => by simp [hasBarrier, Expr.HasSem]
  | .const _ => by simp [hasBarrier, Expr.HasSem]
  | .lets bs b => by simp [hasBarrier, Expr.HasSem, hasBarrierB_iff bs, hasBarrier_iff b]
  | .bin _ a b => by simp [hasBarrier, Expr.HasSem, hasBarrier_iff a, hasBarrier_iff b]
  | .not a => by simp [hasBarrier, Expr.HasSem, hasBarrier_iff a]
  | .select c t f => by simp [hasBarrier, Expr.HasSem, hasBarrier_iff c, hasBarrier_iff t, hasBarrier_iff f, or_assoc]
  | .call fn as => by simp [hasBarrier, Expr.HasSem, hasBarrierA_iff as, isBarrier_iff]
theorem hasBarrierA_iff : ∀ e : Exprs, hasBarrierA e = true ↔ e.HasSem
  | .nil => by simp [hasBarrierA, Exprs.HasSem]
  | .cons e es => by simp [hasBarrierA, Exprs.HasSem, hasBarrier_iff e, hasBarrierA_iff es]
theorem hasBarrierB_iff : ∀ e : Binds, hasBarrierB e = true ↔ e.HasSem
  | .nil => by simp [hasBarrierB, Binds.HasSem]
  | .cons _ e es => by simp [hasBarrierB, Binds.HasSem, hasBarrier_iff e, hasBarrierB_iff es]
end

theorem visitEs_barrier (A : Aliases) (es : List Expr) : ∀ st : Sets, (visitEs A st es).barrier = true ↔ st.barrier = true ∨ ∃ e ∈ es, e.HasSem := by
  induction es with
  | nil => intro st; simp [visitEs]
  | cons e es ih =>
    intro st
    have := ih (visitE A false st e)
    simp only [visitEs, List.foldl_cons] at this ⊢
    rw [this]
    simp [visitE, hasBarrier_iff, or_assoc]

theorem bindVals_sem : ∀ bs : Binds, (∃ e ∈ bindVals bs, e.HasSem) ↔ bs.HasSem
  | .nil => by simp [bindVals, Binds.HasSem]
  | .cons _ e bs => by simp [bindVals, Binds.HasSem, bindVals_sem bs]

theorem interval_sem (i : Interval) : (∃ e ∈ intervalExprs i, e.HasSem) ↔ i.HasSem := by simp [intervalExprs, Interval.HasSem]

theorem intervals_sem (l : List Interval) : (∃ e ∈ l.flatMap intervalExprs, e.HasSem) ↔ ∃ b ∈ l, b.HasSem := by
  constructor
  · rintro ⟨e, he, h⟩
    obtain ⟨b, hb, hh⟩ := List.mem_flatMap.mp he
    exact ⟨b, hb, (interval_sem b).mp ⟨e, hh, h⟩⟩
  · rintro ⟨b, hb, h⟩
    obtain ⟨e, he, hh⟩ := (interval_sem b).mpr h
    exact ⟨e, List.mem_flatMap.mpr ⟨b, hb, he⟩, hh⟩

theorem dims_sem (l : List DimE) : (∃ e ∈ dimExprs l, e.HasSem) ↔ ∃ b ∈ l, b.HasSem := by
  have key : ∀ d : DimE, (∃ e ∈ intervalExprs d.bounds ++ [d.stride, d.fold], e.HasSem) ↔ d.HasSem := fun d => by
    simp [intervalExprs, DimE.HasSem, Interval.HasSem, or_assoc]
  constructor
  · rintro ⟨e, he, h⟩
    obtain ⟨b, hb, hh⟩ := List.mem_flatMap.mp he
    exact ⟨b, hb, (key b).mp ⟨e, hh, h⟩⟩
  · rintro ⟨b, hb, h⟩
    obtain ⟨e, he, hh⟩ := (key b).mpr h
    exact ⟨e, List.mem_flatMap.mpr ⟨b, hb, he⟩, hh⟩

theorem cons_sem (a : Expr) (l : List Expr) : (∃ e ∈ a :: l, e.HasSem) ↔ a.HasSem ∨ ∃ e ∈ l, e.HasSem := by simp

mutual
theorem visit_barrier (A : Aliases) : ∀ (s : Stmt) (st : Sets), (visit A st s).st.barrier = true ↔ st.barrier = true ∨ s.HasSem
  | .undef, st => by simp [visit, Stmt.HasSem]
  | .call .., st => by simp [visit, Stmt.HasSem]
  | .copy .., st => by simp [visit, Stmt.HasSem]
  | .check c, st => by simp [visit, Stmt.HasSem, visitE, hasBarrier_iff]
  | .lets bs s _, st => by
    simp only [visit, Stmt.HasSem]
    rw [visit_barrier A s, visitEs_barrier, bindVals_sem, or_assoc]
  | .block ss, st => by
    have := visits_barrier A ss st.barrier
    simp only [visit, Stmt.HasSem]
    split
    · split <;> simp only [unionSets, this]
    · simp only [unionSets, this]
  | .loop x wk b step s, st => by
    simp only [visit, Stmt.HasSem]
    rw [visit_barrier A s, visitEs_barrier]
    simp only [intervalExprs, Interval.HasSem, List.cons_append, List.nil_append, List.mem_cons, List.not_mem_nil, or_false, exists_eq_or_imp, exists_eq_left]
    tauto
  | .allocate x k e ds s, st => by
    simp only [visit, Stmt.HasSem, restore]
    rw [visit_barrier A s, visitEs_barrier, cons_sem, dims_sem]
    simp only [hide, or_assoc]
  | .constantBuffer x b s, st => by
    simp only [visit, Stmt.HasSem, restore]
    rw [visit_barrier A s]
    simp only [hide]
  | .makeBuffer x base e ds s, st => by
    simp only [visit, Stmt.HasSem]
    split
    · rw [visit_barrier _ s, visitEs_barrier, cons_sem, cons_sem, dims_sem]
      simp only [or_assoc]
    · simp only [restore]
      rw [visit_barrier _ s, visitEs_barrier, cons_sem, cons_sem, dims_sem]
      simp only [hide, or_assoc]
  | .cloneBuffer x y s, st => by
    simp only [visit, Stmt.HasSem]
    rw [visit_barrier _ s]
  | .cropBuffer x y bs s, st => by
    simp only [visit, Stmt.HasSem]
    rw [visit_barrier _ s, visitEs_barrier, intervals_sem, or_assoc]
  | .cropDim x y d b s, st => by
    simp only [visit, Stmt.HasSem]
    rw [visit_barrier _ s, visitEs_barrier, interval_sem, or_assoc]
  | .sliceBuffer x y es s, st => by
    simp only [visit, Stmt.HasSem]
    rw [visit_barrier _ s, visitEs_barrier, or_assoc]
  | .sliceDim x y d e s, st => by
    simp only [visit, Stmt.HasSem]
    rw [visit_barrier _ s, visitEs_barrier]
    simp [or_assoc]
  | .transpose x y ds s, st => by
    simp only [visit, Stmt.HasSem]
    rw [visit_barrier _ s]
  | .async x t s, st => by
    simp only [visit, Stmt.HasSem]
    rw [visit_barrier A s, visit_barrier A t, or_assoc]
theorem visits_barrier (A : Aliases) : ∀ (ss : Stmts) (b : Bool), (visits A b ss).2 = true ↔ b = true ∨ ss.HasSem
  | .nil, b => by simp [visits, Stmts.HasSem]
  | .cons s ss, b => by
    simp only [visits, Stmts.HasSem]
    rw [visits_barrier A ss, visit_barrier A s, or_assoc]
end

mutual
theorem visit_semKept (A : Aliases) : ∀ (s : Stmt) (st : Sets), SemKept s (visit A st s).s
  | .undef, _ => .same _
  | .call .., _ => .same _
  | .copy .., _ => .same _
  | .check _, _ => .same _
  | .lets bs s cl, st => by
    simp only [visit]
    exact .lets bs cl (visit_semKept A s _)
  | .block ss, st => by
    by_cases h : ss.HasSem
    · have hb : (visits A st.barrier ss).2 = true := (visits_barrier A ss _).mpr (.inr h)
      simp only [visit, hb, if_true]
      split
      · exact .block ss _ (visits_semKept A ss _)
      · exact .same _
    · exact .part _ _ h
  | .loop x wk b step s, st => by
    simp only [visit]
    exact .loop x wk b step (visit_semKept A s _)
  | .allocate x k e ds s, st => by
    simp only [visit]
    exact .allocate x k e ds (visit_semKept A s _)
  | .constantBuffer x b s, st => by
    simp only [visit]
    exact .constantBuffer x b (visit_semKept A s _)
  | .makeBuffer x base e ds s, st => by
    simp only [visit]
    split
    · exact .view (.make x base e ds) (visit_semKept _ s _)
    · exact .view (.make x base e ds) (visit_semKept _ s _)
  | .cloneBuffer x y s, st => by
    simp only [visit]
    exact .view (.clone x y) (visit_semKept _ s _)
  | .cropBuffer x y bs s, st => by
    simp only [visit]
    exact .view (.crop x y bs) (visit_semKept _ s _)
  | .cropDim x y d b s, st => by
    simp only [visit]
    exact .view (.cropD x y d b) (visit_semKept _ s _)
  | .sliceBuffer x y es s, st => by
    simp only [visit]
    exact .view (.slice x y es) (visit_semKept _ s _)
  | .sliceDim x y d e s, st => by
    simp only [visit]
    exact .view (.sliceD x y d e) (visit_semKept _ s _)
  | .transpose x y ds s, st => by
    simp only [visit]
    exact .view (.trans x y ds) (visit_semKept _ s _)
  | .async x t s, st => by
    simp only [visit]
    exact .async x (visit_semKept A t _) (visit_semKept A s _)
theorem visits_semKept (A : Aliases) : ∀ (ss : Stmts) (b : Bool), SemKepts ss ((visits A b ss).1.map (·.body))
  | .nil, _ => .nil
  | .cons s ss, b => by
    simp only [visits, List.map_cons]
    exact .cons (visit_semKept A s _) (visits_semKept A ss _)
end

end PT

/-- C51 for semaphores, for all statements: a block that has an operation of a semaphore keeps its statements, in their order. -/
theorem parallelizeTasks_semKept (s : Stmt) : SemKept s (parallelizeTasks s) := PT.visit_semKept _ s _

/-- The two calls could run at the same time but the block has a semaphore, and so the block stays as it is. -/
theorem parallelizeTasks_semaphore_example (e : Expr) :
    let s := Stmt.block (.ofList [ptCall [4] [5], .check (.call .semWait (.cons (.var 9 .min 0) (.cons e .nil))), ptCall [4] [6]])
    parallelizeTasks s = s := by
  intro s
  have h : (PT.visits (fun _ => none) false (.ofList [ptCall [4] [5], .check (.call .semWait (.cons (.var 9 .min 0) (.cons e .nil))), ptCall [4] [6]])).2 =
      true := (PT.visits_barrier _ _ _).mpr (.inr (by simp [Stmts.ofList, Stmts.HasSem, Stmt.HasSem, Expr.HasSem, Fn.isSemOp]))
  simp only [s, parallelizeTasks, PT.visit, h, if_true]
  rfl

end Slinky
