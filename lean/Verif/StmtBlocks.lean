import Verif.Stmt

/-!
# C38: `block::make` keeps the meaning of a sequence of statements
-/

namespace Slinky

/-- Specification: statements one after another until the first error; statements that are not defined do nothing. -/
def execSeq (cfg : Cfg) : List Stmt → St → Option (Int × St)
  | [], st => some (0, st)
  | .undef :: ss, st => execSeq cfg ss st
  | s :: ss, st =>
    match exec cfg s st with
    | none => none
    | some (r, st') => if r = 0 then execSeq cfg ss st' else some (r, st')

theorem exec_undef (cfg : Cfg) (st : St) : exec cfg .undef st = none := by simp [exec, run]

theorem execSeq_cons {cfg : Cfg} {s : Stmt} (h : s ≠ .undef) (ss : List Stmt) (st : St) : execSeq cfg (s :: ss) st =
    match exec cfg s st with
    | none => none
    | some (r, st') => if r = 0 then execSeq cfg ss st' else some (r, st') := by
  cases s <;> first | rfl | exact absurd rfl h

theorem execSeq_append (cfg : Cfg) : ∀ (a b : List Stmt) (st : St), execSeq cfg (a ++ b) st =
    match execSeq cfg a st with
    | none => none
    | some (r, st') => if r = 0 then execSeq cfg b st' else some (r, st')
  | [], b, st => by simp [execSeq]
  | s :: a, b, st => by
    by_cases h : s = .undef
    · subst h; simp only [List.cons_append, execSeq]; exact execSeq_append cfg a b st
    · rw [List.cons_append, execSeq_cons h, execSeq_cons h]
      cases exec cfg s st with
      | none => rfl
      | some p =>
        obtain ⟨r, st'⟩ := p
        simp only
        split
        · exact execSeq_append cfg a b st'
        · rename_i h0; simp [h0]

theorem runAll_execSeq (cfg : Cfg) : ∀ (ss : Stmts) (st : St) (p : Int × St), runAll cfg ss st = some p → execSeq cfg ss.toList st = some p
  | .nil, st, p, h => by simpa [runAll, execSeq, Stmts.toList] using h
  | .cons s ss, st, p, h => by
    simp only [runAll, Option.bind_eq_bind, Option.bind_eq_some_iff, Prod.exists] at h
    obtain ⟨r, st1, h1, h2⟩ := h
    have hs : s ≠ .undef := by rintro rfl; simp [run] at h1
    rw [Stmts.toList, execSeq_cons hs, exec, h1]
    simp only
    split at h2
    · rename_i h0; rw [if_neg h0, h2]
    · rename_i h0; rw [if_pos (by simpa using h0)]; exact runAll_execSeq cfg ss st1 p h2

/-- What `flattenBlocks` does with a statement. -/
def Stmt.flat : Stmt → List Stmt
  | .block b => b.toList
  | s => [s]

theorem execSeq_flatten (cfg : Cfg) : ∀ (ss : List Stmt) (st : St) (p : Int × St), execSeq cfg ss st = some p → execSeq cfg (flattenBlocks ss) st = some p
  | [], _, _, h => h
  | s :: ss, st, p, h => by
    by_cases hu : s = .undef
    · subst hu
      simp only [flattenBlocks, execSeq] at h ⊢
      exact execSeq_flatten cfg ss st p h
    · rw [execSeq_cons hu] at h
      cases h1 : exec cfg s st with
      | none => rw [h1] at h; cases h
      | some q =>
        obtain ⟨r, st'⟩ := q
        rw [h1] at h
        simp only at h
        have key : execSeq cfg s.flat st = some (r, st') := by
          cases s with
          | block b => exact runAll_execSeq cfg b st _ (by simpa [exec, run] using h1)
          | undef => exact absurd rfl hu
          | _ => simp only [Stmt.flat]; rw [execSeq_cons (by simp), h1]; simp only; split <;> simp_all [execSeq]
        have hfl : flattenBlocks (s :: ss) = s.flat ++ flattenBlocks ss := by
          cases s <;> simp [flattenBlocks, Stmt.flat]
        rw [hfl, execSeq_append, key]
        simp only
        split at h
        · rename_i h0; rw [if_pos h0]; exact execSeq_flatten cfg ss st' p h
        · rename_i h0; rw [if_neg h0, h]

theorem execSeq_erase (cfg : Cfg) : ∀ (ss : List Stmt) (st : St), execSeq cfg (eraseUndefs ss) st = execSeq cfg ss st
  | [], _ => rfl
  | s :: ss, st => by
    by_cases hu : s = .undef
    · subst hu; simp only [eraseUndefs, List.filter, Stmt.defined, execSeq]; exact execSeq_erase cfg ss st
    · have : eraseUndefs (s :: ss) = s :: eraseUndefs ss := by
        cases s <;> first | rfl | exact absurd rfl hu
      rw [this, execSeq_cons hu, execSeq_cons hu]
      cases exec cfg s st with
      | none => rfl
      | some p =>
        simp only
        split
        · exact execSeq_erase cfg ss _
        · rfl

theorem execSeq_runAll (cfg : Cfg) : ∀ (ss : List Stmt) (st : St), (∀ s ∈ ss, s ≠ .undef) → runAll cfg (.ofList ss) st = execSeq cfg ss st
  | [], _, _ => rfl
  | s :: ss, st, h => by
    rw [execSeq_cons (h s (by simp)), Stmts.ofList, runAll, exec]
    cases run cfg false s st with
    | none => rfl
    | some p =>
      simp only [Option.bind_eq_bind, Option.bind_some]
      by_cases h0 : p.1 = 0
      · simp [h0, execSeq_runAll cfg ss p.2 (fun s hs => h s (by simp [hs]))]
      · simp [h0]

/-- **C38.** The statement that `block::make` makes of a sequence of statements (some of them blocks, some not defined) does what the statements do one
after another; if it makes no statement, they do nothing. -/
theorem blockMake_correct (cfg : Cfg) (ss : List Stmt) (st : St) (p : Int × St) (h : execSeq cfg ss st = some p) :
    execSeq cfg [blockMake ss] st = some p ∧ (blockMake ss ≠ .undef → exec cfg (blockMake ss) st = some p) := by
  have h1 : execSeq cfg (eraseUndefs (flattenBlocks ss)) st = some p := by rw [execSeq_erase]; exact execSeq_flatten cfg ss st p h
  have hd : ∀ s ∈ eraseUndefs (flattenBlocks ss), s ≠ .undef := by
    intro s hs
    simp only [eraseUndefs, List.mem_filter] at hs
    rintro rfl
    simp [Stmt.defined] at hs
  have key : execSeq cfg [blockMake ss] st = some p := by
    unfold blockMake
    split
    · rename_i e; rw [e] at h1; simpa [execSeq] using h1
    · rename_i e; rw [e] at h1; exact h1
    · rename_i l _ _
      rw [execSeq_cons (by simp), exec, run, execSeq_runAll cfg _ st hd, h1]
      obtain ⟨r, st'⟩ := p
      by_cases h0 : r = 0 <;> simp [h0, execSeq]
  refine ⟨key, fun hu => ?_⟩
  rw [execSeq_cons hu] at key
  cases e : exec cfg (blockMake ss) st with
  | none => rw [e] at key; cases key
  | some q =>
    rw [e] at key
    obtain ⟨r, st'⟩ := q
    by_cases h0 : r = 0 <;> simpa [h0, execSeq] using key

/-- **C38** for two statements. -/
theorem blockMake2_correct (cfg : Cfg) (a b : Stmt) (st : St) (p : Int × St) (h : execSeq cfg [a, b] st = some p) : execSeq cfg [blockMake2 a b] st = some p := by
  have ud : ∀ s : Stmt, s.defined = false → s = .undef := by intro s; cases s <;> simp [Stmt.defined]
  unfold blockMake2
  split
  · rename_i ha
    have := ud a (by simpa using ha)
    subst this
    simpa [execSeq] using h
  · split
    · rename_i ha hb
      have := ud b (by simpa using hb)
      subst this
      have ha2 : a ≠ .undef := by rintro rfl; simp [Stmt.defined] at ha
      rw [execSeq_cons ha2] at h ⊢
      simpa [execSeq] using h
    · exact (blockMake_correct cfg _ st p h).1

/-- **C38** for a statement after others. -/
theorem blockMakeTail_correct (cfg : Cfg) (ss : List Stmt) (t : Stmt) (st : St) (p : Int × St) (h : execSeq cfg (ss ++ [t]) st = some p) :
    execSeq cfg [blockMakeTail ss t] st = some p := (blockMake_correct cfg _ st p h).1

end Slinky
