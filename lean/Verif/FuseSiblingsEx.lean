import Verif.FuseSiblings
import Verif.OptSymbolsThm
import Verif.DeshadowEx

/-!
# `fuse_siblings` does not change what a program does: theorems and examples
-/

namespace Slinky

/-! ## Conditions of the evaluator -/

theorem fuse2_wf {a b f : Stmt} (h : fuse2 a b = some f) (ha : a.WF) (hb : b.WF) : f.WF := by
  have key : ∀ {A B : Stmt} {x y : Nat}, A.WF → B.WF → (blockMake [A, .cloneBuffer y x B]).WF := fun hA hB => blockMake_wf' fun s hs => by
    simp only [List.mem_cons, List.not_mem_nil, or_false] at hs
    rcases hs with rfl | rfl
    · exact hA
    · simpa only [Stmt.WF] using hB
  unfold fuse2 at h
  split at h <;> first
    | (cases h; done)
    | (split at h
       · cases h
         simp only [Stmt.WF] at ha hb ⊢
         first
           | exact ⟨ha.1, ha.2.1, ha.2.2.1, key ha.2.2.2 hb.2.2.2⟩
           | exact ⟨ha.1, ha.2.1, key ha.2.2 hb.2.2⟩
           | exact ⟨ha.1, key ha.2 hb.2⟩
           | exact key ha hb
       · cases h)

theorem fuseRun_wf : ∀ (ss : List Stmt) (cur : Stmt), (∀ s ∈ cur :: ss, s.WF) → ∀ s ∈ fuseRun cur ss, s.WF
  | [], cur, h => h
  | s :: ss, cur, h => by
    unfold fuseRun
    cases hf : fuse2 cur s with
    | none =>
      intro t ht
      rcases List.mem_cons.1 ht with rfl | ht
      · exact h _ (by simp)
      · exact fuseRun_wf ss s (fun t ht => h t (List.mem_cons_of_mem _ ht)) t ht
    | some f =>
      refine fuseRun_wf ss f fun t ht => ?_
      rcases List.mem_cons.1 ht with rfl | ht
      · exact fuse2_wf hf (h cur (by simp)) (h s (by simp))
      · exact h t (by simp [ht])

theorem fuseS_wf : ∀ (n : Nat) (s : Stmt), s.WF → (fuseS n s).WF
  | 0, s, h => h
  | n + 1, s, h => by
    cases s with
    | block ss =>
      simp only [fuseS]
      cases e : ss.toList with
      | nil => exact h
      | cons t rest =>
        refine blockMake_wf' fun u hu => ?_
        obtain ⟨v, hv, rfl⟩ := List.mem_map.1 hu
        refine fuseS_wf n v (fuseRun_wf rest t (fun c hc => ?_) v hv)
        rw [← e] at hc
        simp only [Stmt.WF] at h
        exact Stmts.wf_iff.1 h c hc
    | undef => exact h
    | call => exact h
    | copy => exact h
    | check => exact h
    | _ =>
      simp only [Stmt.WF, fuseS] at h ⊢
      first
        | exact ⟨h.1, h.2.1, h.2.2.1, fuseS_wf n _ h.2.2.2⟩
        | exact ⟨h.1, h.2.1, fuseS_wf n _ h.2.2⟩
        | exact ⟨fuseS_wf n _ h.1, fuseS_wf n _ h.2⟩
        | exact ⟨h.1, fuseS_wf n _ h.2⟩
        | exact fuseS_wf n _ h

/-! ## Theorems -/

/-- C43: if no allocations are fused, then the program after `fuse_siblings` does the same. -/
theorem fuseSiblings_sem_partial {s : Stmt} (hs : s.SibOK false) (w : World) (ρ : SEnv) {l : List Ev} {r : Int × List Ev} (h : sem w false s ρ l = some r) :
    sem w false (fuseSiblings s) ρ l = some r := by
  obtain ⟨m', h1, h2⟩ := fuseSiblings_le w.blind_all (al := false) (by simp) hs ρ (LogEq.refl _ l) h
  rw [logEq_all] at h2
  rw [h1, ← h2]

/-- Everything except allocations. -/
def Ev.notAlloc : Ev → Bool
  | .alloc .. => false
  | .free .. => false
  | _ => true

/-- C43: if allocations are fused, then the program does the same, except that it allocates less. The world gives the same address to all
allocations of a buffer, and looks neither at the allocations, nor at the contents of the memory. -/
theorem fuseSiblings_alloc_partial {s : Stmt} (hs : s.SibOK true) {w : World} (hw : w.Blind Ev.notAlloc) (ha : ∀ b l l', w.allocate b l = w.allocate b l')
    (hst : ∀ l l', w.stackAddr l = w.stackAddr l') (ρ : SEnv) {l : List Ev} {r : Int} {m : List Ev} (h : sem w false s ρ l = some (r, m)) :
    ∃ m', sem w false (fuseSiblings s) ρ l = some (r, m') ∧ m.filter Ev.notAlloc = m'.filter Ev.notAlloc :=
  fuseSiblings_le hw (fun _ => ⟨ha, hst, fun _ _ => rfl, fun _ _ => rfl⟩) hs ρ (LogEq.refl _ l) h

/-- C43: the evaluator does the same. -/
theorem fuseSiblings_exec_partial {s : Stmt} (hs : s.SibOK false) (hw : s.WF) (w : World) (g : Env) {st : St} {ρ : SEnv} (hR : StRel st ρ) {r : Int}
    {l' : List Ev} (h : sem w false s ρ st.alog = some (r, l')) :
    ∃ st1 st2, exec (cfgOf w g) s st = some (r, st1) ∧ exec (cfgOf w g) (fuseSiblings s) st = some (r, st2) ∧
      st1.log.map Ev.anon = l' ∧ st2.log.map Ev.anon = l' ∧ st1.objs = st.objs ∧ st2.objs = st.objs := by
  obtain ⟨st1, h1, h2, h3, _⟩ := exec_sem w g hw hR h
  obtain ⟨st2, h4, h5, h6, _⟩ := exec_sem w g (fuseS_wf _ s hw) hR (fuseSiblings_sem_partial hs w ρ h)
  exact ⟨st1, st2, h1, h4, h2, h5, h3, h6⟩

/-- C43: after the pass over a block, no statement declares the same buffer as the statement before it. -/
theorem fuseRun_complete : ∀ (ss : List Stmt) (cur : Stmt), (fuseRun cur ss).IsChain fun a b => fuse2 a b = none
  | [], cur => by simp [fuseRun]
  | s :: ss, cur => by
    unfold fuseRun
    cases hf : fuse2 cur s with
    | some f => exact fuseRun_complete ss f
    | none =>
      have h := fuseRun_complete ss s
      have hd : ∀ (ss : List Stmt) (s : Stmt), fuse2 cur s = none → ∀ t ∈ (fuseRun s ss).head?, fuse2 cur t = none := by
        intro ss
        induction ss with
        | nil => intro s h t ht; simp only [fuseRun, List.head?_cons, Option.mem_def, Option.some.injEq] at ht; rw [← ht]; exact h
        | cons u us ih =>
          intro s h t ht
          unfold fuseRun at ht
          cases hu : fuse2 s u with
          | none => rw [hu] at ht; simp only [List.head?_cons, Option.mem_def, Option.some.injEq] at ht; rw [← ht]; exact h
          | some f =>
            rw [hu] at ht
            refine ih f ?_ t ht
            unfold fuse2 at hu
            split at hu <;> first
              | (cases hu; done)
              | (split at hu
                 · cases hu
                   cases cur <;> first | rfl | (simp only [fuse2] at h ⊢; split at h <;> first | (cases h; done) | (rename_i hc; rw [if_neg hc]))
                 · cases hu)
      exact List.isChain_cons.2 ⟨hd ss s hf, h⟩

/-! ## Examples -/

/-- Crops of dimension 0 of the buffer 0 to [1, 2], with the name `x`. -/
def sibCrop (x : Nat) (b : Stmt) : Stmt := .cropDim x 0 0 ⟨.const 1, .bin .add (.const 1) (.const 1), false⟩ b

/-- Three crops, with two equal slices in the first one and in the last one. -/
def sibStmt : Stmt := .block (.cons
  (sibCrop 1 (.block (.cons (.sliceDim 2 1 0 (.var 1 .min 0) (.call 7 [] [2] [.const 5])) (.cons (.sliceDim 3 1 0 (.var 1 .min 0) (.call 8 [1] [3] [.const 5])) .nil))))
  (.cons (sibCrop 4 (.call 9 [0] [4] [.const 1])) (.cons (sibCrop 1 (.call 7 [0] [1] [.const 1])) .nil)))

/-- The result: one crop with four statements. -/
theorem sibStmt_fused : fuseSiblings sibStmt = sibCrop 1 (.block (.cons
    (.sliceDim 2 1 0 (.var 1 .min 0) (.block (.cons (.call 7 [] [2] [.const 5]) (.cons (.cloneBuffer 3 2 (.call 8 [1] [3] [.const 5])) .nil))))
    (.cons (.cloneBuffer 4 1 (.call 9 [0] [4] [.const 1])) (.cons (.cloneBuffer 1 1 (.call 7 [0] [1] [.const 1])) .nil)))) := rfl

theorem sibPair_intro {al : Bool} {a b A B : Stmt} {x y : Nat} (ha : a.decl? = some (x, A)) (hb : b.decl? = some (y, B)) (h1 : a.isAlloc = true → al = true)
    (h2 : a.ParamsLogFree) (h3 : x = y ∨ (¬ B.Free x ∧ B.BufOK ∧ B.ClosOK)) : SibPair al a b := fun _ => ⟨h1, h2, fun x' A' y' B' ha' hb' => by
  rw [ha] at ha'
  rw [hb] at hb'
  cases ha'
  cases hb'
  exact h3⟩

/-- The hypotheses are met. -/
theorem sibStmt_ok : sibStmt.SibOK false := by
  have c : ∀ (x y : Nat) (A B : Stmt), x = y ∨ (¬ B.Free x ∧ B.BufOK ∧ B.ClosOK) → SibPair false (sibCrop x A) (sibCrop y B) := fun x y A B h =>
    sibPair_intro rfl rfl (by simp [sibCrop, Stmt.isAlloc]) (by simp [sibCrop, Stmt.ParamsLogFree, Interval.LogFree, Expr.LogFree]) h
  have d : SibPair false (.sliceDim 2 1 0 (.var 1 .min 0) (.call 7 [] [2] [.const 5])) (.sliceDim 3 1 0 (.var 1 .min 0) (.call 8 [1] [3] [.const 5])) :=
    sibPair_intro rfl rfl (by simp [Stmt.isAlloc]) (by simp [Stmt.ParamsLogFree, Expr.LogFree])
      (Or.inr ⟨by rintro ⟨_ | p, h⟩ <;> simp [Stmt.Uses, ReadsO, Reads] at h, by simp [Stmt.BufOK, Expr.BufOK], by simp [Stmt.ClosOK]⟩)
  have c1 := c 1 4 (.block (.cons (.sliceDim 2 1 0 (.var 1 .min 0) (.call 7 [] [2] [.const 5])) (.cons (.sliceDim 3 1 0 (.var 1 .min 0) (.call 8 [1] [3] [.const 5])) .nil)))
    (.call 9 [0] [4] [.const 1]) (Or.inr ⟨by rintro ⟨_ | p, h⟩ <;> simp [Stmt.Uses, ReadsO, Reads] at h, by simp [Stmt.BufOK, Expr.BufOK], by simp [Stmt.ClosOK]⟩)
  have c2 := c 1 1 (.block (.cons (.sliceDim 2 1 0 (.var 1 .min 0) (.call 7 [] [2] [.const 5])) (.cons (.sliceDim 3 1 0 (.var 1 .min 0) (.call 8 [1] [3] [.const 5])) .nil)))
    (.call 7 [0] [1] [.const 1]) (Or.inl rfl)
  have c3 := c 4 1 (.call 9 [0] [4] [.const 1]) (.call 7 [0] [1] [.const 1])
    (Or.inr ⟨by rintro ⟨_ | p, h⟩ <;> simp [Stmt.Uses, ReadsO, Reads] at h, by simp [Stmt.BufOK, Expr.BufOK], by simp [Stmt.ClosOK]⟩)
  simp only [sibCrop] at c1 c2 c3
  simp only [sibStmt, sibCrop, Stmt.SibOK, Stmts.SibOK, Stmts.toList, List.pairwise_cons, List.mem_cons, List.not_mem_nil, or_false, forall_eq_or_imp, forall_eq, Stmt.Solid]
  simp [c1, c2, c3, d]

/-- The meaning, before and after. -/
theorem sibStmt_sem : sem dsW false sibStmt dsEnv [] = some (0, [.call 7 0, .call 9 0, .call 8 0, .call 7 0]) ∧
    sem dsW false (fuseSiblings sibStmt) dsEnv [] = some (0, [.call 7 0, .call 9 0, .call 8 0, .call 7 0]) := by
  have h : sem dsW false sibStmt dsEnv [] = some (0, [.call 7 0, .call 9 0, .call 8 0, .call 7 0]) := by decide +kernel
  exact ⟨h, fuseSiblings_sem_partial sibStmt_ok _ _ h⟩

/-- Two allocations of the same buffer, on the heap. -/
def sibAlloc : Stmt := .block (.cons (.allocate 1 .heap (.const 4) [⟨⟨.const 0, .const 3, false⟩, .undef, .undef⟩] (.call 7 [] [1] [.const 0]))
  (.cons (.allocate 2 .heap (.const 4) [⟨⟨.const 0, .const 3, false⟩, .undef, .undef⟩] (.call 8 [0] [2] [.const 0])) .nil))

/-- The hypotheses are met; there is one allocation after the pass. -/
theorem sibAlloc_ok : sibAlloc.SibOK true ∧ sem dsW false sibAlloc dsEnv [] = some (0, [.free 0 77, .call 8 0, .alloc 0 77, .free 0 77, .call 7 0, .alloc 0 77]) ∧
    sem dsW false (fuseSiblings sibAlloc) dsEnv [] = some (0, [.free 0 77, .call 8 0, .call 7 0, .alloc 0 77]) ∧ dsW.Blind Ev.notAlloc ∧
    (∀ b l l', dsW.allocate b l = dsW.allocate b l') ∧ ∀ l l', dsW.stackAddr l = dsW.stackAddr l' := by
  refine ⟨?_, by decide +kernel, by decide +kernel, ?_, fun _ _ _ => rfl, fun _ _ => rfl⟩
  · have c : SibPair true (.allocate 1 .heap (.const 4) [⟨⟨.const 0, .const 3, false⟩, .undef, .undef⟩] (.call 7 [] [1] [.const 0]))
        (.allocate 2 .heap (.const 4) [⟨⟨.const 0, .const 3, false⟩, .undef, .undef⟩] (.call 8 [0] [2] [.const 0])) :=
      sibPair_intro rfl rfl (by simp) (by simp [Stmt.ParamsLogFree, Expr.LogFree, DimE.LogFree, Interval.LogFree])
        (Or.inr ⟨by rintro ⟨_ | p, h⟩ <;> simp [Stmt.Uses, ReadsO, Reads] at h, by simp [Stmt.BufOK, Expr.BufOK], by simp [Stmt.ClosOK]⟩)
    simp only [sibAlloc, Stmt.SibOK, Stmts.SibOK, Stmts.toList, List.pairwise_cons, List.mem_cons, List.not_mem_nil, or_false, forall_eq_or_imp, forall_eq, Stmt.Solid]
    simp [c]
  · constructor <;> intros <;> rfl

/-- **A candidate bug**: `fuse_siblings` does not look whether the symbol of the first declaration is used in the body of the second one. Here, the
first crop is in place, and the second body uses the buffer that is not cropped. After the pass, it uses the cropped buffer: the result of the
program changes. -/
theorem fuseSiblings_capture_counterexample :
    (let s : Stmt := .block (.cons (sibCrop 0 (.call 7 [] [0] [.const 1])) (.cons (sibCrop 1 (.call 8 [1] [0] [.const 0])) .nil))
     fuseSiblings s = sibCrop 0 (.block (.cons (.call 7 [] [0] [.const 1]) (.cons (.cloneBuffer 1 0 (.call 8 [1] [0] [.const 0])) .nil))) ∧
     sem dsW false s dsEnv [] = some (0, [.call 8 0, .call 7 0]) ∧ sem dsW false (fuseSiblings s) dsEnv [] = some (-1, [.call 8 (-1), .call 7 0]) ∧
     (exec (cfgOf dsW fun _ => 0) s dsSt).map Prod.fst = some 0 ∧ (exec (cfgOf dsW fun _ => 0) (fuseSiblings s) dsSt).map Prod.fst = some (-1)) :=
  ⟨rfl, by decide +kernel, by decide +kernel, by decide +kernel, by decide +kernel⟩

/-- A world whose calls in expressions count what was done before. -/
def sibW : World := { dsW with host := fun _ _ l => l.length }

/-- Parameters that call a function of the world: the second crop was made when the function gives another value. -/
theorem fuseSiblings_call_counterexample :
    (let c (x : Nat) (b : Stmt) : Stmt := .cropDim x 0 0 ⟨.call (.user 0) .nil, .const 3, false⟩ b
     let s : Stmt := .block (.cons (c 1 (.call 7 [] [1] [.const 0])) (.cons (c 2 (.call 8 [] [2] [.const 1])) .nil))
     sem sibW false s dsEnv [] = some (0, [.call 8 0, .call 7 0]) ∧ sem sibW false (fuseSiblings s) dsEnv [] = some (1, [.call 8 1, .call 7 0])) :=
  ⟨by decide +kernel, by decide +kernel⟩

end Slinky
