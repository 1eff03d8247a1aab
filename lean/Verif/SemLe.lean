import Verif.SemStmt
import Verif.RenameStmt

/-!
# Programs that do the same, up to events that are not observed

The passes of the builder replace statements by statements that do the same. This file has the congruence lemmas that are needed to prove that: a
declaration, loop, ... does the same if its body does the same. "The same" is up to events that are not visible (`vis`), in a world that does not
look at them (`World.Blind`). If all events are visible, every world is blind.
-/

namespace Slinky

/-! ## Logs and worlds -/

/-- The logs are the same, except for events that are not visible. -/
def LogEq (vis : Ev → Bool) (l l' : List Ev) : Prop := l.filter vis = l'.filter vis

theorem LogEq.refl (vis : Ev → Bool) (l : List Ev) : LogEq vis l l := rfl
theorem LogEq.symm {vis : Ev → Bool} {l l' : List Ev} (h : LogEq vis l l') : LogEq vis l' l := Eq.symm h
theorem LogEq.trans {vis : Ev → Bool} {l l' l'' : List Ev} (h : LogEq vis l l') (h' : LogEq vis l' l'') : LogEq vis l l'' := Eq.trans h h'
theorem LogEq.cons {vis : Ev → Bool} {l l' : List Ev} (h : LogEq vis l l') (e : Ev) : LogEq vis (e :: l) (e :: l') := by
  unfold LogEq at *
  rw [List.filter_cons, List.filter_cons, h]
theorem LogEq.hide {vis : Ev → Bool} {l l' : List Ev} (h : LogEq vis l l') {e : Ev} (he : vis e = false) : LogEq vis (e :: l) l' := by
  unfold LogEq at *
  rw [List.filter_cons, he, h]; rfl
theorem logEq_all {l l' : List Ev} : LogEq (fun _ => true) l l' ↔ l = l' := by simp [LogEq]

/-- The world does not look at the events that are not visible. -/
structure World.Blind (w : World) (vis : Ev → Bool) : Prop where
  call : ∀ t is os xs l l', LogEq vis l l' → w.call t is os xs l = w.call t is os xs l'
  host : ∀ fn xs l l', LogEq vis l l' → w.host fn xs l = w.host fn xs l'
  allocate : ∀ b l l', LogEq vis l l' → w.allocate b l = w.allocate b l'
  stackAddr : ∀ l l', LogEq vis l l' → w.stackAddr l = w.stackAddr l'
  sched : ∀ l l', LogEq vis l l' → w.sched l = w.sched l'
  taskFirst : ∀ l l', LogEq vis l l' → w.taskFirst l = w.taskFirst l'
  taskLate : ∀ l l', LogEq vis l l' → w.taskLate l = w.taskLate l'
  taskHandle : ∀ l l', LogEq vis l l' → w.taskHandle l = w.taskHandle l'

theorem World.blind_all (w : World) : w.Blind fun _ => true := by
  constructor <;> intros <;> simp_all [logEq_all]

/-! ## Expressions -/

/-- Calls whose value does not depend on the world. -/
def Fn.logFree : Fn → Bool
  | .andThen => true | .orElse => true | .abs => true | .bufferAt => true | .validateBuffer => true
  | _ => false

mutual
/-- The value of the expression does not depend on the world: no calls of the world in it. -/
def Expr.LogFree : Expr → Prop
  | .lets bs b => bs.LogFree ∧ b.LogFree
  | .bin _ a b => a.LogFree ∧ b.LogFree
  | .not a => a.LogFree
  | .select c t f => c.LogFree ∧ t.LogFree ∧ f.LogFree
  | .call fn as => fn.logFree = true ∧ as.LogFree
  | _ => True
/-- See `Expr.LogFree`. -/
def Exprs.LogFree : Exprs → Prop
  | .nil => True
  | .cons e es => e.LogFree ∧ es.LogFree
/-- See `Expr.LogFree`. -/
def Binds.LogFree : Binds → Prop
  | .nil => True
  | .cons _ e bs => e.LogFree ∧ bs.LogFree
end

/-- See `Expr.LogFree`. -/
def Interval.LogFree (i : Interval) : Prop := i.min.LogFree ∧ i.max.LogFree
/-- See `Expr.LogFree`. -/
def DimE.LogFree (d : DimE) : Prop := d.bounds.LogFree ∧ d.stride.LogFree ∧ d.fold.LogFree

/-- The world gives the same values at both logs. -/
def HostEq (w : World) (l l' : List Ev) : Prop := ∀ fn xs, w.host fn xs l = w.host fn xs l'

theorem World.Blind.hostEq {w : World} {vis : Ev → Bool} (hb : w.Blind vis) {l l' : List Ev} (h : LogEq vis l l') : HostEq w l l' :=
  fun fn xs => hb.host fn xs l l' h

section
variable {w : World} {l l' : List Ev}

theorem callS_log {fn : Fn} (h : HostEq w l l' ∨ fn = .bufferAt ∨ fn = .validateBuffer) (vs : List (Option Val)) : callS w l fn vs = callS w l' fn vs := by
  rcases h with h | h | h
  · unfold callS
    split <;> first | rfl | simp only [h _ _]
  · subst h
    unfold callS
    split <;> first | rfl | simp_all
  · subst h
    unfold callS
    split <;> first | rfl | simp_all

mutual
theorem evalS_log : ∀ (e : Expr) (ρ : SEnv), HostEq w l l' ∨ e.LogFree → evalS w l ρ e = evalS w l' ρ e
  | .undef, ρ, _ => by simp only [evalS]
  | .var x f d, ρ, _ => by cases f <;> simp only [evalS]
  | .const c, ρ, _ => by simp only [evalS]
  | .lets bs b, ρ, h => by
    simp only [Expr.LogFree] at h
    simp only [evalS]
    rw [evalBindsS_log bs ρ (h.imp id And.left)]
    congr 1
    funext ρ1
    exact evalS_log b ρ1 (h.imp id And.right)
  | .bin op a b, ρ, h => by
    simp only [Expr.LogFree] at h
    simp only [evalS]
    rw [evalS_log a ρ (h.imp id And.left), evalS_log b ρ (h.imp id And.right)]
  | .not a, ρ, h => by
    simp only [Expr.LogFree] at h
    simp only [evalS]
    rw [evalS_log a ρ h]
  | .select c t f, ρ, h => by
    simp only [Expr.LogFree] at h
    simp only [evalS]
    rw [evalS_log c ρ (h.imp id And.left), evalS_log t ρ (h.imp id fun h => h.2.1), evalS_log f ρ (h.imp id fun h => h.2.2)]
  | .call fn as, ρ, h => by
    simp only [Expr.LogFree] at h
    have ha := evalArgsS_log as ρ (h.imp id And.right)
    have hs : ∀ b, evalShortS w l b ρ as = evalShortS w l' b ρ as := fun b => evalShortS_log as ρ b (h.imp id And.right)
    have hc : ∀ vs, fn ≠ .andThen → fn ≠ .orElse → fn ≠ .abs → callS w l fn vs = callS w l' fn vs := fun vs h1 h2 h3 => callS_log (h.imp id fun h => by
      have := h.1
      cases fn <;> simp_all [Fn.logFree]) vs
    cases fn with
    | andThen => simp only [evalS, hs]
    | orElse => simp only [evalS, hs]
    | abs =>
      cases as with
      | nil => simp only [evalS]
      | cons e es =>
        cases es with
        | nil => simp only [evalS]; rw [evalS_log e ρ (h.imp id fun h => h.2.1)]
        | cons e' es => simp only [evalS]
    | _ => simp only [evalS, ha]; (congr 2 <;> first | rfl | (funext vs; rw [hc vs (by simp) (by simp) (by simp)]))
theorem evalShortS_log : ∀ (es : Exprs) (ρ : SEnv) (b : Bool), HostEq w l l' ∨ es.LogFree → evalShortS w l b ρ es = evalShortS w l' b ρ es
  | .nil, ρ, b, _ => by simp only [evalShortS]
  | .cons e es, ρ, b, h => by
    simp only [Exprs.LogFree] at h
    simp only [evalShortS]
    rw [evalS_log e ρ (h.imp id And.left), evalShortS_log es ρ b (h.imp id And.right)]
theorem evalArgsS_log : ∀ (es : Exprs) (ρ : SEnv), HostEq w l l' ∨ es.LogFree → evalArgsS w l ρ es = evalArgsS w l' ρ es
  | .nil, ρ, _ => by simp only [evalArgsS]
  | .cons e es, ρ, h => by
    simp only [Exprs.LogFree] at h
    simp only [evalArgsS]
    rw [evalS_log e ρ (h.imp id And.left), evalArgsS_log es ρ (h.imp id And.right)]
theorem evalBindsS_log : ∀ (bs : Binds) (ρ : SEnv), HostEq w l l' ∨ bs.LogFree → evalBindsS w l ρ bs = evalBindsS w l' ρ bs
  | .nil, ρ, _ => by simp only [evalBindsS]
  | .cons x e bs, ρ, h => by
    simp only [Binds.LogFree] at h
    simp only [evalBindsS]
    rw [evalS_log e ρ (h.imp id And.left)]
    congr 1
    funext v
    rw [evalBindsS_log bs _ (h.imp id And.right)]
end

theorem evalI_log (e : Expr) (ρ : SEnv) (h : HostEq w l l' ∨ e.LogFree) : evalI w l ρ e = evalI w l' ρ e := by rw [evalI, evalI, evalS_log e ρ h]

theorem evalDefS_log (e : Expr) (ρ : SEnv) (d : Int) (h : HostEq w l l' ∨ e.LogFree) : evalDefS w l ρ e d = evalDefS w l' ρ e d := by
  rw [evalDefS, evalDefS, evalI_log e ρ h]

theorem evalIvS_log (i : Interval) (ρ : SEnv) (h : HostEq w l l' ∨ i.LogFree) : evalIvS w l ρ i = evalIvS w l' ρ i := by
  simp only [evalIvS, evalI_log i.min ρ (h.imp id And.left), evalI_log i.max ρ (h.imp id And.right)]

theorem evalIvDefS_log (i : Interval) (ρ : SEnv) (a b : Int) (h : HostEq w l l' ∨ i.LogFree) : evalIvDefS w l ρ i a b = evalIvDefS w l' ρ i a b := by
  simp only [evalIvDefS, evalI_log i.min ρ (h.imp id And.left), evalDefS_log i.min ρ a (h.imp id And.left), evalDefS_log i.max ρ b (h.imp id And.right)]

theorem evalDimsS_log (ρ : SEnv) (o : Option Int) : ∀ (ds : List DimE), HostEq w l l' ∨ (∀ d ∈ ds, d.LogFree) → evalDimsS w l ρ o ds = evalDimsS w l' ρ o ds
  | [], _ => by simp only [evalDimsS]
  | d :: ds, h => by
    have hd : HostEq w l l' ∨ d.LogFree := h.imp id fun h => h d (by simp)
    simp only [evalDimsS]
    rw [evalDimsS_log ρ o ds (h.imp id fun h e he => h e (by simp [he])), evalIvS_log d.bounds ρ (hd.imp id And.left),
      evalDefS_log d.fold ρ _ (hd.imp id fun h => h.2.2), evalI_log d.stride ρ (hd.imp id fun h => h.2.1)]
    cases o with
    | none => rfl
    | some v => simp only [evalDefS_log d.stride ρ v (hd.imp id fun h => h.2.1)]

theorem cropS_log (ρ : SEnv) : ∀ (is : List Interval) (d : Nat) (b : Buf), HostEq w l l' ∨ (∀ i ∈ is, i.LogFree) → cropS w l ρ d is b = cropS w l' ρ d is b
  | [], _, _, _ => by simp only [cropS]
  | i :: is, d, b, h => by
    simp only [cropS]
    rw [evalIvDefS_log i ρ _ _ (h.imp id fun h => h i (by simp))]
    congr 1
    congr 1
    funext v
    exact cropS_log ρ is _ _ (h.imp id fun h e he => h e (by simp [he]))

theorem cropSeqS_log (ρ : SEnv) (x : Nat) : ∀ (is : List Interval) (d : Nat) (b : Buf), HostEq w l l' ∨ (∀ i ∈ is, i.LogFree) →
    cropSeqS w l ρ x d is b = cropSeqS w l' ρ x d is b
  | [], _, _, _ => by simp only [cropSeqS]
  | i :: is, d, b, h => by
    simp only [cropSeqS]
    rw [evalIvDefS_log i _ _ _ (h.imp id fun h => h i (by simp))]
    congr 1
    congr 1
    funext v
    exact cropSeqS_log ρ x is _ _ (h.imp id fun h e he => h e (by simp [he]))

theorem sliceS_log (ρ : SEnv) : ∀ (es : List Expr) (ds : List Dim) (p : Option Int), HostEq w l l' ∨ (∀ e ∈ es, e.LogFree) →
    sliceS w l ρ es ds p = sliceS w l' ρ es ds p
  | _, [], _, _ => by simp only [sliceS]
  | [], d :: ds, p, h => by simp only [sliceS]; rw [sliceS_log ρ [] ds p (h.imp id fun _ e he => by cases he)]
  | e :: es, d :: ds, p, h => by
    have ht : HostEq w l l' ∨ (∀ e ∈ es, e.LogFree) := h.imp id fun h e he => h e (by simp [he])
    simp only [sliceS]
    rw [sliceS_log ρ es ds p ht]
    cases p with
    | none => simp only [sliceS_log ρ es ds none ht]
    | some q =>
      simp only
      rw [evalI_log e ρ (h.imp id fun h => h e (by simp))]
      congr 1
      congr 1
      funext v
      exact sliceS_log ρ es ds _ ht

end

/-! ## Declarations of buffers -/

/-- A declaration of a buffer (all except `allocate`), without its symbol and its body. -/
inductive Head
  | makeBuffer (base elem : Expr) (dims : List DimE)
  | constantBuffer (b : Buf)
  | cloneBuffer (src : Nat)
  | cropBuffer (src : Nat) (bounds : List Interval)
  | cropDim (src d : Nat) (bounds : Interval)
  | sliceBuffer (src : Nat) (at_ : List Expr)
  | sliceDim (src d : Nat) (at_ : Expr)
  | transpose (src : Nat) (dims : List Nat)

/-- The declaration of `x`. -/
def Head.stmt (x : Nat) (body : Stmt) : Head → Stmt
  | .makeBuffer p e ds => .makeBuffer x p e ds body
  | .constantBuffer b => .constantBuffer x b body
  | .cloneBuffer src => .cloneBuffer x src body
  | .cropBuffer src bs => .cropBuffer x src bs body
  | .cropDim src d i => .cropDim x src d i body
  | .sliceBuffer src es => .sliceBuffer x src es body
  | .sliceDim src d e => .sliceDim x src d e body
  | .transpose src ds => .transpose x src ds body

/-- The buffer that is declared. `some none`: the declaration fails. -/
def Head.val (w : World) (l : List Ev) (ρ : SEnv) (x : Nat) : Head → Option (Option Buf)
  | .makeBuffer base elem dims => do
    let e ← evalDefS w l ρ elem 0
    let p ← evalDefS w l ρ base 0
    let ds ← evalDimsS w l ρ none dims
    let b : Buf := ⟨if p = 0 then none else some p, e, ds.take (trimRank ds)⟩
    if b.validate then some (some b) else some none
  | .constantBuffer b => some (some b)
  | .cloneBuffer src => (ρ.buf? src).map some
  | .cropBuffer src bs => (ρ.buf? src).bind fun b => (cropS w l ρ 0 bs b).bind fun b' =>
      if x = src → cropSeqS w l ρ x 0 bs b = some b' then some (some b') else none
  | .cropDim src d i =>
    (ρ.buf? src).bind fun b => (evalIvDefS w l ρ i (b.dim d).min (b.dim d).max).map fun v => some (b.crop d v.1 v.2)
  | .sliceBuffer src es => (ρ.buf? src).bind fun b => (sliceS w l ρ es b.dims b.base).map fun r => some ⟨r.1, b.elem, r.2⟩
  | .sliceDim src d e =>
    (ρ.buf? src).bind fun b =>
      if d ≥ b.rank then some (some b)
      else match b.base with
        | none => some (some (b.sliceDim d))
        | some _ => (evalI w l ρ e).map fun i => some (b.slice d i)
  | .transpose src dims =>
    (ρ.buf? src).bind fun b =>
      if transposeOk x src dims b then some (some ⟨b.base, b.elem, (dims.map b.dim).take (trimRank (dims.map b.dim))⟩) else none

/-- What a declaration does. -/
theorem sem_head (w : World) (sk : Bool) (h : Head) (x : Nat) (body : Stmt) (ρ : SEnv) (l : List Ev) : sem w sk (h.stmt x body) ρ l =
    (h.val w l ρ x).bind fun v => match v with
      | none => some (-1, .failed 0 :: l)
      | some b => sem w false body (ρ.set x (.buf b)) l := by
  cases h with
  | makeBuffer p e ds =>
    simp only [Head.stmt, sem, Head.val, Option.bind_eq_bind, Option.bind_assoc]
    congr 1; funext e; congr 1; funext p; congr 1; funext ds
    split <;> split <;> rfl
  | constantBuffer b => simp [Head.stmt, sem, Head.val]
  | cloneBuffer src => simp only [Head.stmt, sem, Head.val]; cases ρ.buf? src <;> rfl
  | cropBuffer src bs =>
    simp only [Head.stmt, sem, Head.val, Option.bind_assoc]
    congr 1; funext b; congr 1; funext b'
    split <;> simp
  | cropDim src d i =>
    simp only [Head.stmt, sem, Head.val, Option.bind_assoc]
    congr 1; funext b
    cases evalIvDefS w l ρ i (b.dim d).min (b.dim d).max <;> rfl
  | sliceBuffer src es =>
    simp only [Head.stmt, sem, Head.val, Option.bind_assoc]
    congr 1; funext b
    cases sliceS w l ρ es b.dims b.base <;> rfl
  | sliceDim src d e =>
    simp only [Head.stmt, sem, Head.val, Option.bind_assoc]
    congr 1; funext b
    split
    · rfl
    · cases hb : b.base with
      | none => rfl
      | some p => simp only; cases evalI w l ρ e <;> rfl
  | transpose src ds =>
    simp only [Head.stmt, sem, Head.val, Option.bind_assoc]
    congr 1; funext b
    split <;> simp

/-- No calls of the world in the expressions of the declaration. -/
def Head.LogFree : Head → Prop
  | .makeBuffer p e ds => p.LogFree ∧ e.LogFree ∧ ∀ d ∈ ds, d.LogFree
  | .constantBuffer _ => True
  | .cloneBuffer _ => True
  | .cropBuffer _ bs => ∀ i ∈ bs, i.LogFree
  | .cropDim _ _ i => i.LogFree
  | .sliceBuffer _ es => ∀ e ∈ es, e.LogFree
  | .sliceDim _ _ e => e.LogFree
  | .transpose _ _ => True

theorem Head.val_log {w : World} {l l' : List Ev} (h : Head) (ρ : SEnv) (x : Nat) (hl : HostEq w l l' ∨ h.LogFree) : h.val w l ρ x = h.val w l' ρ x := by
  cases h with
  | makeBuffer p e ds =>
    simp only [Head.val]
    rw [evalDefS_log e ρ 0 (hl.imp id fun h => h.2.1), evalDefS_log p ρ 0 (hl.imp id fun h => h.1), evalDimsS_log ρ none ds (hl.imp id fun h => h.2.2)]
  | cropBuffer src bs =>
    simp only [Head.val]
    congr 1; funext b
    rw [cropS_log ρ bs 0 b hl, cropSeqS_log ρ x bs 0 b hl]
  | cropDim src d i =>
    simp only [Head.val]
    congr 1; funext b
    rw [evalIvDefS_log i ρ _ _ hl]
  | sliceBuffer src es =>
    simp only [Head.val]
    congr 1; funext b
    rw [sliceS_log ρ es _ _ hl]
  | sliceDim src d e =>
    simp only [Head.val]
    rw [evalI_log e ρ hl]
  | _ => rfl

/-! ## Doing the same -/

/-- `g` does what `f` does (if `f` does something). -/
def Le (vis : Ev → Bool) (f g : List Ev → Option (Int × List Ev)) : Prop :=
  ∀ ⦃l l' r m⦄, LogEq vis l l' → f l = some (r, m) → ∃ m', g l' = some (r, m') ∧ LogEq vis m m'

section
variable {vis : Ev → Bool} {w : World}

theorem Le.trans {f g h : List Ev → Option (Int × List Ev)} (h1 : Le vis f g) (h2 : Le vis g h) : Le vis f h := fun l l' r m hl hf => by
  obtain ⟨m1, a1, a2⟩ := h1 hl hf
  obtain ⟨m2, b1, b2⟩ := h2 (LogEq.refl _ _) a1
  exact ⟨m2, b1, a2.trans b2⟩

theorem serialS_le {f g : Int → List Ev → Option (Int × List Ev)} {mn mx step : Int} (h : ∀ i, mn ≤ i → i ≤ mx → Le vis (f i) (g i)) : ∀ (n : Nat) (i : Int),
    Le vis (serialS f mn mx step n i) (serialS g mn mx step n i)
  | 0, i => fun _ _ _ _ _ h => by simp [serialS] at h
  | n + 1, i => fun l l' r m hl hf => by
    simp only [serialS] at hf ⊢
    split at hf
    · rename_i hi
      rw [if_pos hi]
      split at hf
      · cases hf
      · rename_i r1 m1 e1
        obtain ⟨m2, a1, a2⟩ := h i hi.1 hi.2 hl e1
        simp only [a1]
        split at hf
        · rename_i h0
          rw [if_pos h0]
          cases hf
          exact ⟨m2, rfl, a2⟩
        · rename_i h0
          rw [if_neg h0]
          split at hf
          · cases hf
          · rename_i j ej
            exact serialS_le h n j a2 hf
    · rename_i hi
      rw [if_neg hi]
      cases hf
      exact ⟨l', rfl, hl⟩

theorem parS_le {f g : Int → List Ev → Option (Int × List Ev)} {mn step : Int} (h : ∀ i, Le vis (f i) (g i)) : ∀ (sch : List (Nat × Nat)) (res : Int),
    Le vis (parS f mn step sch res) (parS g mn step sch res)
  | [], res => fun l l' r m hl hf => by
    simp only [parS] at hf ⊢
    cases hf
    exact ⟨l', rfl, hl⟩
  | (i, t) :: sch, res => fun l l' r m hl hf => by
    simp only [parS] at hf ⊢
    split at hf
    · cases hf
    · rename_i r1 m1 e1
      obtain ⟨m2, a1, a2⟩ := h _ hl e1
      simp only [a1]
      exact parS_le h sch _ a2 hf

/-- A declaration with another body. -/
theorem head_le (hw : w.Blind vis) {sk : Bool} (h : Head) {x : Nat} {body body' : Stmt} {ρ : SEnv}
    (hb : ∀ b l, h.val w l ρ x = some (some b) → Le vis (sem w false body (ρ.set x (.buf b))) (sem w false body' (ρ.set x (.buf b)))) :
    Le vis (sem w sk (h.stmt x body) ρ) (sem w sk (h.stmt x body') ρ) := fun l l' r m hl hf => by
  rw [sem_head] at hf ⊢
  rw [← h.val_log ρ x (Or.inl (hw.hostEq hl))]
  obtain ⟨v, g1, g2⟩ := Option.bind_eq_some_iff.1 hf
  rw [g1, Option.bind_some]
  cases v with
  | none =>
    simp only at g2 ⊢
    cases g2
    exact ⟨_, rfl, hl.cons _⟩
  | some b =>
    simp only at g2 ⊢
    exact hb b l g1 hl g2

theorem allocS_log (hw : w.Blind vis) {l l' : List Ev} (hl : LogEq vis l l') (sto : Storage) (b : Buf) :
    (allocS w sto b l = none ∧ allocS w sto b l' = none) ∨
    ∃ b1 h l1 l1', allocS w sto b l = some (b1, h, l1) ∧ allocS w sto b l' = some (b1, h, l1') ∧ LogEq vis l1 l1' := by
  unfold allocS
  split
  · right
    rw [← hw.allocate b l l' hl]
    exact ⟨_, _, _, _, rfl, rfl, hl.cons _⟩
  · split
    · exact Or.inl ⟨rfl, rfl⟩
    · right
      split
      · rw [← hw.stackAddr l l' hl]
        exact ⟨_, _, _, _, rfl, rfl, hl⟩
      · simp only
        rw [← hw.allocate _ l l' hl]
        exact ⟨_, _, _, _, rfl, rfl, hl.cons _⟩

theorem freeS_log {l l' : List Ev} (hl : LogEq vis l l') (h : Int) : LogEq vis (freeS h l) (freeS h l') := by
  unfold freeS
  split
  · exact hl.cons _
  · exact hl

/-- An allocation with another body. -/
theorem allocate_le (hw : w.Blind vis) {sk : Bool} {x : Nat} {sto : Storage} {e : Expr} {ds : List DimE} {body body' : Stmt} {ρ : SEnv}
    (hb : ∀ b, Le vis (sem w false body (ρ.set x (.buf b))) (sem w false body' (ρ.set x (.buf b)))) :
    Le vis (sem w sk (.allocate x sto e ds body) ρ) (sem w sk (.allocate x sto e ds body') ρ) := fun l l' r m hl hf => by
  have hh := hw.hostEq hl
  simp only [sem, Option.bind_eq_bind, Option.bind_eq_some_iff] at hf ⊢
  obtain ⟨n, g1, v, g2, g3⟩ := hf
  rw [evalI_log e ρ (Or.inl hh)] at g1
  rw [evalDimsS_log ρ _ ds (Or.inl hh)] at g2
  suffices h : ∃ m', (match allocS w sto ⟨none, n, v.take (trimRank v)⟩ l' with
      | none => some (-1, .failed 0 :: l')
      | some (b, h, l1) =>
        if b.base = none ∧ b.elemCount > 0 then some (-1, freeS h (.failed 0 :: l1))
        else (sem w false body' (ρ.set x (.buf b)) l1).map fun p => (p.1, freeS h p.2)) = some (r, m') ∧ LogEq vis m m' by
    obtain ⟨m', a1, a2⟩ := h
    exact ⟨m', ⟨n, g1, v, g2, a1⟩, a2⟩
  rcases allocS_log hw hl sto ⟨none, n, v.take (trimRank v)⟩ with ⟨e1, e2⟩ | ⟨b1, h, l1, l1', e1, e2, e3⟩
  · rw [e1] at g3
    rw [e2]
    simp only at g3 ⊢
    cases g3
    exact ⟨_, rfl, hl.cons _⟩
  · rw [e1] at g3
    rw [e2]
    simp only at g3 ⊢
    split at g3
    · rename_i hc
      rw [if_pos hc]
      cases g3
      exact ⟨_, rfl, freeS_log (e3.cons _) h⟩
    · rename_i hc
      rw [if_neg hc]
      simp only [Option.map_eq_some_iff] at g3 ⊢
      obtain ⟨⟨r1, m1⟩, g4, g5⟩ := g3
      cases g5
      obtain ⟨m2, a1, a2⟩ := hb b1 e3 g4
      exact ⟨_, ⟨(r1, m2), a1, rfl⟩, freeS_log a2 h⟩

/-- Lets with another body. -/
theorem lets_le (hw : w.Blind vis) {bs : Binds} {c : Bool} {body body' : Stmt} {ρ : SEnv} (hb : ∀ ρ1 l, evalBindsS w l ρ bs = some ρ1 →
    Le vis (sem w false body ρ1) (sem w false body' ρ1)) :
    Le vis (sem w false (.lets bs body c) ρ) (sem w false (.lets bs body' c) ρ) := fun l l' r m hl hf => by
  simp only [sem, Bool.false_and, Bool.false_eq_true, if_false] at hf ⊢
  obtain ⟨ρ1, g1, g2⟩ := Option.bind_eq_some_iff.1 hf
  rw [← evalBindsS_log bs ρ (Or.inl (hw.hostEq hl)), g1, Option.bind_some]
  exact hb ρ1 l g1 hl g2

/-- A loop with another body. -/
theorem loop_le (hw : w.Blind vis) {sk : Bool} {x : Nat} {wk : Expr} {b : Interval} {st : Expr} {body body' : Stmt} {ρ : SEnv}
    (h1 : ∀ i : Int, Le vis (sem w false body (ρ.set x (.int i))) (sem w false body' (ρ.set x (.int i))))
    (h2 : ∀ init, newEnvS ρ (some x) body = some init → ∃ init', newEnvS ρ (some x) body' = some init' ∧
      ∀ i : Int, Le vis (sem w true body (init.set x (.int i))) (sem w true body' (init'.set x (.int i)))) :
    Le vis (sem w sk (.loop x wk b st body) ρ) (sem w sk (.loop x wk b st body') ρ) := fun l l' r m hl hf => by
  have hh := hw.hostEq hl
  simp only [sem, Option.bind_eq_bind] at hf ⊢
  obtain ⟨n, g1, hf⟩ := Option.bind_eq_some_iff.1 hf
  obtain ⟨v, g2, hf⟩ := Option.bind_eq_some_iff.1 hf
  obtain ⟨s, g3, hf⟩ := Option.bind_eq_some_iff.1 hf
  rw [← evalI_log wk ρ (Or.inl hh), g1, Option.bind_some, ← evalIvS_log b ρ (Or.inl hh), g2, Option.bind_some, ← evalDefS_log st ρ 1 (Or.inl hh), g3, Option.bind_some]
  split at hf
  · cases hf
  · rename_i hs
    rw [if_neg hs]
    split at hf
    · rename_i hn
      rw [if_pos hn]
      obtain ⟨k, g5, hf⟩ := Option.bind_eq_some_iff.1 hf
      rw [g5, Option.bind_some]
      by_cases k0 : k = 0
      · rw [if_pos k0] at hf ⊢
        cases hf
        exact ⟨l', rfl, hl⟩
      · rw [if_neg k0] at hf ⊢
        by_cases k1 : k = 1
        · rw [if_pos k1] at hf ⊢
          exact h1 _ hl hf
        · rw [if_neg k1] at hf ⊢
          split at hf
          · rename_i hp
            rw [if_pos hp]
            obtain ⟨i1, e0, g7⟩ := Option.bind_eq_some_iff.1 hf
            obtain ⟨init', e1, e2⟩ := h2 i1 e0
            rw [e1, Option.bind_some, ← hw.sched l l' hl]
            exact parS_le e2 _ _ hl g7
          · cases hf
    · rename_i hn
      rw [if_neg hn]
      exact serialS_le (fun i _ _ => h1 i) _ _ hl hf

/-- A loop with another body, without closures. -/
theorem loop_le' (hw : w.Blind vis) {sk : Bool} {x : Nat} {wk : Expr} {b : Interval} {st : Expr} {body body' : Stmt} {ρ : SEnv} (hc : body.closure? = none)
    (hc' : body'.closure? = none) (h1 : ∀ i : Int, Le vis (sem w false body (ρ.set x (.int i))) (sem w false body' (ρ.set x (.int i)))) :
    Le vis (sem w sk (.loop x wk b st body) ρ) (sem w sk (.loop x wk b st body') ρ) :=
  loop_le hw h1 fun init h => ⟨ρ, newEnvS_none hc' _ _, fun i => by
    rw [newEnvS_none hc] at h
    cases h
    exact fun l l' r m hl hf => by
      rw [sem_skip hc] at hf
      rw [sem_skip hc']
      exact h1 i hl hf⟩

/-- An `async` with another task and body. -/
theorem async_le (hw : w.Blind vis) {sk : Bool} {x : Option Nat} {task task' body body' : Stmt} {ρ : SEnv}
    (ht : ∀ ρt, (ρt = ρ ∨ ∃ h, ρt = ρ.setOpt x h) → ∀ i, newEnvS ρt none task = some i → ∃ i', newEnvS ρt none task' = some i' ∧
      Le vis (sem w true task i) (sem w true task' i'))
    (hb : ∀ h i, newEnvS (ρ.setOpt x h) none body = some i → ∃ i', newEnvS (ρ.setOpt x h) none body' = some i' ∧ Le vis (sem w true body i) (sem w true body' i')) :
    Le vis (sem w sk (.async x task body) ρ) (sem w sk (.async x task' body') ρ) := fun l l' r m hl hf => by
  simp only [sem] at hf ⊢
  rw [← hw.taskHandle l l' hl, ← hw.taskFirst l l' hl]
  split at hf
  · rename_i ha
    rw [if_pos ha]
    split at hf
    · rename_i hc
      rw [if_pos hc]
      obtain ⟨ρt, g1, hf⟩ := Option.bind_eq_some_iff.1 hf
      obtain ⟨⟨r1, m1⟩, g2, hf⟩ := Option.bind_eq_some_iff.1 hf
      obtain ⟨ρb, g3, hf⟩ := Option.bind_eq_some_iff.1 hf
      obtain ⟨⟨r2, m2⟩, g4, hf⟩ := Option.map_eq_some_iff.1 hf
      obtain ⟨ρt', a1, a2⟩ := ht ρ (Or.inl rfl) ρt g1
      obtain ⟨m1', a3, a4⟩ := a2 hl g2
      obtain ⟨ρb', b1, b2⟩ := hb _ ρb g3
      obtain ⟨m2', b3, b4⟩ := b2 a4 g4
      cases hf
      refine ⟨m2', ?_, b4⟩
      rw [a1, Option.bind_some, a3, Option.bind_some, b1, Option.bind_some, b3]
      rfl
    · rename_i hc
      rw [if_neg hc]
      obtain ⟨ρb, g3, hf⟩ := Option.bind_eq_some_iff.1 hf
      obtain ⟨⟨r2, m2⟩, g4, hf⟩ := Option.bind_eq_some_iff.1 hf
      obtain ⟨ρt, g1, hf⟩ := Option.bind_eq_some_iff.1 hf
      obtain ⟨⟨r1, m1⟩, g2, hf⟩ := Option.map_eq_some_iff.1 hf
      obtain ⟨ρb', b1, b2⟩ := hb _ ρb g3
      obtain ⟨m2', b3, b4⟩ := b2 hl g4
      have hρ : (if w.taskLate m2 = true then ρ else ρ.setOpt x (if w.pool = true then w.taskHandle l else 0)) = ρ ∨
          ∃ h, (if w.taskLate m2 = true then ρ else ρ.setOpt x (if w.pool = true then w.taskHandle l else 0)) = ρ.setOpt x h := by
        split
        · exact Or.inl rfl
        · exact Or.inr ⟨_, rfl⟩
      obtain ⟨ρt', a1, a2⟩ := ht _ hρ ρt g1
      obtain ⟨m1', a3, a4⟩ := a2 b4 g2
      cases hf
      refine ⟨m1', ?_, a4⟩
      rw [b1, Option.bind_some, b3, Option.bind_some]
      simp only
      rw [← hw.taskLate m2 m2' b4, a1, Option.bind_some, a3]
      rfl
  · cases hf

/-- An `async` with another task and body, without closures. -/
theorem async_le' (hw : w.Blind vis) {sk : Bool} {x : Option Nat} {task task' body body' : Stmt} {ρ : SEnv} (hct : task.closure? = none)
    (hct' : task'.closure? = none) (hcb : body.closure? = none) (hcb' : body'.closure? = none)
    (ht : ∀ ρt, (ρt = ρ ∨ ∃ h, ρt = ρ.setOpt x h) → Le vis (sem w false task ρt) (sem w false task' ρt))
    (hb : ∀ h, Le vis (sem w false body (ρ.setOpt x h)) (sem w false body' (ρ.setOpt x h))) :
    Le vis (sem w sk (.async x task body) ρ) (sem w sk (.async x task' body') ρ) :=
  async_le hw
    (fun ρt h i hi => ⟨ρt, newEnvS_none hct' _ _, by
      rw [newEnvS_none hct] at hi
      cases hi
      exact fun l l' r m hl hf => by
        rw [sem_skip hct] at hf
        rw [sem_skip hct']
        exact ht ρt h hl hf⟩)
    (fun h i hi => ⟨_, newEnvS_none hcb' _ _, by
      rw [newEnvS_none hcb] at hi
      cases hi
      exact fun l l' r m hl hf => by
        rw [sem_skip hcb] at hf
        rw [sem_skip hcb']
        exact hb h hl hf⟩)

/-- Statements one after another. -/
theorem semSeq_le {ρ : SEnv} : ∀ {ss ss' : List Stmt}, List.Forall₂ (fun s s' => s ≠ .undef ∧ s' ≠ .undef ∧ Le vis (sem w false s ρ) (sem w false s' ρ)) ss ss' →
    Le vis (semSeq w ss ρ) (semSeq w ss' ρ)
  | _, _, .nil => fun l l' r m hl hf => by
    simp only [semSeq] at hf ⊢
    cases hf
    exact ⟨l', rfl, hl⟩
  | _, _, .cons (a := s) (b := s') (l₁ := ss) (l₂ := ss') h hs => fun l l' r m hl hf => by
    rw [semSeq_cons h.1] at hf
    rw [semSeq_cons h.2.1]
    obtain ⟨⟨r1, m1⟩, g1, g2⟩ := Option.bind_eq_some_iff.1 hf
    obtain ⟨m2, a1, a2⟩ := h.2.2 hl g1
    rw [a1, Option.bind_some]
    split at g2
    · rename_i h0
      rw [if_pos h0]
      cases g2
      exact ⟨m2, rfl, a2⟩
    · rename_i h0
      rw [if_neg h0]
      exact semSeq_le hs a2 g2

/-! ## The same statement with another log -/

theorem call_le (hw : w.Blind vis) {sk : Bool} (t : Nat) (i o : List Nat) (xs : List Expr) (ρ : SEnv) :
    Le vis (sem w sk (.call t i o xs) ρ) (sem w sk (.call t i o xs) ρ) := fun l l' r m hl hf => by
  simp only [sem, Option.bind_eq_bind] at hf ⊢
  obtain ⟨is, g1, hf⟩ := Option.bind_eq_some_iff.1 hf
  obtain ⟨os, g2, hf⟩ := Option.bind_eq_some_iff.1 hf
  obtain ⟨vs, g3, hf⟩ := Option.bind_eq_some_iff.1 hf
  have e : evalI w l ρ = evalI w l' ρ := funext fun e => evalI_log e ρ (Or.inl (hw.hostEq hl))
  rw [g1, Option.bind_some, g2, Option.bind_some, ← e, g3, Option.bind_some, ← hw.call t is os vs l l' hl]
  cases hf
  exact ⟨_, rfl, hl.cons _⟩

theorem check_le (hw : w.Blind vis) {sk : Bool} (c : Expr) (ρ : SEnv) : Le vis (sem w sk (.check c) ρ) (sem w sk (.check c) ρ) := fun l l' r m hl hf => by
  simp only [sem] at hf ⊢
  rw [← evalI_log c ρ (Or.inl (hw.hostEq hl))]
  split at hf
  · cases hf
  · rename_i hc
    rw [if_neg hc]
    obtain ⟨v, g1, g2⟩ := Option.map_eq_some_iff.1 hf
    rw [g1, Option.map_some]
    split at g2 <;> cases g2
    · rename_i h0; rw [if_pos h0]; exact ⟨_, rfl, hl.cons _⟩
    · rename_i h0; rw [if_neg h0]; exact ⟨_, rfl, hl.cons _⟩

mutual
/-- A statement does the same for another log. -/
theorem sem_le (hw : w.Blind vis) : ∀ (s : Stmt) (sk : Bool) (ρ : SEnv), Le vis (sem w sk s ρ) (sem w sk s ρ)
  | .undef, sk, ρ => fun _ _ _ _ _ hf => by simp [sem] at hf
  | .copy .., sk, ρ => fun _ _ _ _ _ hf => by simp [sem] at hf
  | .call t i o xs, sk, ρ => call_le hw t i o xs ρ
  | .check c, sk, ρ => check_le hw c ρ
  | .lets bs body c, sk, ρ => by
    by_cases h : (sk && c) = true
    · intro l l' r m hl hf
      simp only [sem, h, if_true] at hf ⊢
      exact sem_le hw body false ρ hl hf
    · have := lets_le hw (c := c) (bs := bs) (ρ := ρ) fun ρ1 l h => sem_le hw body false ρ1
      intro l l' r m hl hf
      have e : ∀ l, sem w sk (.lets bs body c) ρ l = sem w false (.lets bs body c) ρ l := fun l => by
        simp only [sem, h, Bool.false_and, Bool.false_eq_true, if_false]
      rw [e] at hf ⊢
      exact this hl hf
  | .block ss, sk, ρ => fun l l' r m hl hf => by
    simp only [sem] at hf ⊢
    exact semAll_le hw ss ρ hl hf
  | .loop x wk b st body, sk, ρ => loop_le hw (fun i => sem_le hw body false _) fun init h => ⟨init, h, fun i => sem_le hw body true _⟩
  | .allocate x sto e ds body, sk, ρ => allocate_le hw fun b => sem_le hw body false _
  | .makeBuffer x p e ds body, sk, ρ => head_le hw (.makeBuffer p e ds) fun b l _ => sem_le hw body false _
  | .constantBuffer x v body, sk, ρ => head_le hw (.constantBuffer v) fun b l _ => sem_le hw body false _
  | .cloneBuffer x src body, sk, ρ => head_le hw (.cloneBuffer src) fun b l _ => sem_le hw body false _
  | .cropBuffer x src bs body, sk, ρ => head_le hw (.cropBuffer src bs) fun b l _ => sem_le hw body false _
  | .cropDim x src d i body, sk, ρ => head_le hw (.cropDim src d i) fun b l _ => sem_le hw body false _
  | .sliceBuffer x src es body, sk, ρ => head_le hw (.sliceBuffer src es) fun b l _ => sem_le hw body false _
  | .sliceDim x src d e body, sk, ρ => head_le hw (.sliceDim src d e) fun b l _ => sem_le hw body false _
  | .transpose x src ds body, sk, ρ => head_le hw (.transpose src ds) fun b l _ => sem_le hw body false _
  | .async x task body, sk, ρ => async_le hw (fun ρt _ i h => ⟨i, h, sem_le hw task true _⟩) fun h i hi => ⟨i, hi, sem_le hw body true _⟩
/-- See `sem_le`. -/
theorem semAll_le (hw : w.Blind vis) : ∀ (ss : Stmts) (ρ : SEnv), Le vis (semAll w ss ρ) (semAll w ss ρ)
  | .nil, ρ => fun l l' r m hl hf => by
    simp only [semAll] at hf ⊢
    cases hf
    exact ⟨l', rfl, hl⟩
  | .cons s ss, ρ => fun l l' r m hl hf => by
    simp only [semAll] at hf ⊢
    obtain ⟨⟨r1, m1⟩, g1, g2⟩ := Option.bind_eq_some_iff.1 hf
    obtain ⟨m2, a1, a2⟩ := sem_le hw s false ρ hl g1
    rw [a1, Option.bind_some]
    split at g2
    · rename_i h0
      rw [if_pos h0]
      cases g2
      exact ⟨m2, rfl, a2⟩
    · rename_i h0
      rw [if_neg h0]
      exact semAll_le hw ss ρ a2 g2
end

end

end Slinky
