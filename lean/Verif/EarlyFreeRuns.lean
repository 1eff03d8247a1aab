import Verif.EarlyFree

/-!
# Lemmas about the executions of `EarlyFree.lean`
-/

namespace Slinky

/-! ## Statements by shape -/

/-- The statements that declare a buffer that refers to the memory of other buffers. -/
inductive HBnd
  | make (x : Nat) (base e : Expr) (ds : List DimE)
  | clone (x y : Nat)
  | crop (x y : Nat) (bs : List Interval)
  | cropD (x y d : Nat) (b : Interval)
  | slice (x y : Nat) (es : List Expr)
  | sliceD (x y d : Nat) (e : Expr)
  | trans (x y : Nat) (ds : List Nat)

namespace HBnd

/-- The statement with this declaration. -/
def plug : HBnd → Stmt → Stmt
  | make x base e ds, s => .makeBuffer x base e ds s
  | clone x y, s => .cloneBuffer x y s
  | crop x y bs, s => .cropBuffer x y bs s
  | cropD x y d b, s => .cropDim x y d b s
  | slice x y es, s => .sliceBuffer x y es s
  | sliceD x y d e, s => .sliceDim x y d e s
  | trans x y ds, s => .transpose x y ds s

/-- The symbol. -/
def sym : HBnd → Nat
  | make x _ _ _ => x
  | clone x _ => x
  | crop x _ _ => x
  | cropD x _ _ _ => x
  | slice x _ _ => x
  | sliceD x _ _ _ => x
  | trans x _ _ => x

/-- What the buffer is made from. -/
def From (y : Nat) : HBnd → Prop
  | make _ base _ _ => ∃ q, Reads q y base
  | clone _ z => y = z
  | crop _ z _ => y = z
  | cropD _ z _ _ => y = z
  | slice _ z _ => y = z
  | sliceD _ z _ _ => y = z
  | trans _ z _ => y = z

/-- `base_depends`, `found_src` -/
def dep (names : List Nat) : HBnd → Bool
  | make _ base _ _ => names.any fun y => anyDep (dependsOn base y)
  | clone _ z => names.contains z
  | crop _ z _ => names.contains z
  | cropD _ z _ _ => names.contains z
  | slice _ z _ => names.contains z
  | sliceD _ z _ _ => names.contains z
  | trans _ z _ => names.contains z

/-- The buffer. -/
def slot (ρ : HEnv) (b : HBnd) : HSlot := ⟨.none, fun h => ∃ y, b.From y ∧ (ρ y).owns h⟩

/-- The part of the dependencies that is not in the body. -/
def Hdr (p : DepO) (x : Nat) : HBnd → Prop
  | make _ b e ds => ReadsO p x b ∨ ReadsO p x e ∨ (∃ d ∈ ds, d.Reads p x)
  | clone _ z => x = z ∧ p = none
  | crop _ z bs => (∃ i ∈ bs, i.Reads p x) ∨ (x = z ∧ Dep.view p)
  | cropD _ z _ i => i.Reads p x ∨ (x = z ∧ Dep.view p)
  | slice _ z es => (∃ e ∈ es, ReadsO p x e) ∨ (x = z ∧ Dep.view p)
  | sliceD _ z _ e => ReadsO p x e ∨ (x = z ∧ Dep.view p)
  | trans _ z _ => x = z ∧ Dep.view p

/-- Is it a view? -/
def isView : HBnd → Bool
  | make .. => false
  | _ => true

/-- See `Stmt.BufOK`. -/
def BufOK : HBnd → Prop
  | make _ p e ds => p.BufOK ∧ e.BufOK ∧ (∀ d ∈ ds, d.BufOK)
  | clone _ _ => True
  | crop _ _ bs => ∀ b ∈ bs, b.BufOK
  | cropD _ _ _ b => b.BufOK
  | slice _ _ es => ∀ e ∈ es, e.BufOK
  | sliceD _ _ _ e => e.BufOK
  | trans _ _ _ => True

end HBnd

theorem efMut_plug (names : List Nat) (f v : Bool) (b : HBnd) (s : Stmt) :
    efMut names f v (b.plug s) =
      if b.sym ∈ names then ⟨b.plug s, false, f || b.dep names, v⟩
      else ⟨b.plug (efMut (if b.dep names then names ++ [b.sym] else names) (f || b.dep names) v s).s,
        (efMut (if b.dep names then names ++ [b.sym] else names) (f || b.dep names) v s).changed,
        (efMut (if b.dep names then names ++ [b.sym] else names) (f || b.dep names) v s).found,
        (efMut (if b.dep names then names ++ [b.sym] else names) (f || b.dep names) v s).visited⟩ := by
  cases b <;> simp [HBnd.plug, HBnd.sym, HBnd.dep, efMut]

theorem earlyFreeR_plug (b : HBnd) (s : Stmt) : earlyFreeR (b.plug s) = (b.plug (earlyFreeR s).1, (earlyFreeR s).2) := by
  cases b <;> simp [HBnd.plug, earlyFreeR]

theorem slot_eq (ρ : HEnv) (b : HBnd) : ∀ v : HSlot, v.obj = none → (∀ h, v.owns h ↔ ∃ y, b.From y ∧ (ρ y).owns h) → v = b.slot ρ := by
  rintro ⟨o, w⟩ h1 h2
  simp only at h1
  subst h1
  unfold HBnd.slot
  congr 1
  funext h
  exact propext (h2 h)

theorem runs_plug (b : HBnd) (s : Stmt) (ρ : HEnv) (tr : List HEv) (ok : Bool) :
    Runs (b.plug s) ρ tr ok ↔ Runs s (ρ.set b.sym (b.slot ρ)) tr ok := by
  cases b <;> simp only [HBnd.plug, Runs, HBnd.sym]
  · rw [slot_eq ρ (.make _ _ _ _) (ρ.base _) rfl (by
      intro h; simp only [HEnv.base, HBnd.From]
      constructor
      · rintro ⟨q, y, h1, h2⟩; exact ⟨y, ⟨q, h1⟩, h2⟩
      · rintro ⟨y, ⟨q, h1⟩, h2⟩; exact ⟨q, y, h1, h2⟩)]
  all_goals
    rw [← slot_eq ρ _ (HSlot.view (ρ _)) rfl (by
      intro h; simp only [HSlot.view, HBnd.From]
      exact ⟨fun h => ⟨_, rfl, h⟩, by rintro ⟨_, rfl, h⟩; exact h⟩)]

theorem uses_plug (b : HBnd) (s : Stmt) (p : DepO) (x : Nat) :
    (b.plug s).Uses p x ↔ b.Hdr p x ∨ (x ≠ b.sym ∧ s.Uses p x) ∨ (b.isView = true ∧ b.From x ∧ s.Uses p b.sym) := by
  cases b <;> simp [HBnd.plug, Stmt.Uses, HBnd.Hdr, HBnd.sym, HBnd.isView, HBnd.From, or_assoc]

theorem bufOK_plug (b : HBnd) (s : Stmt) : (b.plug s).BufOK ↔ b.BufOK ∧ s.BufOK := by
  cases b <;> simp [HBnd.plug, Stmt.BufOK, HBnd.BufOK, and_assoc]

theorem noFreeE_plug (b : HBnd) (s : Stmt) : (b.plug s).NoFreeE ↔ s.NoFreeE := by
  cases b <;> simp [HBnd.plug, Stmt.NoFreeE]

theorem oneUser_plug (b : HBnd) (s : Stmt) (x : Nat) : (b.plug s).OneUser x ↔ s.OneUser x := by
  cases b <;> simp [HBnd.plug, Stmt.OneUser]

theorem freeOK_plug (b : HBnd) (s : Stmt) : (b.plug s).FreeOK ↔ s.FreeOK := by
  cases b <;> simp [HBnd.plug, Stmt.FreeOK]

theorem from_mem {b : HBnd} {s : Stmt} {p : Dep} {y : Nat} (h1 : b.From y) (h2 : s.Uses (some p) b.sym) : (b.plug s).Mem y := by
  cases hb : b.isView with
  | true => exact ⟨p, (uses_plug ..).mpr (.inr (.inr ⟨hb, h1, h2⟩))⟩
  | false =>
    cases b <;> simp [HBnd.isView] at hb
    obtain ⟨q, hq⟩ := h1
    exact ⟨q, (uses_plug ..).mpr (.inl (.inl ⟨q, rfl, hq⟩))⟩

theorem reads_dep {e : Expr} (he : e.BufOK) {x : Nat} {q : Dep} (h : Reads q x e) : anyDep (dependsOn e x) = true := by
  have := (dependsOn_flags e he x q).mpr h
  unfold anyDep
  cases hd : dependsOn e x with
  | nil => rw [hd] at this; simp at this
  | cons _ _ => rfl

theorem from_dep {b : HBnd} (hb : b.BufOK) {x : Nat} (h : b.From x) : b.dep [x] = true := by
  cases b <;> simp only [HBnd.From] at h
  · obtain ⟨q, hq⟩ := h
    simp [HBnd.dep, reads_dep hb.1 hq]
  all_goals subst h; simp [HBnd.dep]

theorem mem_dep {s : Stmt} (hs : s.BufOK) {x : Nat} (h : s.Mem x) : anyDep (dependsOnS s x) = true := by
  obtain ⟨p, hp⟩ := h
  have := (dependsOnS_flags s hs x p).mpr hp
  unfold anyDep
  cases hd : dependsOnS s x with
  | nil => rw [hd] at this; simp at this
  | cons _ _ => rfl

/-- Induction on statements by shape. -/
theorem Stmt.shape {P : Stmt → Prop} {Q : Stmts → Prop}
    (undef : P .undef)
    (call : ∀ t i o xs, P (.call t i o xs))
    (copy : ∀ t src xs dst ys pad, P (.copy t src xs dst ys pad))
    (check : ∀ c, P (.check c))
    (lets : ∀ bs s cl, P s → P (.lets bs s cl))
    (loop : ∀ x wk b st s, P s → P (.loop x wk b st s))
    (block : ∀ ss, Q ss → P (.block ss))
    (allocate : ∀ x k e ds s, P s → P (.allocate x k e ds s))
    (const : ∀ x b s, P s → P (.constantBuffer x b s))
    (bnd : ∀ b s, P s → P (HBnd.plug b s))
    (async : ∀ x t s, P t → P s → P (.async x t s))
    (nil : Q .nil)
    (cons : ∀ s ss, P s → Q ss → Q (.cons s ss)) : (∀ s, P s) ∧ (∀ ss, Q ss) := by
  constructor
  · intro s
    refine Stmt.rec (motive_1 := P) (motive_2 := Q) undef (fun t i o xs => call t i o xs) (fun t a b c d e => copy t a b c d e) (fun bs s cl h => lets bs s cl h)
      (fun ss h => block ss h) (fun x wk b st s h => loop x wk b st s h) (fun x k e ds s h => allocate x k e ds s h)
      (fun x b e ds s h => bnd (.make x b e ds) s h) (fun x b s h => const x b s h) (fun x y s h => bnd (.clone x y) s h)
      (fun x y bs s h => bnd (.crop x y bs) s h) (fun x y d b s h => bnd (.cropD x y d b) s h) (fun x y es s h => bnd (.slice x y es) s h)
      (fun x y d e s h => bnd (.sliceD x y d e) s h) (fun x y ds s h => bnd (.trans x y ds) s h) (fun x t s h1 h2 => async x t s h1 h2)
      (fun c => check c) nil (fun s ss h1 h2 => cons s ss h1 h2) s
  · intro ss
    refine Stmts.rec (motive_1 := P) (motive_2 := Q) undef (fun t i o xs => call t i o xs) (fun t a b c d e => copy t a b c d e) (fun bs s cl h => lets bs s cl h)
      (fun ss h => block ss h) (fun x wk b st s h => loop x wk b st s h) (fun x k e ds s h => allocate x k e ds s h)
      (fun x b e ds s h => bnd (.make x b e ds) s h) (fun x b s h => const x b s h) (fun x y s h => bnd (.clone x y) s h)
      (fun x y bs s h => bnd (.crop x y bs) s h) (fun x y d b s h => bnd (.cropD x y d b) s h) (fun x y es s h => bnd (.slice x y es) s h)
      (fun x y d e s h => bnd (.sliceD x y d e) s h) (fun x y ds s h => bnd (.trans x y ds) s h) (fun x t s h1 h2 => async x t s h1 h2)
      (fun c => check c) nil (fun s ss h1 h2 => cons s ss h1 h2) ss

/-! ## Merges -/

theorem HMerge.mem {a b c : List HEv} (h : HMerge a b c) (e : HEv) : e ∈ c ↔ e ∈ a ∨ e ∈ b := by
  induction h with
  | nil => simp
  | left f _ ih => simp [ih, or_assoc]
  | right f _ ih => simp only [List.mem_cons, ih]; tauto

theorem HMerge.count {a b c : List HEv} (h : HMerge a b c) (e : HEv) : c.count e = a.count e + b.count e := by
  induction h with
  | nil => simp
  | left f _ ih => simp only [List.count_cons, ih]; omega
  | right f _ ih => simp only [List.count_cons, ih]; omega

theorem HMerge.filter {a b c : List HEv} (h : HMerge a b c) (q : HEv → Bool) : HMerge (a.filter q) (b.filter q) (c.filter q) := by
  induction h with
  | nil => exact .nil
  | left f _ ih => by_cases hf : q f = true <;> simp [hf] <;> first | exact .left f ih | exact ih
  | right f _ ih => by_cases hf : q f = true <;> simp [hf] <;> first | exact .right f ih | exact ih

theorem HMerge.symm {a b c : List HEv} (h : HMerge a b c) : HMerge b a c := by
  induction h with
  | nil => exact .nil
  | left f _ ih => exact .right f ih
  | right f _ ih => exact .left f ih

theorem HMerge.nil_right {a c : List HEv} (h : HMerge a [] c) : c = a := by
  generalize hb : ([] : List HEv) = b at h
  induction h with
  | nil => rfl
  | left f _ ih => rw [ih hb]
  | right f _ ih => cases hb

theorem HMerge.self_nil (a : List HEv) : HMerge a [] a := by
  induction a with
  | nil => exact .nil
  | cons e a ih => exact .left e ih

/-- Insert an event of the first thread. -/
theorem HMerge.insert (e : HEv) : ∀ {a₁ a₂ b c : List HEv}, HMerge (a₁ ++ a₂) b c → ∃ p q, c = p ++ q ∧ HMerge (a₁ ++ e :: a₂) b (p ++ e :: q)
  | [], a₂, b, c, h => ⟨[], c, rfl, .left e h⟩
  | x :: a₁, a₂, b, c, h => by
    generalize hx : x :: a₁ ++ a₂ = l at h
    induction h with
    | nil => cases hx
    | left f hm _ =>
      cases hx
      obtain ⟨p, q, rfl, h2⟩ := HMerge.insert e hm
      exact ⟨x :: p, q, rfl, .left x h2⟩
    | right f hm ih =>
      obtain ⟨p, q, rfl, h2⟩ := ih hx
      exact ⟨f :: p, q, rfl, .right f h2⟩

/-- Remove an event of the first thread. -/
theorem HMerge.erase (e : HEv) : ∀ {a₁ a₂ b c : List HEv}, HMerge (a₁ ++ e :: a₂) b c →
    ∃ p q b₁ b₂, c = p ++ e :: q ∧ b = b₁ ++ b₂ ∧ HMerge a₁ b₁ p ∧ HMerge a₂ b₂ q
  | [], a₂, b, c, h => by
    generalize hx : [] ++ e :: a₂ = l at h
    induction h with
    | nil => cases hx
    | left f hm _ => cases hx; exact ⟨[], _, [], _, rfl, rfl, .nil, hm⟩
    | right f hm ih =>
      obtain ⟨p, q, b₁, b₂, rfl, rfl, h1, h2⟩ := ih hx
      exact ⟨f :: p, q, f :: b₁, b₂, rfl, rfl, .right f h1, h2⟩
  | x :: a₁, a₂, b, c, h => by
    generalize hx : x :: a₁ ++ e :: a₂ = l at h
    induction h with
    | nil => cases hx
    | left f hm _ =>
      cases hx
      obtain ⟨p, q, b₁, b₂, rfl, rfl, h1, h2⟩ := HMerge.erase e hm
      exact ⟨x :: p, q, b₁, b₂, rfl, rfl, .left x h1, h2⟩
    | right f hm ih =>
      obtain ⟨p, q, b₁, b₂, rfl, rfl, h1, h2⟩ := ih hx
      exact ⟨f :: p, q, f :: b₁, b₂, rfl, rfl, .right f h1, h2⟩

theorem HMerge.append {a₁ b₁ p a₂ b₂ q : List HEv} (h1 : HMerge a₁ b₁ p) (h2 : HMerge a₂ b₂ q) : HMerge (a₁ ++ a₂) (b₁ ++ b₂) (p ++ q) := by
  induction h1 with
  | nil => exact h2
  | left f _ ih => exact .left f ih
  | right f _ ih => exact .right f ih

theorem HMergeAll.mem : ∀ {ts : List (List HEv)} {tr : List HEv}, HMergeAll ts tr → ∀ e, e ∈ tr ↔ ∃ t ∈ ts, e ∈ t
  | [], _, h, e => by simp only [HMergeAll] at h; simp [h]
  | t :: ts, tr, h, e => by
    obtain ⟨r, h1, h2⟩ := h
    rw [h2.mem e, h1.mem e]
    simp

/-! ## What the events of an execution are about -/

mutual
/-- The statement frees the symbol, outside of declarations of that symbol. -/
def Stmt.Frees (y : Nat) : Stmt → Prop
  | .undef => False
  | .call .. => False
  | .copy .. => False
  | .check c => freeArg c = some y
  | .lets bs s _ => y ∉ bs.syms ∧ s.Frees y
  | .block ss => ss.Frees y
  | .loop x _ _ _ s => y ≠ x ∧ s.Frees y
  | .allocate x _ _ _ s => y ≠ x ∧ s.Frees y
  | .makeBuffer x _ _ _ s => y ≠ x ∧ s.Frees y
  | .constantBuffer x _ s => y ≠ x ∧ s.Frees y
  | .cloneBuffer x _ s => y ≠ x ∧ s.Frees y
  | .cropBuffer x _ _ s => y ≠ x ∧ s.Frees y
  | .cropDim x _ _ _ s => y ≠ x ∧ s.Frees y
  | .sliceBuffer x _ _ s => y ≠ x ∧ s.Frees y
  | .sliceDim x _ _ _ s => y ≠ x ∧ s.Frees y
  | .transpose x _ _ s => y ≠ x ∧ s.Frees y
  | .async x t s => some y ≠ x ∧ (t.Frees y ∨ s.Frees y)
/-- See `Stmt.Frees`. -/
def Stmts.Frees (y : Nat) : Stmts → Prop
  | .nil => False
  | .cons s ss => s.Frees y ∨ ss.Frees y
end

theorem frees_plug (b : HBnd) (s : Stmt) (y : Nat) : (b.plug s).Frees y ↔ y ≠ b.sym ∧ s.Frees y := by
  cases b <;> simp [HBnd.plug, Stmt.Frees, HBnd.sym]

theorem noFreeE_frees : (∀ s : Stmt, s.NoFreeE → ∀ y, ¬ s.Frees y) ∧ (∀ ss : Stmts, ss.NoFreeE → ∀ y, ¬ ss.Frees y) := by
  apply Stmt.shape
  case undef => intro _ y h; exact h
  case call => intro _ _ _ _ _ y h; exact h
  case copy => intro _ _ _ _ _ _ _ y h; exact h
  case check => intro c h y hy; simp only [Stmt.NoFreeE, Stmt.Frees] at h hy; rw [h] at hy; cases hy
  case lets => intro bs s cl ih h y hy; exact ih h y hy.2
  case loop => intro x wk b st s ih h y hy; exact ih h y hy.2
  case block => intro ss ih h y hy; exact ih h y hy
  case allocate => intro x k e ds s ih h y hy; exact ih h y hy.2
  case const => intro x b s ih h y hy; exact ih h y hy.2
  case bnd => intro b s ih h y hy; rw [noFreeE_plug] at h; rw [frees_plug] at hy; exact ih h y hy.2
  case async =>
    intro x t s ih1 ih2 h y hy
    rcases hy.2 with hy | hy
    · exact ih1 h.1 y hy
    · exact ih2 h.2 y hy
  case nil => intro _ y h; exact h
  case cons =>
    intro s ss ih1 ih2 h y hy
    rcases hy with hy | hy
    · exact ih1 h.1 y hy
    · exact ih2 h.2 y hy

theorem HEnv.set_same (ρ : HEnv) (x : Nat) (v : HSlot) : ρ.set x v x = v := by simp [HEnv.set]
theorem HEnv.set_other (ρ : HEnv) {x y : Nat} (h : y ≠ x) (v : HSlot) : ρ.set x v y = ρ y := by simp [HEnv.set, h]

/-- The environment of the parts of an `async`. -/
def HEnv.setOpt (ρ : HEnv) : Option Nat → HEnv
  | some y => ρ.set y .none
  | none => ρ

theorem runs_async (x : Option Nat) (t s : Stmt) (ρ : HEnv) (tr : List HEv) (ok : Bool) :
    Runs (.async x t s) ρ tr ok ↔ ∃ a b oa ob, HMerge a b tr ∧ ok = (oa && ob) ∧ Runs t (ρ.setOpt x) a oa ∧ Runs s (ρ.setOpt x) b ob := by
  cases x <;> exact Iff.rfl

/-- The memory that a statement uses is that of allocations that it makes, or of symbols that it refers to. -/
theorem runs_use : (∀ s : Stmt, ∀ ρ tr ok, Runs s ρ tr ok → ∀ h, .use h ∈ tr → .alloc h ∈ tr ∨ ∃ y, (ρ y).owns h ∧ s.Mem y) ∧
    (∀ ss : Stmts, ∀ ρ tr ok, RunsL ss ρ tr ok → ∀ h, .use h ∈ tr → .alloc h ∈ tr ∨ ∃ y, (ρ y).owns h ∧ ∃ p : Dep, ss.Uses (some p) y) := by
  apply Stmt.shape
  case undef => rintro ρ tr ok ⟨rfl, _⟩ h hm; cases hm
  case call =>
    intro t i o xs ρ tr ok hr h hm
    obtain ⟨k, x, hk, h1, h2⟩ := hr _ hm
    cases hk
    exact .inr ⟨x, h2, h1⟩
  case copy =>
    intro t i o xs _ _ ρ tr ok hr h hm
    obtain ⟨k, x, hk, h1, h2⟩ := hr _ hm
    cases hk
    exact .inr ⟨x, h2, h1⟩
  case check =>
    intro c ρ tr ok hr h hm
    simp only [Runs] at hr
    split at hr
    · rw [hr.2] at hm
      split at hm <;> simp at hm
    · obtain ⟨k, x, hk, ⟨p, h1⟩, h2⟩ := hr _ hm
      cases hk
      exact .inr ⟨x, h2, p, p, rfl, h1⟩
  case lets =>
    rintro bs s cl ih ρ tr ok ⟨a, b, rfl, h1, h2⟩ h hm
    rcases List.mem_append.mp hm with hm | hm
    · obtain ⟨k, x, hk, ⟨p, h1⟩, h2⟩ := h1 _ hm
      cases hk
      exact .inr ⟨x, h2, p, .inl ⟨p, rfl, h1⟩⟩
    · rcases ih _ _ _ h2 h hm with h3 | ⟨y, h3, p, h4⟩
      · exact .inl (List.mem_append.mpr (.inr h3))
      · by_cases hy : y ∈ bs.syms
        · simp only [HEnv.bind, hy, if_true] at h3
          obtain ⟨q, z, h5, h6⟩ := h3
          exact .inr ⟨z, h6, q, .inl ⟨q, rfl, h5⟩⟩
        · simp only [HEnv.bind, hy, if_false] at h3
          exact .inr ⟨y, h3, p, .inr ⟨hy, h4⟩⟩
  case loop =>
    rintro x wk i st s ih ρ tr ok ⟨a, b, its, rfl, h1, h2, h3, _⟩ h hm
    rcases List.mem_append.mp hm with hm | hm
    · obtain ⟨k, y, hk, ⟨p, h4⟩, h5⟩ := h1 _ hm
      cases hk
      refine .inr ⟨y, h5, p, ?_⟩
      rcases h4 with h4 | h4 | h4
      · exact .inl h4
      · exact .inr (.inl ⟨p, rfl, h4⟩)
      · exact .inr (.inr (.inl ⟨p, rfl, h4⟩))
    · obtain ⟨t, ht, hmt⟩ := (h3.mem _).mp hm
      obtain ⟨q, hq, rfl⟩ := List.mem_map.mp ht
      rcases ih _ _ _ (h2 q hq) h hmt with h4 | ⟨y, h4, p, h5⟩
      · exact .inl (List.mem_append.mpr (.inr ((h3.mem _).mpr ⟨_, ht, h4⟩)))
      · by_cases hy : y = x
        · subst hy; rw [HEnv.set_same] at h4; exact h4.elim
        · rw [HEnv.set_other _ hy] at h4
          exact .inr ⟨y, h4, p, .inr (.inr (.inr ⟨hy, h5⟩))⟩
  case block => intro ss ih ρ tr ok hr h hm; exact ih ρ tr ok hr h hm
  case allocate =>
    intro x k e ds s ih ρ tr ok hr h hm
    rcases hr with ⟨rfl, _⟩ | ⟨k, t, h1, rfl⟩
    · cases hm
    · have hm' : .use h ∈ t := by
        simp only [closing, List.mem_cons, List.mem_append] at hm
        rcases hm with hm | hm | hm
        · cases hm
        · exact hm
        · split at hm <;> simp at hm
      rcases ih _ _ _ h1 h hm' with h2 | ⟨y, h2, p, h3⟩
      · exact .inl (by simp [h2])
      · by_cases hy : y = x
        · subst hy; rw [HEnv.set_same] at h2
          exact .inl (by simp [show h = k from h2])
        · rw [HEnv.set_other _ hy] at h2
          exact .inr ⟨y, h2, p, .inr (.inr ⟨hy, h3⟩)⟩
  case const =>
    intro x b s ih ρ tr ok hr h hm
    rcases ih _ _ _ hr h hm with h2 | ⟨y, h2, p, h3⟩
    · exact .inl h2
    · by_cases hy : y = x
      · subst hy; rw [HEnv.set_same] at h2; exact h2.elim
      · rw [HEnv.set_other _ hy] at h2
        exact .inr ⟨y, h2, p, hy, h3⟩
  case bnd =>
    intro b s ih ρ tr ok hr h hm
    rw [runs_plug] at hr
    rcases ih _ _ _ hr h hm with h2 | ⟨y, h2, p, h3⟩
    · exact .inl h2
    · by_cases hy : y = b.sym
      · subst hy; rw [HEnv.set_same] at h2
        obtain ⟨z, h4, h5⟩ := h2
        exact .inr ⟨z, h5, from_mem h4 h3⟩
      · rw [HEnv.set_other _ hy] at h2
        exact .inr ⟨y, h2, p, (uses_plug ..).mpr (.inr (.inl ⟨hy, h3⟩))⟩
  case async =>
    intro x t s ih1 ih2 ρ tr ok hr h hm
    rw [runs_async] at hr
    obtain ⟨a, b, oa, ob, hm1, _, h1, h2⟩ := hr
    have key : ∀ y, (ρ.setOpt x y).owns h → (ρ y).owns h ∧ some y ≠ x := by
      intro y hy
      cases x with
      | none => exact ⟨hy, by simp⟩
      | some z =>
        simp only [HEnv.setOpt] at hy
        by_cases hz : y = z
        · subst hz; rw [HEnv.set_same] at hy; exact hy.elim
        · rw [HEnv.set_other _ hz] at hy; exact ⟨hy, by simpa using hz⟩
    rcases (hm1.mem _).mp hm with hm | hm
    · rcases ih1 _ _ _ h1 h hm with h3 | ⟨y, h3, p, h4⟩
      · exact .inl ((hm1.mem _).mpr (.inl h3))
      · exact .inr ⟨y, (key y h3).1, p, (key y h3).2, .inl h4⟩
    · rcases ih2 _ _ _ h2 h hm with h3 | ⟨y, h3, p, h4⟩
      · exact .inl ((hm1.mem _).mpr (.inr h3))
      · exact .inr ⟨y, (key y h3).1, p, (key y h3).2, .inr h4⟩
  case nil => rintro ρ tr ok ⟨rfl, _⟩ h hm; cases hm
  case cons =>
    intro s ss ih1 ih2 ρ tr ok hr h hm
    rcases hr with ⟨_, hr⟩ | ⟨a, b, rfl, h1, h2⟩
    · rcases ih1 _ _ _ hr h hm with h3 | ⟨y, h3, p, h4⟩
      · exact .inl h3
      · exact .inr ⟨y, h3, p, .inl h4⟩
    · rcases List.mem_append.mp hm with hm | hm
      · rcases ih1 _ _ _ h1 h hm with h3 | ⟨y, h3, p, h4⟩
        · exact .inl (List.mem_append.mpr (.inl h3))
        · exact .inr ⟨y, h3, p, .inl h4⟩
      · rcases ih2 _ _ _ h2 h hm with h3 | ⟨y, h3, p, h4⟩
        · exact .inl (List.mem_append.mpr (.inr h3))
        · exact .inr ⟨y, h3, p, .inr h4⟩

/-- What a statement frees is allocations that it makes, or the ones of symbols that it frees. -/
theorem runs_free : (∀ s : Stmt, ∀ ρ tr ok, Runs s ρ tr ok → ∀ h, .free h ∈ tr → .alloc h ∈ tr ∨ ∃ y, (ρ y).obj = some h ∧ s.Frees y) ∧
    (∀ ss : Stmts, ∀ ρ tr ok, RunsL ss ρ tr ok → ∀ h, .free h ∈ tr → .alloc h ∈ tr ∨ ∃ y, (ρ y).obj = some h ∧ ss.Frees y) := by
  apply Stmt.shape
  case undef => rintro ρ tr ok ⟨rfl, _⟩ h hm; cases hm
  case call =>
    intro t i o xs ρ tr ok hr h hm
    obtain ⟨k, x, hk, h1, h2⟩ := hr _ hm
    cases hk
  case copy =>
    intro t i o xs _ _ ρ tr ok hr h hm
    obtain ⟨k, x, hk, h1, h2⟩ := hr _ hm
    cases hk
  case check =>
    intro c ρ tr ok hr h hm
    simp only [Runs] at hr
    split at hr
    · next x hx =>
      rw [hr.2] at hm
      split at hm
      · next k hk =>
        simp at hm
        subst hm
        exact .inr ⟨x, hk, hx⟩
      · simp at hm
    · obtain ⟨k, x, hk, ⟨p, h1⟩, h2⟩ := hr _ hm
      cases hk
  case lets =>
    rintro bs s cl ih ρ tr ok ⟨a, b, rfl, h1, h2⟩ h hm
    rcases List.mem_append.mp hm with hm | hm
    · obtain ⟨k, x, hk, ⟨p, h1⟩, h2⟩ := h1 _ hm
      cases hk
    · rcases ih _ _ _ h2 h hm with h3 | ⟨y, h3, h4⟩
      · exact .inl (List.mem_append.mpr (.inr h3))
      · by_cases hy : y ∈ bs.syms
        · simp [HEnv.bind, hy] at h3
        · simp only [HEnv.bind, hy, if_false] at h3
          exact .inr ⟨y, h3, hy, h4⟩
  case loop =>
    rintro x wk i st s ih ρ tr ok ⟨a, b, its, rfl, h1, h2, h3, _⟩ h hm
    rcases List.mem_append.mp hm with hm | hm
    · obtain ⟨k, y, hk, ⟨p, h4⟩, h5⟩ := h1 _ hm
      cases hk
    · obtain ⟨t, ht, hmt⟩ := (h3.mem _).mp hm
      obtain ⟨q, hq, rfl⟩ := List.mem_map.mp ht
      rcases ih _ _ _ (h2 q hq) h hmt with h4 | ⟨y, h4, h5⟩
      · exact .inl (List.mem_append.mpr (.inr ((h3.mem _).mpr ⟨_, ht, h4⟩)))
      · by_cases hy : y = x
        · subst hy; rw [HEnv.set_same] at h4; simp [HSlot.none] at h4
        · rw [HEnv.set_other _ hy] at h4
          exact .inr ⟨y, h4, hy, h5⟩
  case block => intro ss ih ρ tr ok hr h hm; exact ih ρ tr ok hr h hm
  case allocate =>
    intro x k e ds s ih ρ tr ok hr h hm
    rcases hr with ⟨rfl, _⟩ | ⟨k, t, h1, rfl⟩
    · cases hm
    · by_cases hk : h = k
      · subst hk; exact .inl (by simp)
      have hm' : .free h ∈ t := by
        simp only [closing, List.mem_cons, List.mem_append] at hm
        rcases hm with hm | hm | hm
        · cases hm
        · exact hm
        · split at hm <;> simp at hm
          exact (hk hm).elim
      rcases ih _ _ _ h1 h hm' with h2 | ⟨y, h2, h3⟩
      · exact .inl (by simp [h2])
      · by_cases hy : y = x
        · subst hy; rw [HEnv.set_same] at h2
          simp at h2
          exact (hk h2.symm).elim
        · rw [HEnv.set_other _ hy] at h2
          exact .inr ⟨y, h2, hy, h3⟩
  case const =>
    intro x b s ih ρ tr ok hr h hm
    rcases ih _ _ _ hr h hm with h2 | ⟨y, h2, h3⟩
    · exact .inl h2
    · by_cases hy : y = x
      · subst hy; rw [HEnv.set_same] at h2; simp [HSlot.none] at h2
      · rw [HEnv.set_other _ hy] at h2
        exact .inr ⟨y, h2, hy, h3⟩
  case bnd =>
    intro b s ih ρ tr ok hr h hm
    rw [runs_plug] at hr
    rcases ih _ _ _ hr h hm with h2 | ⟨y, h2, h3⟩
    · exact .inl h2
    · by_cases hy : y = b.sym
      · subst hy; rw [HEnv.set_same] at h2
        simp [HBnd.slot] at h2
      · rw [HEnv.set_other _ hy] at h2
        exact .inr ⟨y, h2, (frees_plug ..).mpr ⟨hy, h3⟩⟩
  case async =>
    intro x t s ih1 ih2 ρ tr ok hr h hm
    rw [runs_async] at hr
    obtain ⟨a, b, oa, ob, hm1, _, h1, h2⟩ := hr
    have key : ∀ y, (ρ.setOpt x y).obj = some h → (ρ y).obj = some h ∧ some y ≠ x := by
      intro y hy
      cases x with
      | none => exact ⟨hy, by simp⟩
      | some z =>
        simp only [HEnv.setOpt] at hy
        by_cases hz : y = z
        · subst hz; rw [HEnv.set_same] at hy; simp [HSlot.none] at hy
        · rw [HEnv.set_other _ hz] at hy; exact ⟨hy, by simpa using hz⟩
    rcases (hm1.mem _).mp hm with hm | hm
    · rcases ih1 _ _ _ h1 h hm with h3 | ⟨y, h3, h4⟩
      · exact .inl ((hm1.mem _).mpr (.inl h3))
      · exact .inr ⟨y, (key y h3).1, (key y h3).2, .inl h4⟩
    · rcases ih2 _ _ _ h2 h hm with h3 | ⟨y, h3, h4⟩
      · exact .inl ((hm1.mem _).mpr (.inr h3))
      · exact .inr ⟨y, (key y h3).1, (key y h3).2, .inr h4⟩
  case nil => rintro ρ tr ok ⟨rfl, _⟩ h hm; cases hm
  case cons =>
    intro s ss ih1 ih2 ρ tr ok hr h hm
    rcases hr with ⟨_, hr⟩ | ⟨a, b, rfl, h1, h2⟩
    · rcases ih1 _ _ _ hr h hm with h3 | ⟨y, h3, h4⟩
      · exact .inl h3
      · exact .inr ⟨y, h3, .inl h4⟩
    · rcases List.mem_append.mp hm with hm | hm
      · rcases ih1 _ _ _ h1 h hm with h3 | ⟨y, h3, h4⟩
        · exact .inl (List.mem_append.mpr (.inl h3))
        · exact .inr ⟨y, h3, .inl h4⟩
      · rcases ih2 _ _ _ h2 h hm with h3 | ⟨y, h3, h4⟩
        · exact .inl (List.mem_append.mpr (.inr h3))
        · exact .inr ⟨y, h3, .inr h4⟩

/-- The environment refers to the allocation. -/
def HEnv.Known (ρ : HEnv) (h : Nat) : Prop := ∃ y, (ρ y).owns h ∨ (ρ y).obj = some h

theorem runs_known {s : Stmt} {ρ : HEnv} {tr : List HEv} {ok : Bool} (hr : Runs s ρ tr ok) {h : Nat} {e : HEv} (he : e ∈ tr) (ho : e.on h = true) :
    .alloc h ∈ tr ∨ ρ.Known h := by
  cases e <;> simp [HEv.on] at ho
  · subst ho; exact .inl he
  · subst ho
    rcases runs_use.1 _ _ _ _ hr _ he with h1 | ⟨y, h1, _⟩
    · exact .inl h1
    · exact .inr ⟨y, .inl h1⟩
  · subst ho
    rcases runs_free.1 _ _ _ _ hr _ he with h1 | ⟨y, h1, _⟩
    · exact .inl h1
    · exact .inr ⟨y, .inr h1⟩

theorem runsL_known {s : Stmts} {ρ : HEnv} {tr : List HEv} {ok : Bool} (hr : RunsL s ρ tr ok) {h : Nat} {e : HEv} (he : e ∈ tr) (ho : e.on h = true) :
    .alloc h ∈ tr ∨ ρ.Known h := runs_known (s := .block s) hr he ho

end Slinky
