import Verif.FuseSiblingsEx

/-!
# Narrowing the scopes of buffers

The simplifier moves statements out of the declaration of a buffer that they do not use: `lift_decl_invariants` (`make_buffer`, `constant_buffer`,
`crop_buffer`, `crop_dim`, `slice_buffer`, `slice_dim`, `transpose`), and `visit(const allocate*)`. This file models these two steps, for a
declaration whose parameters and body are already simplified.
-/

namespace Slinky.NS

open Slinky

/-- `depends_on(s, sym).any()` (simplify.cc:80, 84, 1667). -/
def dep (x : Nat) (s : Stmt) : Bool := !(dependsOnS s x).isEmpty

/-- simplify.cc:79-95: the loop over the statements of the block. Each maximal run of statements that depend on the symbol is given to `mk`
(`make_decl`), the other statements are copied. Line 93 copies the first statement after the run, which does not depend on the symbol; this is what
the next iteration of the loop would do. -/
def liftLoop (mk : Stmt → Stmt) (x : Nat) : List Stmt → List Stmt
  | [] => []
  | s :: ss =>
    if dep x s then mk (blockMake (s :: ss.takeWhile (dep x))) :: liftLoop mk x (ss.dropWhile (dep x))
    else s :: liftLoop mk x ss
termination_by ss => ss.length
decreasing_by
  · have := (List.dropWhile_sublist (l := ss) (dep x)).length_le
    simp only [List.length_cons]; omega
  · simp

/-- simplify.cc:73-99 `lift_decl_invariants(body, sym, make_decl)`. Line 87-89 (every statement depends on the declaration) is the case `all`. -/
def liftDecl (mk : Stmt → Stmt) (x : Nat) : Stmt → Stmt
  | .block ss =>
    if ss.toList.all (dep x) && !ss.toList.isEmpty then mk (.block ss) else blockMake (liftLoop mk x ss.toList)
  | body => mk body

/-- `make_make_buffer` (simplify.cc:1877-1890), `make_constant_buffer` (1916-1929), `make_crop` (2204-2230), `make_slice` (2345-2357),
`make_transpose` (2430-2441): a declaration that is not used is removed. (For `make_crop` and `make_slice`, the test is before the call of
`lift_decl_invariants`, 2186-2189 and 2336-2339; the runs that are given to them depend on the symbol.) Not modelled: the replacement of the
metadata of a buffer (1882, 1921), of a transpose whose dimensions are not used (2434), and the fusion of two equal crops (2205-2217). -/
def mkHead (h : Head) (x : Nat) (body : Stmt) : Stmt := if dep x body then h.stmt x body else body

/-- The result for a declaration of a buffer. -/
def narrow (h : Head) (x : Nat) (body : Stmt) : Stmt := liftDecl (mkHead h x) x body

/-- simplify.cc:1666-1677: the statements before the first one that depends on the allocation, from there to the last one, and after the last one. -/
def split3 (x : Nat) (ss : List Stmt) : List Stmt × List Stmt × List Stmt :=
  let rest := ss.dropWhile fun s => !dep x s
  (ss.takeWhile fun s => !dep x s, (rest.reverse.dropWhile fun s => !dep x s).reverse, (rest.reverse.takeWhile fun s => !dep x s).reverse)

/-- simplify.cc:1650-1688 `visit(const allocate*)`, for a buffer whose data is used, or that is not used at all. (Not modelled: 1659-1662, an
allocation of which only the metadata is used.) In line 1675, `find_if` fails only if no statement depends on the allocation, which is not so. -/
def narrowAlloc (x : Nat) (st : Storage) (e : Expr) (ds : List DimE) (body : Stmt) : Stmt :=
  if dep x body then
    match body with
    | .block ss =>
      let p := split3 x ss.toList
      blockMake [blockMake p.1, .allocate x st e ds (blockMake p.2.1), blockMake p.2.2]
    | _ => blockMake [.undef, .allocate x st e ds body, .undef]
  else body

/-! ## Lemmas -/

section
variable {w : World} {x : Nat} {ρ : SEnv}

theorem dep_uses {s : Stmt} (hb : s.BufOK) : dep x s = true ↔ ∃ p : Dep, s.Uses (some p) x := by
  unfold dep
  constructor
  · intro h
    cases e : dependsOnS s x with
    | nil => rw [e] at h; simp at h
    | cons p ps => exact ⟨p, (dependsOnS_flags s hb x p).mp (by rw [e]; simp)⟩
  · rintro ⟨p, hp⟩
    have := (dependsOnS_flags s hb x p).mpr hp
    cases e : dependsOnS s x with
    | nil => rw [e] at this; cases this
    | cons p ps => rfl

/-- A statement that does not depend on `x` does the same in the scope of `x` and outside. -/
theorem sem_out {s : Stmt} (hb : s.BufOK) (hc : s.ClosOK) (hd : dep x s = false) (hx : (∃ b, ρ x = .buf b) ∨ ¬ s.Uses none x) (b : Buf) (l : List Ev) :
    sem w false s (ρ.set x (.buf b)) l = sem w false s ρ l := by
  have hd' : ∀ p : Dep, ¬ s.Uses (some p) x := fun p hp => by rw [(dep_uses hb).mpr ⟨p, hp⟩] at hd; cases hd
  refine sem_congr_eq hb hc fun y => ?_
  by_cases e : y = x
  · subst e
    refine Or.inr ⟨hd', fun hn => ?_⟩
    rcases hx with h | h
    · exact ⟨⟨b, by simp [SEnv.set_get]⟩, h⟩
    · exact absurd hn h
  · exact Or.inl (by rw [SEnv.set_get, if_neg e])

/-- The statements can be moved out of the scope of `x`. -/
def Movable (ρ : SEnv) (x : Nat) (ss : List Stmt) : Prop :=
  ∀ s ∈ ss, s.BufOK ∧ s.ClosOK ∧ ((∃ b, ρ x = .buf b) ∨ ¬ s.Uses none x)

theorem Movable.mono {a b : List Stmt} (h : Movable ρ x b) (hs : ∀ s ∈ a, s ∈ b) : Movable ρ x a := fun s m => h s (hs s m)

theorem semSeq_out : ∀ {ss : List Stmt}, Movable ρ x ss → (∀ s ∈ ss, dep x s = false) → ∀ (b : Buf) (l : List Ev),
    semSeq w ss (ρ.set x (.buf b)) l = semSeq w ss ρ l
  | [], _, _, _, _ => rfl
  | s :: ss, hm, hd, b, l => by
    have ih := semSeq_out (ss := ss) (hm.mono fun s h => by simp [h]) (fun s h => hd s (by simp [h])) b
    obtain ⟨h1, h2, h3⟩ := hm s (by simp)
    by_cases hu : s = .undef
    · subst hu; simp only [semSeq]; exact ih l
    · rw [semSeq_cons hu, semSeq_cons hu, sem_out h1 h2 (hd s (by simp)) h3 b l]
      congr 1; funext p; rw [ih p.2]

theorem dep_undef : dep x .undef = false := rfl

theorem solid_ne {ss : List Stmt} (h : SolidList ss) {s : Stmt} (hs : s ∈ ss) : s ≠ .undef := by
  rintro rfl
  have := (h _ hs).2
  simp [Stmt.defined] at this

theorem blockMake_solid_ne : ∀ {ss : List Stmt}, SolidList ss → ss ≠ [] → blockMake ss ≠ .undef
  | ss, h, hne => by
    unfold blockMake
    have : eraseUndefs ss = ss := List.filter_eq_self.mpr fun s hs => (h s hs).2
    rw [flattenBlocks_solid h, this]
    match ss, h, hne with
    | [s], h, _ => exact solid_ne h (by simp)
    | a :: b :: r, _, _ => simp

theorem takeWhile_mem {α : Type} {p : α → Bool} {ss : List α} {s : α} (h : s ∈ ss.takeWhile p) : s ∈ ss := (List.takeWhile_sublist p).subset h
theorem dropWhile_mem {α : Type} {p : α → Bool} {ss : List α} {s : α} (h : s ∈ ss.dropWhile p) : s ∈ ss := (List.dropWhile_sublist p).subset h

theorem SolidList.mono {a b : List Stmt} (h : SolidList b) (hs : ∀ s ∈ a, s ∈ b) : SolidList a := fun s m => h s (hs s m)

theorem uses_iff {p : DepO} : ∀ {ss : Stmts}, ss.Uses p x ↔ ∃ s ∈ ss.toList, s.Uses p x
  | .nil => by simp [Stmts.Uses, Stmts.toList]
  | .cons s ss => by simp [Stmts.Uses, Stmts.toList, uses_iff (ss := ss)]

theorem bufOK_iff : ∀ {ss : Stmts}, ss.BufOK ↔ ∀ s ∈ ss.toList, s.BufOK
  | .nil => by simp [Stmts.BufOK, Stmts.toList]
  | .cons s ss => by simp [Stmts.BufOK, Stmts.toList, bufOK_iff (ss := ss)]

theorem closOK_iff : ∀ {ss : Stmts}, ss.ClosOK ↔ ∀ s ∈ ss.toList, s.ClosOK
  | .nil => by simp [Stmts.ClosOK, Stmts.toList]
  | .cons s ss => by simp [Stmts.ClosOK, Stmts.toList, closOK_iff (ss := ss)]

theorem dep_block {ss : Stmts} (hb : ∀ s ∈ ss.toList, s.BufOK) : dep x (.block ss) = true ↔ ∃ s ∈ ss.toList, dep x s = true := by
  rw [dep_uses (by simp only [Stmt.BufOK]; exact bufOK_iff.mpr hb)]
  simp only [Stmt.Uses, uses_iff]
  constructor
  · rintro ⟨p, s, hs, h⟩; exact ⟨s, hs, (dep_uses (hb s hs)).mpr ⟨p, h⟩⟩
  · rintro ⟨s, hs, h⟩
    obtain ⟨p, h⟩ := (dep_uses (hb s hs)).mp h
    exact ⟨p, s, hs, h⟩

theorem dep_blockMake {ss : List Stmt} (hs : SolidList ss) (hb : ∀ s ∈ ss, s.BufOK) : dep x (blockMake ss) = true ↔ ∃ s ∈ ss, dep x s = true := by
  unfold blockMake
  have : eraseUndefs ss = ss := List.filter_eq_self.mpr fun s h => (hs s h).2
  rw [flattenBlocks_solid hs, this]
  match ss, hb with
  | [], _ => simp [dep_undef]
  | [s], _ => simp
  | a :: b :: r, hb => simp only; rw [dep_block (by rw [Stmts.toList_ofList]; exact hb), Stmts.toList_ofList]

/-- The loop of `lift_decl_invariants`. -/
theorem liftLoop_sem {mk : Stmt → Stmt} {b : Buf} (hmk : ∀ (body : Stmt) (l : List Ev) (p : Int × List Ev), dep x body = true →
      sem w false body (ρ.set x (.buf b)) l = some p → mk body ≠ .undef ∧ sem w false (mk body) ρ l = some p) :
    ∀ (ss : List Stmt), SolidList ss → Movable ρ x ss → ∀ (l : List Ev) (p : Int × List Ev), semSeq w ss (ρ.set x (.buf b)) l = some p →
      semSeq w (liftLoop mk x ss) ρ l = some p
  | [], _, _, l, p, h => by rw [liftLoop]; exact h
  | s :: ss, hs, hm, l, p, h => by
    rw [liftLoop]
    have hne := solid_ne hs (s := s) (by simp)
    split
    · rename_i hd
      have hsub : ∀ t ∈ s :: ss.takeWhile (dep x), t ∈ s :: ss := fun t ht => by
        rcases List.mem_cons.1 ht with rfl | ht
        · simp
        · simp [takeWhile_mem ht]
      have e : s :: ss = (s :: ss.takeWhile (dep x)) ++ ss.dropWhile (dep x) := by simp [List.takeWhile_append_dropWhile]
      rw [e, semSeq_append] at h
      obtain ⟨q, h1, h2⟩ := Option.bind_eq_some_iff.1 h
      have hd2 : dep x (blockMake (s :: ss.takeWhile (dep x))) = true :=
        (dep_blockMake (SolidList.mono hs hsub) fun t ht => (hm t (hsub t ht)).1).mpr ⟨s, by simp, hd⟩
      obtain ⟨k1, k2⟩ := hmk _ l q hd2 (sem_blockMake h1 (blockMake_solid_ne (SolidList.mono hs hsub) (by simp)))
      have hlen := (List.dropWhile_sublist (l := ss) (dep x)).length_le
      have ih := liftLoop_sem hmk (ss.dropWhile (dep x)) (SolidList.mono hs fun t ht => by simp [dropWhile_mem ht])
        (hm.mono fun t ht => by simp [dropWhile_mem ht])
      rw [semSeq_cons k1, k2, Option.bind_some]
      split
      · rename_i h0; rw [if_pos h0] at h2; exact h2
      · rename_i h0; rw [if_neg h0] at h2; exact ih _ _ h2
    · rename_i hd
      have hd : dep x s = false := by simpa using hd
      obtain ⟨h1, h2, h3⟩ := hm s (by simp)
      have ih := liftLoop_sem hmk ss (SolidList.mono hs fun t ht => by simp [ht]) (hm.mono fun t ht => by simp [ht])
      rw [semSeq_cons hne, sem_out h1 h2 hd h3 b l] at h
      rw [semSeq_cons hne]
      obtain ⟨q, g1, g2⟩ := Option.bind_eq_some_iff.1 h
      rw [g1, Option.bind_some]
      split
      · rename_i h0; rw [if_pos h0] at g2; exact g2
      · rename_i h0; rw [if_neg h0] at g2; exact ih _ _ g2
termination_by ss => ss.length
decreasing_by
  all_goals first | exact Nat.lt_succ_of_le hlen | simp

theorem liftLoop_ne {mk : Stmt → Stmt} : ∀ {ss : List Stmt}, ss ≠ [] → liftLoop mk x ss ≠ []
  | [], h => absurd rfl h
  | s :: ss, _ => by rw [liftLoop]; split <;> simp

theorem head_ne {h : Head} {body : Stmt} : h.stmt x body ≠ .undef := by cases h <;> simp [Head.stmt]

/-- A declaration that succeeds declares a buffer that does not depend on the log. -/
theorem head_declares {h : Head} (hl : h.LogFree) {l : List Ev} (hv : sem w false (h.stmt x (.block .nil)) ρ l = some (0, l)) :
    ∃ b, ∀ (body : Stmt) (l' : List Ev), sem w false (h.stmt x body) ρ l' = sem w false body (ρ.set x (.buf b)) l' := by
  rw [sem_head] at hv
  obtain ⟨v, h1, h2⟩ := Option.bind_eq_some_iff.1 hv
  cases v with
  | none => simp at h2
  | some b =>
    refine ⟨b, fun body l' => ?_⟩
    rw [sem_head, h.val_log (l' := l) ρ x (Or.inr hl), h1]
    rfl

/-- The body of a block as `block::make` makes it: at least one statement, all defined, and no block in it. -/
def FlatBlock : Stmt → Prop
  | .block ss => ss.toList ≠ [] ∧ SolidList ss.toList
  | _ => True

theorem movable_block {ss : Stmts} (hb : ss.BufOK) (hc : ss.ClosOK) (hx : (∃ b, ρ x = .buf b) ∨ ¬ ss.Uses none x) : Movable ρ x ss.toList := fun s hs =>
  ⟨bufOK_iff.1 hb s hs, closOK_iff.1 hc s hs, hx.imp id fun h hu => h (uses_iff.2 ⟨s, hs, hu⟩)⟩

theorem blockMake_ne_of {ss : List Stmt} (h : ∃ s ∈ ss, s ≠ .undef ∧ (∀ b, s = .block b → b.toList ≠ [] ∧ SolidList b.toList)) : blockMake ss ≠ .undef := by
  have key : ∃ s ∈ eraseUndefs (flattenBlocks ss), s ≠ .undef := by
    obtain ⟨s, hs, hne, hbl⟩ := h
    induction ss with
    | nil => cases hs
    | cons t ts ih =>
      have hf : flattenBlocks (t :: ts) = t.flat ++ flattenBlocks ts := by cases t <;> simp [flattenBlocks, Stmt.flat]
      rw [hf, eraseUndefs, List.filter_append]
      rcases List.mem_cons.1 hs with rfl | hs
      · cases s with
        | undef => exact absurd rfl hne
        | block b =>
          obtain ⟨h1, h2⟩ := hbl b rfl
          obtain ⟨u, us, e⟩ := List.exists_cons_of_ne_nil h1
          refine ⟨u, List.mem_append_left _ (List.mem_filter.2 ⟨by simp [Stmt.flat, e], (h2 u (by simp [e])).2⟩), solid_ne h2 (by simp [e])⟩
        | _ => exact ⟨_, List.mem_append_left _ (List.mem_filter.2 ⟨by simp [Stmt.flat]; rfl, rfl⟩), by simp⟩
      · obtain ⟨u, hu, hun⟩ := ih hs
        exact ⟨u, List.mem_append_right _ hu, hun⟩
  obtain ⟨s, hs, hne⟩ := key
  unfold blockMake
  split
  · rename_i e; rw [e] at hs; cases hs
  · rename_i t e; rw [e] at hs; rw [List.mem_singleton.1 hs] at hne; exact hne
  · simp

theorem block_cases (s : Stmt) : (∃ ss, s = .block ss) ∨ s.isBlock = false := by
  cases s <;> simp [Stmt.isBlock]

theorem liftDecl_other {mk : Stmt → Stmt} {s : Stmt} (h : s.isBlock = false) : liftDecl mk x s = mk s := by
  cases s <;> first | rfl | (simp [Stmt.isBlock] at h)

theorem mkHead_dep {h : Head} {body : Stmt} (hd : dep x body = true) : mkHead h x body = h.stmt x body := by rw [mkHead, if_pos hd]

theorem liftLoop_nonempty {h : Head} {ss : List Stmt} (hs : SolidList ss) (hb : ∀ s ∈ ss, s.BufOK) (hne : ss ≠ []) :
    ∃ s ∈ liftLoop (mkHead h x) x ss, s ≠ .undef ∧ s.isBlock = false := by
  match ss, hne with
  | s :: ss, _ =>
    rw [liftLoop]
    split
    · rename_i hd
      refine ⟨_, List.mem_cons_self, ?_⟩
      have hsub : ∀ t ∈ s :: ss.takeWhile (dep x), t ∈ s :: ss := fun t ht => by
        rcases List.mem_cons.1 ht with rfl | ht
        · simp
        · simp [takeWhile_mem ht]
      rw [mkHead_dep ((dep_blockMake (SolidList.mono hs hsub) fun t ht => hb t (hsub t ht)).mpr ⟨s, by simp, hd⟩)]
      refine ⟨head_ne, by cases h <;> rfl⟩
    · exact ⟨s, by simp, solid_ne hs (by simp), (hs s (by simp)).1⟩

theorem not_block {s : Stmt} (h : s.isBlock = false) : ∀ b, s = .block b → b.toList ≠ [] ∧ SolidList b.toList := fun b e => by
  subst e; simp [Stmt.isBlock] at h

theorem narrow_sem (h : Head) (hl : h.LogFree) {body : Stmt} (hb : body.BufOK) (hc : body.ClosOK) (hf : FlatBlock body)
    (hx : (∃ b, ρ x = .buf b) ∨ ¬ body.Uses none x) {l : List Ev} (hv : sem w false (h.stmt x (.block .nil)) ρ l = some (0, l)) {p : Int × List Ev}
    (hs : sem w false (h.stmt x body) ρ l = some p) : sem w false (narrow h x body) ρ l = some p := by
  obtain ⟨b, hd⟩ := head_declares hl hv
  unfold narrow
  have hs' := hs
  rw [hd] at hs'
  have hmk : ∀ (body : Stmt) (l : List Ev) (p : Int × List Ev), dep x body = true →
      sem w false body (ρ.set x (.buf b)) l = some p → mkHead h x body ≠ .undef ∧ sem w false (mkHead h x body) ρ l = some p := fun body l p k1 k2 => by
    rw [mkHead_dep k1, hd]; exact ⟨head_ne, k2⟩
  rcases block_cases body with ⟨ss, rfl⟩ | hnb
  · have hb' : ∀ s ∈ ss.toList, s.BufOK := bufOK_iff.1 (by simpa only [Stmt.BufOK] using hb)
    have hm : Movable ρ x ss.toList := movable_block (by simpa only [Stmt.BufOK] using hb) (by simpa only [Stmt.ClosOK] using hc)
      (by simpa only [Stmt.Uses] using hx)
    simp only [liftDecl]
    split
    · rename_i ha
      simp only [Bool.and_eq_true, List.all_eq_true] at ha
      obtain ⟨s, r, e⟩ := List.exists_cons_of_ne_nil hf.1
      rw [mkHead_dep ((dep_block hb').2 ⟨s, by simp [e], ha.1 s (by simp [e])⟩)]
      exact hs
    · rw [sem] at hs'
      obtain ⟨s, k1, k2, k3⟩ := liftLoop_nonempty (h := h) (x := x) hf.2 hb' hf.1
      exact sem_blockMake (liftLoop_sem hmk ss.toList hf.2 hm l p (semAll_semSeq hs')) (blockMake_ne_of ⟨s, k1, k2, not_block k3⟩)
  · rw [liftDecl_other hnb]
    unfold mkHead
    split
    · exact hs
    · rename_i hn
      rw [← sem_out hb hc (by simpa using hn) hx b l]
      exact hs'

/-! ## Allocations -/

theorem semSeq_blockMake {a rest : List Stmt} (hs : SolidList a) (l : List Ev) : semSeq w (blockMake a :: rest) ρ l = semSeq w (a ++ rest) ρ l := by
  unfold blockMake
  have : eraseUndefs a = a := List.filter_eq_self.mpr fun s h => (hs s h).2
  rw [flattenBlocks_solid hs, this]
  match a, hs with
  | [], _ => simp [semSeq]
  | [s], _ => rfl
  | s :: t :: r, hs =>
    simp only
    rw [semSeq_cons (by simp), sem, semSeq_append, semSeq_semAll _ _ fun s h => solid_ne hs h]

theorem split3_append (ss : List Stmt) : (split3 x ss).1 ++ ((split3 x ss).2.1 ++ (split3 x ss).2.2) = ss := by
  simp only [split3]
  rw [← List.reverse_append, List.takeWhile_append_dropWhile, List.reverse_reverse, List.takeWhile_append_dropWhile]

theorem mem_takeWhile {α : Type} {p : α → Bool} : ∀ {ss : List α} {s : α}, s ∈ ss.takeWhile p → p s = true
  | t :: ts, s, h => by
    rw [List.takeWhile_cons] at h
    split at h
    · rename_i ht
      rcases List.mem_cons.1 h with rfl | h
      · exact ht
      · exact mem_takeWhile h
    · cases h

theorem split3_before {ss : List Stmt} {s : Stmt} (h : s ∈ (split3 x ss).1) : dep x s = false := by
  simpa using mem_takeWhile h

theorem split3_after {ss : List Stmt} {s : Stmt} (h : s ∈ (split3 x ss).2.2) : dep x s = false := by
  simp only [split3, List.mem_reverse] at h
  simpa using mem_takeWhile h

variable {vis : Ev → Bool}

/-- An allocation that succeeds at one time gives the same buffer at all times. -/
theorem alloc_declares (ha : w.SameAlloc vis) {st : Storage} {e : Expr} {ds : List DimE} (he : e.LogFree) (hds : ∀ d ∈ ds, d.LogFree) {l m : List Ev}
    (hv : sem w false (.allocate x st e ds (.block .nil)) ρ l = some (0, m)) :
    ∃ b h, ∀ (body : Stmt) (l' : List Ev), ∃ l1, LogEq vis l' l1 ∧
      sem w false (.allocate x st e ds body) ρ l' = (sem w false body (ρ.set x (.buf b)) l1).map fun p => (p.1, freeS h p.2) := by
  simp only [sem, Option.bind_eq_bind, Option.bind_eq_some_iff] at hv
  obtain ⟨n, e1, v, e2, g⟩ := hv
  rcases hk : allocS w st ⟨none, n, v.take (trimRank v)⟩ l with _ | ⟨b, h, l1⟩
  · rw [hk] at g; simp at g
  · rw [hk] at g
    simp only at g
    split at g
    · simp at g
    · rename_i hc
      refine ⟨b, h, fun body l' => ?_⟩
      rcases allocS_same ha l l' st ⟨none, n, v.take (trimRank v)⟩ with ⟨k1, k2⟩ | ⟨b1, h1, l1, l1', k1, k2, k3, k4⟩
      · rw [hk] at k1; cases k1
      · rw [hk] at k1
        cases k1
        refine ⟨l1', k4, ?_⟩
        simp only [sem, Option.bind_eq_bind]
        rw [evalI_log (l' := l) e ρ (Or.inr he), e1, Option.bind_some, evalDimsS_log (l' := l) ρ _ ds (Or.inr hds), e2, Option.bind_some, k2]
        simp only
        rw [if_neg hc]

theorem narrowAlloc_le (hw : w.Blind vis) (ha : w.SameAlloc vis) {st : Storage} {e : Expr} {ds : List DimE} (he : e.LogFree) (hds : ∀ d ∈ ds, d.LogFree)
    {body : Stmt} (hb : body.BufOK) (hc : body.ClosOK) (hf : FlatBlock body) (hx : (∃ b, ρ x = .buf b) ∨ ¬ body.Uses none x) {l m0 : List Ev}
    (hv : sem w false (.allocate x st e ds (.block .nil)) ρ l = some (0, m0)) {r : Int} {m : List Ev}
    (hs : sem w false (.allocate x st e ds body) ρ l = some (r, m)) :
    ∃ m', sem w false (narrowAlloc x st e ds body) ρ l = some (r, m') ∧ LogEq vis m m' := by
  obtain ⟨b, h, hd⟩ := alloc_declares ha he hds hv
  unfold narrowAlloc
  obtain ⟨l1, k1, k2⟩ := hd body l
  have hs0 := hs
  rw [k2, Option.map_eq_some_iff] at hs
  obtain ⟨⟨r1, m1⟩, g1, g2⟩ := hs
  cases g2
  have hfr := freeS_same ha h
  split
  · rcases block_cases body with ⟨ss, rfl⟩ | hnb
    · simp only
      have hm : Movable ρ x ss.toList := movable_block (by simpa only [Stmt.BufOK] using hb) (by simpa only [Stmt.ClosOK] using hc)
        (by simpa only [Stmt.Uses] using hx)
      have hsp := split3_append (x := x) ss.toList
      have hb1 : ∀ s ∈ (split3 x ss.toList).1, dep x s = false := fun s h => split3_before h
      have hb3 : ∀ s ∈ (split3 x ss.toList).2.2, dep x s = false := fun s h => split3_after h
      generalize split3 x ss.toList = p at hsp hb1 hb3
      obtain ⟨A, B, C⟩ := p
      simp only at hsp hb1 hb3 ⊢
      have hA : ∀ s ∈ A, s ∈ ss.toList := fun s h => by rw [← hsp]; simp [h]
      have hB : ∀ s ∈ B, s ∈ ss.toList := fun s h => by rw [← hsp]; simp [h]
      have hC : ∀ s ∈ C, s ∈ ss.toList := fun s h => by rw [← hsp]; simp [h]
      have hsA := SolidList.mono hf.2 hA
      have hsB := SolidList.mono hf.2 hB
      have hsC := SolidList.mono hf.2 hC
      rw [sem] at g1
      have g1 := semAll_semSeq g1
      rw [← hsp, semSeq_append, semSeq_out (hm.mono hA) hb1] at g1
      have hres : ∀ (q : Int × List Ev), semSeq w (A ++ (.allocate x st e ds (blockMake B) :: C)) ρ l = some q →
          sem w false (blockMake [blockMake A, .allocate x st e ds (blockMake B), blockMake C]) ρ l = some q := fun q hq => by
        refine sem_blockMake ?_ (blockMake_ne_of ⟨.allocate x st e ds (blockMake B), by simp, by simp, by simp⟩)
        rw [semSeq_blockMake hsA, semSeq_append]
        rw [semSeq_append] at hq
        obtain ⟨q1, c1, c2⟩ := Option.bind_eq_some_iff.1 hq
        rw [c1, Option.bind_some]
        split
        · rename_i h0; rw [if_pos h0] at c2; exact c2
        · rename_i h0
          rw [if_neg h0, semSeq_cons (by simp)] at c2
          rw [semSeq_cons (by simp)]
          simp only [semSeq_blockMake hsC, List.append_nil]
          exact c2
      obtain ⟨⟨r2, m2⟩, c1, c2⟩ := Option.bind_eq_some_iff.1 g1
      obtain ⟨m2', d1, d2⟩ := semSeq_refl_le hw A k1.symm c1
      simp only at c2
      by_cases h0 : r2 = 0
      · rw [if_neg (by simpa using h0), semSeq_append] at c2
        obtain ⟨⟨r3, m3⟩, f1, f2⟩ := Option.bind_eq_some_iff.1 c2
        obtain ⟨l3, p1, p2⟩ := hd (blockMake B) m2'
        have hBM : ∃ m3', sem w false (blockMake B) (ρ.set x (.buf b)) l3 = some (r3, m3') ∧ LogEq vis m3 m3' := by
          obtain ⟨m3', q1, q2⟩ := semSeq_refl_le hw B (d2.trans p1) f1
          refine ⟨m3', sem_blockMake q1 ?_, q2⟩
          intro hu
          rename_i hdep
          have hbs : ∀ s ∈ ss.toList, s.BufOK := bufOK_iff.1 (by simpa only [Stmt.BufOK] using hb)
          obtain ⟨s, s1, s2⟩ := (dep_block hbs).1 hdep
          have : s ∈ B := by
            rw [← hsp] at s1
            rcases List.mem_append.1 s1 with s1 | s1
            · rw [hb1 s s1] at s2; cases s2
            rcases List.mem_append.1 s1 with s1 | s1
            · exact s1
            · rw [hb3 s s1] at s2; cases s2
          exact blockMake_solid_ne hsB (List.ne_nil_of_mem this) hu
        obtain ⟨m3', q1, q2⟩ := hBM
        have q3 : sem w false (.allocate x st e ds (blockMake B)) ρ m2' = some (r3, freeS h m3') := by rw [p2, q1]; rfl
        by_cases h1 : r3 = 0
        · rw [if_neg (by simpa using h1), semSeq_out (hm.mono hC) hb3] at f2
          obtain ⟨m4, t1, t2⟩ := semSeq_refl_le hw C (q2.trans (hfr m3').symm) f2
          refine ⟨m4, hres _ ?_, (hfr m1).trans t2⟩
          rw [semSeq_append, d1, Option.bind_some, if_neg (by simpa using h0), semSeq_cons (by simp), q3, Option.bind_some, if_neg (by simpa using h1)]
          exact t1
        · rw [if_pos h1] at f2
          cases f2
          refine ⟨freeS h m3', hres _ ?_, (hfr _).trans (q2.trans (hfr _).symm)⟩
          rw [semSeq_append, d1, Option.bind_some, if_neg (by simpa using h0), semSeq_cons (by simp), q3, Option.bind_some, if_pos h1]
      · rw [if_pos h0] at c2
        cases c2
        refine ⟨m2', hres _ ?_, (hfr _).trans d2⟩
        rw [semSeq_append, d1, Option.bind_some, if_pos h0]
    · have : (match body with
        | .block ss =>
          let p := split3 x ss.toList
          blockMake [blockMake p.1, .allocate x st e ds (blockMake p.2.1), blockMake p.2.2]
        | _ => blockMake [.undef, .allocate x st e ds body, .undef]) = .allocate x st e ds body := by
        cases body <;> first | rfl | (simp [Stmt.isBlock] at hnb)
      rw [this]
      exact ⟨_, hs0, LogEq.refl _ _⟩
  · rename_i hn
    rw [sem_out hb hc (by simpa using hn) hx b l1] at g1
    obtain ⟨m', a1, a2⟩ := sem_le hw body false ρ k1.symm g1
    exact ⟨m', a1, (hfr _).trans a2⟩

end

end Slinky.NS
