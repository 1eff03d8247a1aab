import Verif.CompareStmt
import Verif.DeshadowEx

/-!
# Model of `canonicalize_nodes` (slinky/builder/optimizations.cc:1855-1883)

Statements that match are replaced by one node. A map (ordered by `node_less`) gives the result for each statement that was seen.

Simplifications:
* the map is a list, and the lookup finds an entry whose key matches. (`compareS_strict_weak_order`: that is what `std::map` does.)
* expressions do not change: an expression is replaced by an expression that matches, and expressions that match are equal (`match_iff`). What
  changes is that the two ends of an interval are one node if they are equal;
* a node whose children are all the same nodes is not made again. Here it is. That makes no difference if the blocks are as `block::make` makes
  them (`Stmt.Flat`).
-/

namespace Slinky

/-- node_mutator.h `mutate(const interval_expr&)`, with the `mutate(const expr&)` of the canonicalizer (optimizations.cc:1871-1875): if the ends
are equal, they become one node. -/
def Interval.canon (i : Interval) : Interval := ⟨i.min, i.maxEnd, decide (i.min = i.maxEnd)⟩

/-- node_mutator.cc:237-269: the dimensions of `allocate` and `make_buffer` -/
def DimE.canon (d : DimE) : DimE := ⟨d.bounds.canon, d.stride, d.fold⟩

/-- optimizations.cc:1857 `stmts`: the statements that were seen, and the results -/
abbrev Memo := List (Stmt × Stmt)

/-- optimizations.cc:1867 `stmts[s]`, if there is an entry and the result is defined -/
def Memo.find (content : Buf → List Int) (m : Memo) (s : Stmt) : Option Stmt := (m.find? fun p => matchS content p.1 s && p.2.defined).map (·.2)

/-- optimizations.cc:1862-1865: calls are not looked up. -/
def Stmt.isCall : Stmt → Bool
  | .call .. => true
  | _ => false

/-- optimizations.cc:1861-1870: the result for `s` is `look` if there is one, else what `visit` gives, and it is remembered. -/
def memoized (s : Stmt) (look : Option Stmt) (m : Memo) (visit : Stmt × Memo) : Stmt × Memo :=
  if s.isCall then (s, m)
  else match look with
    | some r => (r, m)
    | none => (visit.1, (s, visit.1) :: visit.2)

mutual
/-- optimizations.cc:1861-1870 `node_canonicalizer::mutate(const stmt&)`, with the visitors of `node_mutator` (node_mutator.cc:91-135,
197-325) -/
def canonS (content : Buf → List Int) : Stmt → Memo → Stmt × Memo
  | .undef, m => (.undef, m)
  | .call t i o xs, m => (.call t i o xs, m)
  | .copy t s xs d ys p, m => memoized (.copy t s xs d ys p) (m.find content (.copy t s xs d ys p)) m (.copy t s xs d ys p, m)
  | .lets bs b c, m =>
    let r := canonS content b m
    memoized (.lets bs b c) (m.find content (.lets bs b c)) m (.lets bs r.1 c, r.2)
  | .block ss, m =>
    let r := canonSs content ss m
    memoized (.block ss) (m.find content (.block ss)) m (blockMake r.1.toList, r.2)
  | .loop x w b st s, m =>
    let r := canonS content s m
    memoized (.loop x w b st s) (m.find content (.loop x w b st s)) m (.loop x w b.canon st r.1, r.2)
  | .allocate x k e ds s, m =>
    let r := canonS content s m
    memoized (.allocate x k e ds s) (m.find content (.allocate x k e ds s)) m (.allocate x k e (ds.map DimE.canon) r.1, r.2)
  | .makeBuffer x p e ds s, m =>
    let r := canonS content s m
    memoized (.makeBuffer x p e ds s) (m.find content (.makeBuffer x p e ds s)) m (.makeBuffer x p e (ds.map DimE.canon) r.1, r.2)
  | .constantBuffer x v s, m =>
    let r := canonS content s m
    memoized (.constantBuffer x v s) (m.find content (.constantBuffer x v s)) m (.constantBuffer x v r.1, r.2)
  | .cloneBuffer x y s, m =>
    let r := canonS content s m
    memoized (.cloneBuffer x y s) (m.find content (.cloneBuffer x y s)) m (.cloneBuffer x y r.1, r.2)
  | .cropBuffer x y bs s, m =>
    let r := canonS content s m
    memoized (.cropBuffer x y bs s) (m.find content (.cropBuffer x y bs s)) m (.cropBuffer x y (bs.map Interval.canon) r.1, r.2)
  | .cropDim x y d b s, m =>
    let r := canonS content s m
    memoized (.cropDim x y d b s) (m.find content (.cropDim x y d b s)) m (.cropDim x y d b.canon r.1, r.2)
  | .sliceBuffer x y es s, m =>
    let r := canonS content s m
    memoized (.sliceBuffer x y es s) (m.find content (.sliceBuffer x y es s)) m (.sliceBuffer x y es r.1, r.2)
  | .sliceDim x y d e s, m =>
    let r := canonS content s m
    memoized (.sliceDim x y d e s) (m.find content (.sliceDim x y d e s)) m (.sliceDim x y d e r.1, r.2)
  | .transpose x y ds s, m =>
    let r := canonS content s m
    memoized (.transpose x y ds s) (m.find content (.transpose x y ds s)) m (.transpose x y ds r.1, r.2)
  | .async x t s, m =>
    let rt := canonS content t m
    let r := canonS content s rt.2
    memoized (.async x t s) (m.find content (.async x t s)) m (.async x rt.1 r.1, r.2)
  | .check e, m => memoized (.check e) (m.find content (.check e)) m (.check e, m)
/-- node_mutator.cc:91-104: the loop of `visit(const block*)` -/
def canonSs (content : Buf → List Int) : Stmts → Memo → Stmts × Memo
  | .nil, m => (.nil, m)
  | .cons s ss, m =>
    let r := canonS content s m
    let rs := canonSs content ss r.2
    (.cons r.1 rs.1, rs.2)
end

/-- optimizations.cc:1880-1883 `canonicalize_nodes(const stmt&)` -/
def canonicalize (content : Buf → List Int) (s : Stmt) : Stmt := (canonS content s []).1

/-! ## Specification -/

/-- Is the statement a block? -/
def Stmt.isBlock : Stmt → Bool
  | .block _ => true
  | _ => false

mutual
/-- All blocks are as `block::make` makes them: at least two statements, no block directly in a block, no undefined statement in a block. -/
def Stmt.Flat : Stmt → Prop
  | .block ss => 2 ≤ ss.length ∧ ss.Flat
  | .lets _ b _ => b.Flat
  | .loop _ _ _ _ s => s.Flat
  | .allocate _ _ _ _ s => s.Flat
  | .makeBuffer _ _ _ _ s => s.Flat
  | .constantBuffer _ _ s => s.Flat
  | .cloneBuffer _ _ s => s.Flat
  | .cropBuffer _ _ _ s => s.Flat
  | .cropDim _ _ _ _ s => s.Flat
  | .sliceBuffer _ _ _ s => s.Flat
  | .sliceDim _ _ _ _ s => s.Flat
  | .transpose _ _ _ s => s.Flat
  | .async _ t s => t.Flat ∧ s.Flat
  | _ => True
/-- See `Stmt.Flat`. -/
def Stmts.Flat : Stmts → Prop
  | .nil => True
  | .cons s ss => (s.isBlock = false ∧ s.defined = true ∧ s.Flat) ∧ ss.Flat
end

mutual
/-- The statements that are parts of a statement, and the statement. -/
def Stmt.parts : Stmt → List Stmt
  | .lets bs b c => .lets bs b c :: b.parts
  | .block ss => .block ss :: ss.parts
  | .loop x w b st s => .loop x w b st s :: s.parts
  | .allocate x k e ds s => .allocate x k e ds s :: s.parts
  | .makeBuffer x p e ds s => .makeBuffer x p e ds s :: s.parts
  | .constantBuffer x v s => .constantBuffer x v s :: s.parts
  | .cloneBuffer x y s => .cloneBuffer x y s :: s.parts
  | .cropBuffer x y bs s => .cropBuffer x y bs s :: s.parts
  | .cropDim x y d b s => .cropDim x y d b s :: s.parts
  | .sliceBuffer x y es s => .sliceBuffer x y es s :: s.parts
  | .sliceDim x y d e s => .sliceDim x y d e s :: s.parts
  | .transpose x y ds s => .transpose x y ds s :: s.parts
  | .async x t s => .async x t s :: (t.parts ++ s.parts)
  | s => [s]
/-- See `Stmt.parts`. -/
def Stmts.parts : Stmts → List Stmt
  | .nil => []
  | .cons s ss => s.parts ++ ss.parts
end

mutual
/-- The statement, with the ends of intervals that are equal made one node. -/
def Stmt.norm : Stmt → Stmt
  | .lets bs b c => .lets bs b.norm c
  | .block ss => .block ss.norm
  | .loop x w b st s => .loop x w b.canon st s.norm
  | .allocate x k e ds s => .allocate x k e (ds.map DimE.canon) s.norm
  | .makeBuffer x p e ds s => .makeBuffer x p e (ds.map DimE.canon) s.norm
  | .constantBuffer x v s => .constantBuffer x v s.norm
  | .cloneBuffer x y s => .cloneBuffer x y s.norm
  | .cropBuffer x y bs s => .cropBuffer x y (bs.map Interval.canon) s.norm
  | .cropDim x y d b s => .cropDim x y d b.canon s.norm
  | .sliceBuffer x y es s => .sliceBuffer x y es s.norm
  | .sliceDim x y d e s => .sliceDim x y d e s.norm
  | .transpose x y ds s => .transpose x y ds s.norm
  | .async x t s => .async x t.norm s.norm
  | s => s
/-- See `Stmt.norm`. -/
def Stmts.norm : Stmts → Stmts
  | .nil => .nil
  | .cons s ss => .cons s.norm ss.norm
end

/-- Two parts of the statement that match are the same also in what `match` does not compare (workers of loops, storage of allocations, closures,
the memory of constant buffers). -/
def Stmt.Uniform (content : Buf → List Int) (s : Stmt) : Prop :=
  ∀ a ∈ s.parts, ∀ b ∈ s.parts, matchS content a b = true → a.norm = b.norm

/-! ## Relations that the pass keeps -/

/-- Is the statement a call, a copy, a check or undefined? -/
def Stmt.isLeaf : Stmt → Bool
  | .undef | .call .. | .copy .. | .check _ => true
  | _ => false

/-- A relation `E` between results and statements that is kept if parts are replaced by their results, and a relation `F` between statements. -/
structure CanonRel (F E : Stmt → Stmt → Prop) (Es : Stmts → Stmts → Prop) : Prop where
  leaf : ∀ a, a.isLeaf → E a a
  trans : ∀ {a b c}, E a b → F b c → E a c
  tag : ∀ {a b}, E a b → a.tag = b.tag
  lets : ∀ {bs c a b}, E a b → E (.lets bs a c) (.lets bs b c)
  block : ∀ {a b}, Es a b → E (.block a) (.block b)
  nil : Es .nil .nil
  cons : ∀ {a b as bs}, E a b → Es as bs → Es (.cons a as) (.cons b bs)
  loop : ∀ {x w i st a b}, E a b → E (.loop x w (Interval.canon i) st a) (.loop x w i st b)
  allocate : ∀ {x k e ds a b}, E a b → E (.allocate x k e (ds.map DimE.canon) a) (.allocate x k e ds b)
  makeBuffer : ∀ {x p e ds a b}, E a b → E (.makeBuffer x p e (ds.map DimE.canon) a) (.makeBuffer x p e ds b)
  constantBuffer : ∀ {x v a b}, E a b → E (.constantBuffer x v a) (.constantBuffer x v b)
  cloneBuffer : ∀ {x y a b}, E a b → E (.cloneBuffer x y a) (.cloneBuffer x y b)
  cropBuffer : ∀ {x y is a b}, E a b → E (.cropBuffer x y (is.map Interval.canon) a) (.cropBuffer x y is b)
  cropDim : ∀ {x y d i a b}, E a b → E (.cropDim x y d (Interval.canon i) a) (.cropDim x y d i b)
  sliceBuffer : ∀ {x y es a b}, E a b → E (.sliceBuffer x y es a) (.sliceBuffer x y es b)
  sliceDim : ∀ {x y d e a b}, E a b → E (.sliceDim x y d e a) (.sliceDim x y d e b)
  transpose : ∀ {x y ds a b}, E a b → E (.transpose x y ds a) (.transpose x y ds b)
  async : ∀ {x t u a b}, E t u → E a b → E (.async x t a) (.async x u b)

theorem Interval.canon_same (i : Interval) : i.canon.Same i := by
  refine ⟨rfl, ?_⟩
  unfold Interval.canon
  simp only [Interval.maxEnd, Interval.isPoint]
  by_cases hd : i.min.defined = true <;> by_cases hs : i.same = true <;> simp [hd, hs]

theorem DimE.canon_same (d : DimE) : d.canon.Same d := ⟨d.bounds.canon_same, rfl, rfl⟩

theorem sameList_map {α : Type} {R : α → α → Prop} {f : α → α} (h : ∀ a, R (f a) a) : ∀ as : List α, SameList R (as.map f) as
  | [] => trivial
  | a :: as => ⟨h a, sameList_map h as⟩

theorem canonRel_same (content : Buf → List Int) : CanonRel (Stmt.Same content) (Stmt.Same content) (Stmts.Same content) where
  leaf a _ := .refl a
  trans := .trans
  tag h := by
    by_contra hne
    exact cmpS_tag_ne hne ((cmpS_eq _ _).mpr h)
  lets h := ⟨rfl, h⟩
  block h := h
  nil := trivial
  cons h h' := ⟨h, h'⟩
  loop h := ⟨rfl, Interval.canon_same _, rfl, h⟩
  allocate h := ⟨rfl, rfl, sameList_map DimE.canon_same _, h⟩
  makeBuffer h := ⟨rfl, rfl, rfl, sameList_map DimE.canon_same _, h⟩
  constantBuffer h := ⟨rfl, ⟨rfl, rfl, rfl⟩, h⟩
  cloneBuffer h := ⟨rfl, rfl, h⟩
  cropBuffer h := ⟨rfl, rfl, sameList_map Interval.canon_same _, h⟩
  cropDim h := ⟨rfl, rfl, rfl, Interval.canon_same _, h⟩
  sliceBuffer h := ⟨rfl, rfl, rfl, h⟩
  sliceDim h := ⟨rfl, rfl, rfl, rfl, h⟩
  transpose h := ⟨rfl, rfl, rfl, h⟩
  async h h' := ⟨rfl, h, h'⟩

theorem Stmt.norm_tag (s : Stmt) : s.norm.tag = s.tag := by cases s <;> rfl

theorem canonRel_norm : CanonRel (fun a b => a.norm = b.norm) (fun a b => a = b.norm) (fun a b => a = b.norm) where
  leaf a h := by cases a <;> first | rfl | cases h
  trans h h' := h.trans h'
  tag {a b} h := by rw [h, b.norm_tag]
  lets h := by rw [Stmt.norm, h]
  block h := by rw [Stmt.norm, h]
  nil := rfl
  cons h h' := by rw [Stmts.norm, h, h']
  loop h := by rw [Stmt.norm, h]
  allocate h := by rw [Stmt.norm, h]
  makeBuffer h := by rw [Stmt.norm, h]
  constantBuffer h := by rw [Stmt.norm, h]
  cloneBuffer h := by rw [Stmt.norm, h]
  cropBuffer h := by rw [Stmt.norm, h]
  cropDim h := by rw [Stmt.norm, h]
  sliceBuffer h := by rw [Stmt.norm, h]
  sliceDim h := by rw [Stmt.norm, h]
  transpose h := by rw [Stmt.norm, h]
  async h h' := by rw [Stmt.norm, h, h']

theorem Stmt.tag_block {a b : Stmt} (h : a.tag = b.tag) : a.isBlock = b.isBlock ∧ a.defined = b.defined := by
  cases a <;> cases b <;> simp_all [Stmt.tag, Stmt.isBlock, Stmt.defined]

/-- The statements are neither blocks nor undefined. -/
def SolidList (ss : List Stmt) : Prop := ∀ s ∈ ss, s.isBlock = false ∧ s.defined = true

theorem flattenBlocks_solid : ∀ {ss : List Stmt}, SolidList ss → flattenBlocks ss = ss
  | [], _ => rfl
  | s :: ss, h => by
    have h1 := (h s (by simp)).1
    have h2 := flattenBlocks_solid (ss := ss) fun a ha => h a (by simp [ha])
    cases s <;> simp_all [flattenBlocks, Stmt.isBlock]

theorem Stmts.ofList_toList : ∀ ss : Stmts, Stmts.ofList ss.toList = ss
  | .nil => rfl
  | .cons s ss => by simp [Stmts.toList, Stmts.ofList, Stmts.ofList_toList ss]

theorem Stmts.length_toList : ∀ ss : Stmts, ss.toList.length = ss.length
  | .nil => rfl
  | .cons s ss => by simp [Stmts.toList, Stmts.length, Stmts.length_toList ss]

theorem blockMake_solidList {ss : Stmts} (h : SolidList ss.toList) (hl : 2 ≤ ss.length) : blockMake ss.toList = .block ss := by
  unfold blockMake
  have : eraseUndefs ss.toList = ss.toList := List.filter_eq_self.mpr fun s hs => (h s hs).2
  rw [flattenBlocks_solid h, this]
  rw [← Stmts.length_toList] at hl
  match e : ss.toList, hl with
  | a :: b :: rest, _ => simp only; rw [← e, Stmts.ofList_toList]

/-- What is known about the statements that were seen. -/
def MemoOk (K : Stmt → Prop) (E : Stmt → Stmt → Prop) (m : Memo) : Prop := ∀ p ∈ m, K p.1 ∧ E p.2 p.1

/-- A result is as it should be. -/
def Canoned (K : Stmt → Prop) (E : Stmt → Stmt → Prop) (s : Stmt) (p : Stmt × Memo) : Prop := E p.1 s ∧ MemoOk K E p.2

theorem memoized_ok {content : Buf → List Int} {K : Stmt → Prop} {F E : Stmt → Stmt → Prop} {Es : Stmts → Stmts → Prop} (hE : CanonRel F E Es)
    (hK : ∀ a b, K a → K b → matchS content a b = true → F a b) {s : Stmt} (hs : K s) {m : Memo} (hm : MemoOk K E m) {v : Stmt × Memo}
    (hv : Canoned K E s v) : Canoned K E s (memoized s (m.find content s) m v) := by
  unfold memoized
  split
  · rename_i h
    exact ⟨hE.leaf _ (by cases s <;> first | rfl | cases h), hm⟩
  · split
    · rename_i r hr
      unfold Memo.find at hr
      obtain ⟨p, hp, rfl⟩ := Option.map_eq_some_iff.mp hr
      have h1 := hm p (List.mem_of_find?_eq_some hp)
      have h2 := List.find?_some hp
      simp only [Bool.and_eq_true] at h2
      exact ⟨hE.trans h1.2 (hK _ _ h1.1 hs h2.1), hm⟩
    · refine ⟨hv.1, fun p hp => ?_⟩
      rcases List.mem_cons.mp hp with rfl | hp
      · exact ⟨hs, hv.1⟩
      · exact hv.2 p hp

theorem Stmt.mem_parts (s : Stmt) : s ∈ s.parts := by cases s <;> simp [Stmt.parts]

section
variable {content : Buf → List Int} {K : Stmt → Prop} {F E : Stmt → Stmt → Prop} {Es : Stmts → Stmts → Prop}

theorem K_tail {a b : Stmt} (h : a.parts = a :: b.parts) (hK : ∀ p ∈ a.parts, K p) : ∀ p ∈ b.parts, K p :=
  fun p hp => hK p (by rw [h]; exact List.mem_cons_of_mem _ hp)

mutual
theorem canonS_ok (hE : CanonRel F E Es) (hK : ∀ a b, K a → K b → matchS content a b = true → F a b) :
    ∀ (s : Stmt) (_ : s.Flat) (_ : ∀ p ∈ s.parts, K p) (m : Memo) (_ : MemoOk K E m), Canoned K E s (canonS content s m)
  | .undef, _, _, m, hm => ⟨hE.leaf _ rfl, hm⟩
  | .call .., _, _, m, hm => ⟨hE.leaf _ rfl, hm⟩
  | .copy .., _, hk, m, hm => memoized_ok hE hK (hk _ (Stmt.mem_parts _)) hm ⟨hE.leaf _ rfl, hm⟩
  | .check _, _, hk, m, hm => memoized_ok hE hK (hk _ (Stmt.mem_parts _)) hm ⟨hE.leaf _ rfl, hm⟩
  | .lets _ b _, hf, hk, m, hm =>
    have h := canonS_ok hE hK b hf (K_tail rfl hk) m hm
    memoized_ok hE hK (hk _ (Stmt.mem_parts _)) hm ⟨hE.lets h.1, h.2⟩
  | .block ss, hf, hk, m, hm => by
    have h := canonSs_ok hE hK ss hf.2 (fun p hp => hk p (List.mem_cons_of_mem _ hp)) m hm
    refine memoized_ok hE hK (hk _ (Stmt.mem_parts _)) hm ⟨?_, h.2.2.2⟩
    rw [blockMake_solidList h.2.2.1 (by rw [h.2.1]; exact hf.1)]
    exact hE.block h.1
  | .loop _ _ _ _ b, hf, hk, m, hm =>
    have h := canonS_ok hE hK b hf (K_tail rfl hk) m hm
    memoized_ok hE hK (hk _ (Stmt.mem_parts _)) hm ⟨hE.loop h.1, h.2⟩
  | .allocate _ _ _ _ b, hf, hk, m, hm =>
    have h := canonS_ok hE hK b hf (K_tail rfl hk) m hm
    memoized_ok hE hK (hk _ (Stmt.mem_parts _)) hm ⟨hE.allocate h.1, h.2⟩
  | .makeBuffer _ _ _ _ b, hf, hk, m, hm =>
    have h := canonS_ok hE hK b hf (K_tail rfl hk) m hm
    memoized_ok hE hK (hk _ (Stmt.mem_parts _)) hm ⟨hE.makeBuffer h.1, h.2⟩
  | .constantBuffer _ _ b, hf, hk, m, hm =>
    have h := canonS_ok hE hK b hf (K_tail rfl hk) m hm
    memoized_ok hE hK (hk _ (Stmt.mem_parts _)) hm ⟨hE.constantBuffer h.1, h.2⟩
  | .cloneBuffer _ _ b, hf, hk, m, hm =>
    have h := canonS_ok hE hK b hf (K_tail rfl hk) m hm
    memoized_ok hE hK (hk _ (Stmt.mem_parts _)) hm ⟨hE.cloneBuffer h.1, h.2⟩
  | .cropBuffer _ _ _ b, hf, hk, m, hm =>
    have h := canonS_ok hE hK b hf (K_tail rfl hk) m hm
    memoized_ok hE hK (hk _ (Stmt.mem_parts _)) hm ⟨hE.cropBuffer h.1, h.2⟩
  | .cropDim _ _ _ _ b, hf, hk, m, hm =>
    have h := canonS_ok hE hK b hf (K_tail rfl hk) m hm
    memoized_ok hE hK (hk _ (Stmt.mem_parts _)) hm ⟨hE.cropDim h.1, h.2⟩
  | .sliceBuffer _ _ _ b, hf, hk, m, hm =>
    have h := canonS_ok hE hK b hf (K_tail rfl hk) m hm
    memoized_ok hE hK (hk _ (Stmt.mem_parts _)) hm ⟨hE.sliceBuffer h.1, h.2⟩
  | .sliceDim _ _ _ _ b, hf, hk, m, hm =>
    have h := canonS_ok hE hK b hf (K_tail rfl hk) m hm
    memoized_ok hE hK (hk _ (Stmt.mem_parts _)) hm ⟨hE.sliceDim h.1, h.2⟩
  | .transpose _ _ _ b, hf, hk, m, hm =>
    have h := canonS_ok hE hK b hf (K_tail rfl hk) m hm
    memoized_ok hE hK (hk _ (Stmt.mem_parts _)) hm ⟨hE.transpose h.1, h.2⟩
  | .async _ t b, hf, hk, m, hm =>
    have ht := canonS_ok hE hK t hf.1 (fun p hp => hk p (List.mem_cons_of_mem _ (List.mem_append_left _ hp))) m hm
    have h := canonS_ok hE hK b hf.2 (fun p hp => hk p (List.mem_cons_of_mem _ (List.mem_append_right _ hp))) _ ht.2
    memoized_ok hE hK (hk _ (Stmt.mem_parts _)) hm ⟨hE.async ht.1 h.1, h.2⟩
termination_by structural s => s
theorem canonSs_ok (hE : CanonRel F E Es) (hK : ∀ a b, K a → K b → matchS content a b = true → F a b) :
    ∀ (ss : Stmts) (_ : ss.Flat) (_ : ∀ p ∈ ss.parts, K p) (m : Memo) (_ : MemoOk K E m),
      Es (canonSs content ss m).1 ss ∧ (canonSs content ss m).1.length = ss.length ∧ SolidList (canonSs content ss m).1.toList ∧
        MemoOk K E (canonSs content ss m).2
  | .nil, _, _, m, hm => ⟨hE.nil, rfl, fun _ h => by simp [canonSs, Stmts.toList] at h, hm⟩
  | .cons s ss, hf, hk, m, hm => by
    have h := canonS_ok hE hK s hf.1.2.2 (fun p hp => hk p (List.mem_append_left _ hp)) m hm
    obtain ⟨h1, h2, h3, h4⟩ := canonSs_ok hE hK ss hf.2 (fun p hp => hk p (List.mem_append_right _ hp)) _ h.2
    refine ⟨hE.cons h.1 h1, by simp [canonSs, Stmts.length, h2], fun a ha => ?_, h4⟩
    simp only [canonSs, Stmts.toList, List.mem_cons] at ha
    rcases ha with rfl | ha
    · have := Stmt.tag_block (hE.tag h.1)
      rw [this.1, this.2]
      exact ⟨hf.1.1, hf.1.2.1⟩
    · exact h3 a ha
termination_by structural ss => ss
end
end

/-! ## The same meaning -/

section
variable (w : World)

theorem evalIvS_canon (l : List Ev) (ρ : SEnv) (i : Interval) : evalIvS w l ρ i.canon = evalIvS w l ρ i := by
  unfold evalIvS Interval.canon
  simp only [Interval.isPoint, Interval.maxEnd]
  by_cases h : (i.min.defined && i.same) = true
  · obtain ⟨hd, hs⟩ := Bool.and_eq_true_iff.mp h
    simp [hs, hd]
  · simp only [h]
    by_cases hm : i.min = i.max
    · cases hd : i.min.defined
      · simp [hm]
      · rw [← hm]
        simp
        cases evalI w l ρ i.min <;> simp
    · simp [hm]

theorem evalIvDefS_canon (l : List Ev) (ρ : SEnv) (i : Interval) (a b : Int) : evalIvDefS w l ρ i.canon a b = evalIvDefS w l ρ i a b := by
  unfold evalIvDefS Interval.canon
  simp only [Interval.isPoint, Interval.maxEnd]
  by_cases h : (i.min.defined && i.same) = true
  · obtain ⟨hd, hs⟩ := Bool.and_eq_true_iff.mp h
    simp [hs, hd]
  · simp only [h]
    by_cases hm : i.min = i.max
    · cases hd : i.min.defined
      · simp [hm, hd]
      · rw [← hm]
        simp [evalDefS, hd]
        cases evalI w l ρ i.min <;> simp
    · simp [hm]

theorem evalDimsS_canon (l : List Ev) (ρ : SEnv) (o : Option Int) : ∀ ds : List DimE, evalDimsS w l ρ o (ds.map DimE.canon) = evalDimsS w l ρ o ds
  | [] => rfl
  | d :: ds => by
    simp only [List.map_cons, evalDimsS, evalDimsS_canon l ρ o ds]
    simp only [DimE.canon, evalIvS_canon]

theorem cropS_canon (l : List Ev) (ρ : SEnv) : ∀ (is : List Interval) (d : Nat) (b : Buf), cropS w l ρ d (is.map Interval.canon) b = cropS w l ρ d is b
  | [], _, _ => rfl
  | i :: is, d, b => by simp only [List.map_cons, cropS, evalIvDefS_canon, cropS_canon l ρ is]

theorem cropSeqS_canon (l : List Ev) (ρ : SEnv) (x : Nat) : ∀ (is : List Interval) (d : Nat) (b : Buf),
    cropSeqS w l ρ x d (is.map Interval.canon) b = cropSeqS w l ρ x d is b
  | [], _, _ => rfl
  | i :: is, d, b => by simp only [List.map_cons, cropSeqS, evalIvDefS_canon, cropSeqS_canon l ρ x is]

theorem Stmt.norm_closure (s : Stmt) : s.norm.closure? = s.closure? := by
  cases s <;> try rfl
  rename_i c; cases c <;> rfl

mutual
theorem sem_norm : ∀ (s : Stmt) (skip : Bool) (ρ : SEnv) (l : List Ev), sem w skip s.norm ρ l = sem w skip s ρ l
  | .undef, _, _, _ => rfl
  | .call .., _, _, _ => rfl
  | .copy .., _, _, _ => rfl
  | .check _, _, _, _ => rfl
  | .lets _ b _, _, ρ, l => by simp only [Stmt.norm, sem, sem_norm b]
  | .block ss, _, ρ, l => by simp only [Stmt.norm, sem, semAll_norm ss]
  | .loop _ _ _ _ b, _, ρ, l => by simp only [Stmt.norm, sem, sem_norm b, evalIvS_canon, newEnvS, Stmt.norm_closure]
  | .allocate _ _ _ _ b, _, ρ, l => by simp only [Stmt.norm, sem, sem_norm b, evalDimsS_canon]
  | .makeBuffer _ _ _ _ b, _, ρ, l => by simp only [Stmt.norm, sem, sem_norm b, evalDimsS_canon]
  | .constantBuffer _ _ b, _, ρ, l => by simp only [Stmt.norm, sem, sem_norm b]
  | .cloneBuffer _ _ b, _, ρ, l => by simp only [Stmt.norm, sem, sem_norm b]
  | .cropBuffer _ _ _ b, _, ρ, l => by simp only [Stmt.norm, sem, sem_norm b, cropS_canon, cropSeqS_canon]
  | .cropDim _ _ _ _ b, _, ρ, l => by simp only [Stmt.norm, sem, sem_norm b, evalIvDefS_canon]
  | .sliceBuffer _ _ _ b, _, ρ, l => by simp only [Stmt.norm, sem, sem_norm b]
  | .sliceDim _ _ _ _ b, _, ρ, l => by simp only [Stmt.norm, sem, sem_norm b]
  | .transpose _ _ _ b, _, ρ, l => by simp only [Stmt.norm, sem, sem_norm b]
  | .async _ t b, _, ρ, l => by simp only [Stmt.norm, sem, sem_norm b, sem_norm t, newEnvS, Stmt.norm_closure]
termination_by structural s => s
theorem semAll_norm : ∀ (ss : Stmts) (ρ : SEnv) (l : List Ev), semAll w ss.norm ρ l = semAll w ss ρ l
  | .nil, _, _ => rfl
  | .cons s ss, ρ, l => by simp only [Stmts.norm, semAll, sem_norm s, semAll_norm ss]
termination_by structural ss => ss
end
end

theorem Interval.canon_wf {i : Interval} (h : i.EndsWF) : i.canon.EndsWF := by
  refine ⟨h.1, ?_⟩
  simp only [Interval.canon, Interval.maxEnd]
  split
  · exact h.1
  · exact h.2

theorem DimE.canon_wf {d : DimE} (h : d.WF) : d.canon.WF := ⟨Interval.canon_wf h.1, h.2⟩

mutual
theorem Stmt.norm_wf : ∀ (s : Stmt) (_ : s.WF), s.norm.WF
  | .undef, h => h
  | .call .., h => h
  | .copy .., h => h
  | .check _, h => h
  | .lets _ b _, h => ⟨h.1, h.2.1, b.norm_wf h.2.2⟩
  | .block ss, h => ss.norm_wf h
  | .loop _ _ _ _ b, h => ⟨h.1, Interval.canon_wf h.2.1, h.2.2.1, b.norm_wf h.2.2.2⟩
  | .allocate _ _ _ _ b, h => ⟨h.1, by simpa using fun d hd => DimE.canon_wf (h.2.1 d hd), b.norm_wf h.2.2⟩
  | .makeBuffer _ _ _ _ b, h => ⟨h.1, h.2.1, by simpa using fun d hd => DimE.canon_wf (h.2.2.1 d hd), b.norm_wf h.2.2.2⟩
  | .constantBuffer _ _ b, h => b.norm_wf h
  | .cloneBuffer _ _ b, h => b.norm_wf h
  | .cropBuffer _ _ _ b, h => ⟨by simpa using fun d hd => Interval.canon_wf (h.1 d hd), b.norm_wf h.2⟩
  | .cropDim _ _ _ _ b, h => ⟨Interval.canon_wf h.1, b.norm_wf h.2⟩
  | .sliceBuffer _ _ _ b, h => ⟨h.1, b.norm_wf h.2⟩
  | .sliceDim _ _ _ _ b, h => ⟨h.1, b.norm_wf h.2⟩
  | .transpose _ _ _ b, h => b.norm_wf h
  | .async _ t b, h => ⟨t.norm_wf h.1, b.norm_wf h.2⟩
termination_by structural s => s
theorem Stmts.norm_wf : ∀ (ss : Stmts) (_ : ss.WF), ss.norm.WF
  | .nil, h => h
  | .cons s ss, h => ⟨s.norm_wf h.1, ss.norm_wf h.2⟩
termination_by structural ss => ss
end

/-! ## Theorems -/

/-- C41: the result of `canonicalize_nodes` is the same statement, up to what `match` does not compare. -/
theorem canonicalize_same (content : Buf → List Int) (s : Stmt) (hf : s.Flat) : (canonicalize content s).Same content s :=
  (canonS_ok (K := fun _ => True) (canonRel_same content) (fun a b _ _ h => (matchS_iff content a b).mp h) s hf (fun _ _ => trivial) []
    (fun _ h => by cases h)).1

/-- C41: if parts that match are really the same, then `canonicalize_nodes` changes nothing, except that ends of intervals that are equal become
one node. -/
theorem canonicalize_norm (content : Buf → List Int) (s : Stmt) (hf : s.Flat) (hu : s.Uniform content) : canonicalize content s = s.norm :=
  (canonS_ok (K := (· ∈ s.parts)) canonRel_norm (fun a b ha hb h => hu a ha b hb h) s hf (fun _ h => h) [] (fun _ h => by cases h)).1

/-- C41: ... and the result has the same meaning as the statement. -/
theorem canonicalize_sem_partial (content : Buf → List Int) (s : Stmt) (hf : s.Flat) (hu : s.Uniform content) (w : World) (ρ : SEnv) (l : List Ev) :
    sem w false (canonicalize content s) ρ l = sem w false s ρ l := by
  rw [canonicalize_norm content s hf hu, sem_norm]

/-- C41: ... and the evaluator does the same. -/
theorem canonicalize_exec_partial (content : Buf → List Int) {s : Stmt} (hf : s.Flat) (hu : s.Uniform content) (hw : s.WF)
    (w : World) (g : Env) {st : St} {ρ : SEnv} (hR : StRel st ρ) {r : Int} {l' : List Ev} (h : sem w false s ρ st.alog = some (r, l')) :
    ∃ st1 st2, exec (cfgOf w g) s st = some (r, st1) ∧ exec (cfgOf w g) (canonicalize content s) st = some (r, st2) ∧
      st1.log.map Ev.anon = l' ∧ st2.log.map Ev.anon = l' ∧ st1.objs = st.objs ∧ st2.objs = st.objs := by
  obtain ⟨st1, h1, h2, h3, _⟩ := exec_sem w g hw hR h
  rw [← canonicalize_sem_partial content s hf hu] at h
  have hw' : (canonicalize content s).WF := by
    rw [canonicalize_norm content s hf hu]
    exact Stmt.norm_wf s hw
  obtain ⟨st2, h4, h5, h6, _⟩ := exec_sem w g hw' hR h
  exact ⟨st1, st2, h1, h4, h2, h5, h3, h6⟩

/-! ## Examples -/

/-- A loop that calls 7 with `x * z`. -/
def canonLoop (workers : Int) : Stmt := .loop 1 (.const workers) ⟨.const 0, .const 1, false⟩ .undef (.call 7 [] [] [.bin .mul (.v 1) (.v 2)])

/-- Two such loops. -/
def canonStmt (w1 w2 : Int) : Stmt :=
  .block (.cons (.lets (.cons 2 (.const 0) .nil) (canonLoop w1) false) (.cons (.lets (.cons 2 (.const 1) .nil) (canonLoop w2) false) .nil))

/-- **A candidate bug**: `canonicalize_nodes` makes the second loop, which is serial, a parallel loop, because the first one is parallel. The second
iteration, which fails, then runs before the first. -/
theorem canonicalize_counterexample (content : Buf → List Int) :
    (canonStmt 2 1).Flat ∧ canonicalize content (canonStmt 2 1) = canonStmt 2 2 ∧
    sem dsW false (canonStmt 2 1) dsEnv [] = some (1, [.call 7 1, .call 7 0, .call 7 0, .call 7 0]) ∧
    sem dsW false (canonStmt 2 2) dsEnv [] = some (1, [.call 7 0, .call 7 1, .call 7 0, .call 7 0]) := by
  refine ⟨by simp [canonStmt, canonLoop, Stmt.Flat, Stmts.Flat, Stmts.length, Stmt.isBlock, Stmt.defined], rfl, by decide +kernel, by decide +kernel⟩

/-- The hypotheses are met: two loops that match and are the same. -/
theorem canonicalize_example (content : Buf → List Int) : (canonStmt 2 2).Uniform content ∧
    sem dsW false (canonicalize content (canonStmt 2 2)) dsEnv [] = sem dsW false (canonStmt 2 2) dsEnv [] := by
  have hu : (canonStmt 2 2).Uniform content := by
    intro a ha b hb h
    rw [matchS_iff] at h
    simp only [canonStmt, canonLoop, Stmt.parts, Stmts.parts, List.mem_cons, List.append_nil, List.cons_append, List.nil_append, List.not_mem_nil, or_false] at ha hb
    rcases ha with rfl | rfl | rfl | rfl | rfl | rfl | rfl <;> rcases hb with rfl | rfl | rfl | rfl | rfl | rfl | rfl <;> first | rfl | (simp [Stmt.Same] at h)
  exact ⟨hu, canonicalize_sem_partial content _ (by simp [canonStmt, canonLoop, Stmt.Flat, Stmts.Flat, Stmts.length, Stmt.isBlock, Stmt.defined]) hu _ _ _⟩

end Slinky
