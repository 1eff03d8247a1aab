import Verif.CompareProps
import Verif.Deshadow

/-!
# Model of the structural comparison of statements (`matcher`, `compare`, `match`; slinky/builder/substitute.cc:30-440)

See `Compare.lean` for the comparison of expressions.

Simplifications:
* the contents of a constant buffer are a parameter: `content b` are the bytes of the buffer in the order in which they are compared, or its
  address if it has more than 128 bytes (substitute.cc:69-72);
* a call with a target, and a copy with an implementation, match only if they are the same node. The number `target` is the identity of the node
  (and the numbers of calls without a target do not matter in the code; here they do);
* if the ends of an interval are the same node in both operands, then the code does not compare the max. Here it does: it is the same as the min.
-/

namespace Slinky

/-- substitute.cc:146-158 `try_match_container` -/
def cmpList {α : Type} (f : α → α → Ordering) : List α → List α → Ordering
  | a :: as, b :: bs => (f a b).then (cmpList f as bs)
  | _, _ => .eq

/-- substitute.cc:146-158 `try_match_container` with the sizes -/
def cmpVec {α : Type} (f : α → α → Ordering) (as bs : List α) : Ordering := (cmp3 as.length bs.length).then (cmpList f as bs)

/-- `try_match` of symbols -/
def cmpVar (a b : Nat) : Ordering := cmp3 a b

/-- `try_match` of a symbol that may be undefined: the id of an undefined symbol is the largest number (expr.h:33 `invalid = -1`, unsigned). -/
def cmpOptVar : Option Nat → Option Nat → Ordering
  | none, none => .eq
  | none, some _ => .gt
  | some _, none => .lt
  | some a, some b => cmp3 a b

/-- substitute.cc:129-135 `try_match(interval_expr, interval_expr)` -/
def cmpI (a b : Interval) : Ordering := (cmpE a.min b.min).then (cmpE a.maxEnd b.maxEnd)

/-- substitute.cc:137-142 `try_match(dim_expr, dim_expr)` -/
def cmpDimE (a b : DimE) : Ordering := (cmpI a.bounds b.bounds).then ((cmpE a.stride b.stride).then (cmpE a.fold b.fold))

/-- substitute.cc:144-150 `try_match(dim, dim)` -/
def cmpDim (a b : Dim) : Ordering := (cmp3 a.min b.min).then ((cmp3 a.max b.max).then ((cmp3 a.stride b.stride).then (cmp3 a.fold b.fold)))

/-- substitute.cc:57-89 `try_match(raw_buffer*, raw_buffer*)` -/
def cmpBuf (content : Buf → List Int) (a b : Buf) : Ordering :=
  (cmp3 a.dims.length b.dims.length).then ((cmp3 a.elem b.elem).then ((cmpVec cmpDim a.dims b.dims).then (cmpVec cmp3 (content a) (content b))))

/-- stmt.h:14-33 `stmt_node_type` -/
def Stmt.tag : Stmt → Nat
  | .undef => 0 | .call .. => 1 | .copy .. => 2 | .lets .. => 3 | .block _ => 4 | .loop .. => 5 | .allocate .. => 6 | .makeBuffer .. => 7
  | .constantBuffer .. => 8 | .cloneBuffer .. => 9 | .cropBuffer .. => 10 | .cropDim .. => 11 | .sliceBuffer .. => 12 | .sliceDim .. => 13
  | .transpose .. => 14 | .async .. => 15 | .check _ => 16

/-- The number of statements. -/
def Stmts.length : Stmts → Nat
  | .nil => 0
  | .cons _ ss => ss.length + 1

mutual
/-- substitute.cc:110-127 `try_match(const base_stmt_node*, const base_stmt_node*)` and the visitors 254-412. -/
def cmpS (content : Buf → List Int) : Stmt → Stmt → Ordering
  | .call t i o xs, .call t' i' o' xs' => (cmpVec cmpVar i i').then ((cmpVec cmpVar o o').then ((cmpVec cmpE xs xs').then (cmp3 t t')))
  | .copy t s xs d ys p, .copy t' s' xs' d' ys' p' =>
    (cmp3 s s').then ((cmpVec cmpE xs xs').then ((cmp3 d d').then ((cmpVec cmpVar ys ys').then ((cmpOptVar p p').then (cmp3 t t')))))
  | .lets bs b _, .lets bs' b' _ => ((cmp3 bs.length bs'.length).then (cmpBinds bs bs')).then (cmpS content b b')
  | .block ss, .block ss' => (cmp3 ss.length ss'.length).then (cmpSs content ss ss')
  -- substitute.cc:262-269: `max_workers` is not compared
  | .loop x _ b st s, .loop x' _ b' st' s' => (cmp3 x x').then ((cmpI b b').then ((cmpE st st').then (cmpS content s s')))
  -- substitute.cc:302-310: `storage` is not compared
  | .allocate x _ e ds s, .allocate x' _ e' ds' s' => (cmp3 x x').then ((cmpE e e').then ((cmpVec cmpDimE ds ds').then (cmpS content s s')))
  | .makeBuffer x p e ds s, .makeBuffer x' p' e' ds' s' =>
    (cmp3 x x').then ((cmpE p p').then ((cmpE e e').then ((cmpVec cmpDimE ds ds').then (cmpS content s s'))))
  | .constantBuffer x v s, .constantBuffer x' v' s' => (cmp3 x x').then ((cmpBuf content v v').then (cmpS content s s'))
  | .cloneBuffer x y s, .cloneBuffer x' y' s' => (cmp3 x x').then ((cmp3 y y').then (cmpS content s s'))
  | .cropBuffer x y bs s, .cropBuffer x' y' bs' s' => (cmp3 x x').then ((cmp3 y y').then ((cmpVec cmpI bs bs').then (cmpS content s s')))
  | .cropDim x y d b s, .cropDim x' y' d' b' s' => (cmp3 x x').then ((cmp3 y y').then ((cmp3 d d').then ((cmpI b b').then (cmpS content s s'))))
  | .sliceBuffer x y es s, .sliceBuffer x' y' es' s' => (cmp3 x x').then ((cmp3 y y').then ((cmpVec cmpE es es').then (cmpS content s s')))
  | .sliceDim x y d e s, .sliceDim x' y' d' e' s' => (cmp3 x x').then ((cmp3 y y').then ((cmp3 d d').then ((cmpE e e').then (cmpS content s s'))))
  | .transpose x y ds s, .transpose x' y' ds' s' => (cmp3 x x').then ((cmp3 y y').then ((cmpVec cmpVar ds ds').then (cmpS content s s')))
  | .async x t s, .async x' t' s' => (cmpOptVar x x').then ((cmpS content t t').then (cmpS content s s'))
  | .check e, .check e' => cmpE e e'
  | s, s' => cmp3 s.tag s'.tag
/-- substitute.cc:146-158 the loop of `try_match_container` -/
def cmpSs (content : Buf → List Int) : Stmts → Stmts → Ordering
  | .cons s ss, .cons s' ss' => (cmpS content s s').then (cmpSs content ss ss')
  | _, _ => .eq
end

/-- substitute.cc:418 `match(stmt, stmt)` -/
def matchS (content : Buf → List Int) (a b : Stmt) : Bool := cmpS content a b == .eq

/-! ## Specification -/

/-- The same interval. (It does not matter if the ends are one node.) -/
def Interval.Same (a b : Interval) : Prop := a.min = b.min ∧ a.maxEnd = b.maxEnd

/-- The same expressions in the dimension. -/
def DimE.Same (a b : DimE) : Prop := a.bounds.Same b.bounds ∧ a.stride = b.stride ∧ a.fold = b.fold

/-- A relation between the elements of two lists. -/
def SameList {α : Type} (R : α → α → Prop) : List α → List α → Prop
  | [], [] => True
  | a :: as, b :: bs => R a b ∧ SameList R as bs
  | _, _ => False

mutual
/-- The same statement, except for: the workers of loops, the storage of allocations, if a let is a closure, if the ends of an interval are one
node, and where the contents of a constant buffer are in memory. -/
def Stmt.Same (content : Buf → List Int) : Stmt → Stmt → Prop
  | .undef, .undef => True
  | .call t i o xs, .call t' i' o' xs' => i = i' ∧ o = o' ∧ xs = xs' ∧ t = t'
  | .copy t s xs d ys p, .copy t' s' xs' d' ys' p' => s = s' ∧ xs = xs' ∧ d = d' ∧ ys = ys' ∧ p = p' ∧ t = t'
  | .lets bs b _, .lets bs' b' _ => bs = bs' ∧ b.Same content b'
  | .block ss, .block ss' => ss.Same content ss'
  | .loop x _ b st s, .loop x' _ b' st' s' => x = x' ∧ b.Same b' ∧ st = st' ∧ s.Same content s'
  | .allocate x _ e ds s, .allocate x' _ e' ds' s' => x = x' ∧ e = e' ∧ SameList DimE.Same ds ds' ∧ s.Same content s'
  | .makeBuffer x p e ds s, .makeBuffer x' p' e' ds' s' => x = x' ∧ p = p' ∧ e = e' ∧ SameList DimE.Same ds ds' ∧ s.Same content s'
  | .constantBuffer x v s, .constantBuffer x' v' s' => x = x' ∧ (v.elem = v'.elem ∧ v.dims = v'.dims ∧ content v = content v') ∧ s.Same content s'
  | .cloneBuffer x y s, .cloneBuffer x' y' s' => x = x' ∧ y = y' ∧ s.Same content s'
  | .cropBuffer x y bs s, .cropBuffer x' y' bs' s' => x = x' ∧ y = y' ∧ SameList Interval.Same bs bs' ∧ s.Same content s'
  | .cropDim x y d b s, .cropDim x' y' d' b' s' => x = x' ∧ y = y' ∧ d = d' ∧ b.Same b' ∧ s.Same content s'
  | .sliceBuffer x y es s, .sliceBuffer x' y' es' s' => x = x' ∧ y = y' ∧ es = es' ∧ s.Same content s'
  | .sliceDim x y d e s, .sliceDim x' y' d' e' s' => x = x' ∧ y = y' ∧ d = d' ∧ e = e' ∧ s.Same content s'
  | .transpose x y ds s, .transpose x' y' ds' s' => x = x' ∧ y = y' ∧ ds = ds' ∧ s.Same content s'
  | .async x t s, .async x' t' s' => x = x' ∧ t.Same content t' ∧ s.Same content s'
  | .check e, .check e' => e = e'
  | _, _ => False
/-- See `Stmt.Same`. -/
def Stmts.Same (content : Buf → List Int) : Stmts → Stmts → Prop
  | .nil, .nil => True
  | .cons s ss, .cons s' ss' => s.Same content s' ∧ ss.Same content ss'
  | _, _ => False
end

/-! ## Orderings -/

/-- What the comparisons of `a` with `b`, `b` with `c` and `a` with `c` are, for an order. -/
def Tr (o1 o2 o3 : Ordering) : Prop :=
  (o1 = .eq → o3 = o2) ∧ (o2 = .eq → o3 = o1) ∧ (o1 = .lt → o2 = .lt → o3 = .lt) ∧ (o1 = .gt → o2 = .gt → o3 = .gt)

instance (o1 o2 o3 : Ordering) : Decidable (Tr o1 o2 o3) := by unfold Tr; infer_instance

theorem Tr.then {o1 o2 o3 p1 p2 p3 : Ordering} (h : Tr o1 o2 o3) (h' : o1 = .eq → o2 = .eq → Tr p1 p2 p3) : Tr (o1.then p1) (o2.then p2) (o3.then p3) := by
  unfold Tr at *
  cases o1 <;> cases o2 <;> cases o3 <;> simp_all (decide := true) [Ordering.then]

/-- The operands before the last are of the same kind, the last is not. -/
theorem Tr.last {o1 o2 : Ordering} (h : o2 ≠ .eq) : Tr o1 o2 o2 := by cases o1 <;> cases o2 <;> simp_all [Tr]
/-- The first is of another kind. -/
theorem Tr.first {o1 o2 : Ordering} (h : o1 ≠ .eq) : Tr o1 o2 o1 := by cases o1 <;> cases o2 <;> simp_all [Tr]
/-- The middle one is of another kind. -/
theorem Tr.mid {o1 o3 : Ordering} (h : o1 ≠ .eq) : Tr o1 o1.swap o3 := by cases o1 <;> cases o3 <;> simp_all [Tr]

theorem cmp3_tr (a b c : Int) : Tr (cmp3 a b) (cmp3 b c) (cmp3 a c) := by
  refine ⟨fun h => ?_, fun h => ?_, fun h h' => ?_, fun h h' => ?_⟩
  · rw [cmp3_eq] at h; rw [h]
  · rw [cmp3_eq] at h; rw [h]
  · rw [cmp3_lt] at *; omega
  · have k : ∀ a b : Int, cmp3 a b = .gt ↔ b < a := by
      intro a b; unfold cmp3; split
      · simp; omega
      · split <;> simp <;> omega
    rw [k] at *; omega

theorem cmpE_tr (a b c : Expr) : Tr (cmpE a b) (cmpE b c) (cmpE a c) := by
  refine ⟨fun h => ?_, fun h => ?_, fun h h' => cmpE_trans a b c h h', fun h h' => ?_⟩
  · rw [cmpE_eq] at h; rw [h]
  · rw [cmpE_eq] at h; rw [h]
  · have h1 : cmpE b a = .lt := by rw [cmpE_swap a b, h]; rfl
    have h2 : cmpE c b = .lt := by rw [cmpE_swap b c, h']; rfl
    rw [cmpE_swap c a, cmpE_trans c b a h2 h1]; rfl

theorem cmpList_tr {α : Type} {f : α → α → Ordering} (hf : ∀ a b c, Tr (f a b) (f b c) (f a c)) : ∀ as bs cs : List α, as.length = bs.length → bs.length = cs.length →
    Tr (cmpList f as bs) (cmpList f bs cs) (cmpList f as cs)
  | [], [], [], _, _ => by simp [cmpList, Tr]
  | a :: as, b :: bs, c :: cs, h, h' => (hf a b c).then fun _ _ => cmpList_tr hf as bs cs (by simpa using h) (by simpa using h')
  | [], _ :: _, _, h, _ => by simp at h
  | _ :: _, [], _, h, _ => by simp at h
  | _, [], _ :: _, _, h => by simp at h
  | _, _ :: _, [], _, h => by simp at h

theorem cmpVec_tr {α : Type} {f : α → α → Ordering} (hf : ∀ a b c, Tr (f a b) (f b c) (f a c)) (as bs cs : List α) :
    Tr (cmpVec f as bs) (cmpVec f bs cs) (cmpVec f as cs) :=
  (cmp3_tr _ _ _).then fun h h' => cmpList_tr hf as bs cs (by rw [cmp3_eq] at h; exact_mod_cast h) (by rw [cmp3_eq] at h'; exact_mod_cast h')

theorem cmpList_eq {α : Type} {f : α → α → Ordering} {R : α → α → Prop} (hf : ∀ a b, f a b = .eq ↔ R a b) : ∀ as bs : List α, as.length = bs.length →
    (cmpList f as bs = .eq ↔ SameList R as bs)
  | [], [], _ => by simp [cmpList, SameList]
  | a :: as, b :: bs, h => by simp [cmpList, SameList, then_eq, hf, cmpList_eq hf as bs (by simpa using h)]
  | [], _ :: _, h => by simp at h
  | _ :: _, [], h => by simp at h

theorem SameList.length {α : Type} {R : α → α → Prop} : ∀ {as bs : List α}, SameList R as bs → as.length = bs.length
  | [], [], _ => rfl
  | _ :: as, _ :: bs, h => by simp [SameList.length h.2]
  | [], _ :: _, h => h.elim
  | _ :: _, [], h => h.elim

theorem cmpVec_same {α : Type} {f : α → α → Ordering} {R : α → α → Prop} (hf : ∀ a b, f a b = .eq ↔ R a b) (as bs : List α) :
    cmpVec f as bs = .eq ↔ SameList R as bs := by
  unfold cmpVec
  rw [then_eq, cmp3_eq]
  constructor
  · rintro ⟨h, h'⟩; exact (cmpList_eq hf as bs (by exact_mod_cast h)).mp h'
  · intro h
    have := h.length
    exact ⟨by exact_mod_cast this, (cmpList_eq hf as bs this).mpr h⟩

theorem sameList_eq {α : Type} : ∀ as bs : List α, SameList (· = ·) as bs ↔ as = bs
  | [], [] => by simp [SameList]
  | _ :: as, _ :: bs => by simp [SameList, sameList_eq as bs]
  | [], _ :: _ => by simp [SameList]
  | _ :: _, [] => by simp [SameList]

theorem cmpVec_eq {α : Type} {f : α → α → Ordering} (hf : ∀ a b, f a b = .eq ↔ a = b) (as bs : List α) : cmpVec f as bs = .eq ↔ as = bs := by
  rw [cmpVec_same hf, sameList_eq]

theorem cmpVar_eq (a b : Nat) : cmpVar a b = .eq ↔ a = b := by unfold cmpVar; rw [cmp3_eq]; exact_mod_cast Iff.rfl
theorem cmpVar_tr (a b c : Nat) : Tr (cmpVar a b) (cmpVar b c) (cmpVar a c) := cmp3_tr _ _ _
theorem cmp3_nat (a b : Nat) : cmp3 a b = .eq ↔ a = b := cmpVar_eq a b

theorem cmpOptVar_eq (a b : Option Nat) : cmpOptVar a b = .eq ↔ a = b := by cases a <;> cases b <;> simp [cmpOptVar, cmp3_eq]
theorem cmpOptVar_tr (a b c : Option Nat) : Tr (cmpOptVar a b) (cmpOptVar b c) (cmpOptVar a c) := by
  cases a <;> cases b <;> cases c <;> first | exact cmp3_tr _ _ _ | (simp [Tr, cmpOptVar])

theorem cmpI_eq (a b : Interval) : cmpI a b = .eq ↔ a.Same b := by simp [cmpI, then_eq, cmpE_eq, Interval.Same]
theorem cmpI_tr (a b c : Interval) : Tr (cmpI a b) (cmpI b c) (cmpI a c) := (cmpE_tr _ _ _).then fun _ _ => cmpE_tr _ _ _

theorem cmpDimE_eq (a b : DimE) : cmpDimE a b = .eq ↔ a.Same b := by simp [cmpDimE, then_eq, cmpE_eq, cmpI_eq, DimE.Same]
theorem cmpDimE_tr (a b c : DimE) : Tr (cmpDimE a b) (cmpDimE b c) (cmpDimE a c) :=
  (cmpI_tr _ _ _).then fun _ _ => (cmpE_tr _ _ _).then fun _ _ => cmpE_tr _ _ _

theorem cmpDim_eq (a b : Dim) : cmpDim a b = .eq ↔ a = b := by
  cases a; cases b; simp [cmpDim, then_eq, cmp3_eq]
theorem cmpDim_tr (a b c : Dim) : Tr (cmpDim a b) (cmpDim b c) (cmpDim a c) :=
  (cmp3_tr _ _ _).then fun _ _ => (cmp3_tr _ _ _).then fun _ _ => (cmp3_tr _ _ _).then fun _ _ => cmp3_tr _ _ _

theorem cmpBuf_eq (content : Buf → List Int) (a b : Buf) : cmpBuf content a b = .eq ↔ a.elem = b.elem ∧ a.dims = b.dims ∧ content a = content b := by
  simp only [cmpBuf, then_eq, cmpVec_eq cmpDim_eq, cmpVec_eq (f := cmp3) (fun _ _ => cmp3_eq), cmp3_eq]
  constructor
  · rintro ⟨_, h⟩; exact h
  · rintro ⟨h1, h2, h3⟩; exact ⟨by rw [h2], h1, h2, h3⟩
theorem cmpBuf_tr (content : Buf → List Int) (a b c : Buf) : Tr (cmpBuf content a b) (cmpBuf content b c) (cmpBuf content a c) :=
  (cmp3_tr _ _ _).then fun _ _ => (cmp3_tr _ _ _).then fun _ _ => (cmpVec_tr cmpDim_tr _ _ _).then fun _ _ => cmpVec_tr cmp3_tr _ _ _

theorem cmpLets_eq (a b : Binds) : (cmp3 a.length b.length).then (cmpBinds a b) = .eq ↔ a = b := by
  rw [then_eq, cmp3_eq]
  constructor
  · rintro ⟨h, h'⟩; exact (cmpBinds_eq a b (by exact_mod_cast h)).mp h'
  · rintro rfl; exact ⟨rfl, (cmpBinds_eq a a rfl).mpr rfl⟩

theorem cmpLets_tr (a b c : Binds) : Tr ((cmp3 a.length b.length).then (cmpBinds a b)) ((cmp3 b.length c.length).then (cmpBinds b c))
    ((cmp3 a.length c.length).then (cmpBinds a c)) :=
  (cmp3_tr _ _ _).then fun h h' => by
    have h1 : a.length = b.length := by rw [cmp3_eq] at h; exact_mod_cast h
    have h2 : b.length = c.length := by rw [cmp3_eq] at h'; exact_mod_cast h'
    refine ⟨fun k => ?_, fun k => ?_, cmpBinds_trans a b c, fun k k' => ?_⟩
    · rw [cmpBinds_eq a b h1] at k; rw [k]
    · rw [cmpBinds_eq b c h2] at k; rw [k]
    · have k1 : cmpBinds b a = .lt := by rw [cmpBinds_swap a b, k]; rfl
      have k2 : cmpBinds c b = .lt := by rw [cmpBinds_swap b c, k']; rfl
      rw [cmpBinds_swap c a, cmpBinds_trans c b a k2 k1]; rfl

/-! ## Statements -/

/-- Statements of two kinds. -/
theorem cmpS_tag {content : Buf → List Int} {a b : Stmt} (h : a.tag ≠ b.tag) : cmpS content a b = cmp3 a.tag b.tag := by
  cases a <;> cases b <;> first | rfl | (simp [Stmt.tag] at h)

theorem cmpS_tag_ne {content : Buf → List Int} {a b : Stmt} (h : a.tag ≠ b.tag) : cmpS content a b ≠ .eq := by
  rw [cmpS_tag h, ne_eq, cmp3_nat]; exact h

theorem Stmts.Same.length {content : Buf → List Int} : ∀ {a b : Stmts}, a.Same content b → a.length = b.length
  | .nil, .nil, _ => rfl
  | .cons _ as, .cons _ bs, h => by simp only [Stmts.Same] at h; simp [Stmts.length, Stmts.Same.length h.2]
  | .nil, .cons _ _, h => by simp [Stmts.Same] at h
  | .cons _ _, .nil, h => by simp [Stmts.Same] at h

mutual
theorem cmpS_eq {content : Buf → List Int} : ∀ a b : Stmt, cmpS content a b = .eq ↔ a.Same content b
  | .undef, b => by cases b <;> simp [cmpS, Stmt.Same, cmp3_eq, Stmt.tag]
  | .call t i o xs, b => by
    cases b <;> simp [cmpS, Stmt.Same, cmp3_eq, Stmt.tag, then_eq, cmpVec_eq cmpVar_eq, cmpVec_eq cmpE_eq]
  | .copy t s xs d ys p, b => by
    cases b <;> simp [cmpS, Stmt.Same, cmp3_eq, Stmt.tag, then_eq, cmpVec_eq cmpVar_eq, cmpVec_eq cmpE_eq, cmpOptVar_eq]
  | .lets bs s c, b => by
    cases b <;> simp only [cmpS, Stmt.Same, cmp3_nat, Stmt.tag] <;> try simp
    case lets bs' s' c' => have h := cmpLets_eq bs bs'; rw [then_eq] at h; rw [h, cmpS_eq s s']
  | .block ss, b => by
    cases b <;> simp only [cmpS, Stmt.Same, cmp3_nat, Stmt.tag] <;> try simp
    case block ss' =>
      constructor
      · rintro ⟨h, h'⟩; exact (cmpSs_eq ss ss' ((cmp3_nat _ _).mp h)).mp h'
      · intro h; exact ⟨(cmp3_nat _ _).mpr h.length, (cmpSs_eq ss ss' h.length).mpr h⟩
  | .loop x wk bd st s, b => by
    cases b <;> simp only [cmpS, Stmt.Same, cmp3_nat, Stmt.tag, then_eq, cmpI_eq, cmpE_eq] <;> try simp
    case loop x' _ bd' st' s' => rw [cmpS_eq s s']; simp
  | .allocate x sto e ds s, b => by
    cases b <;> simp only [cmpS, Stmt.Same, cmp3_nat, Stmt.tag, then_eq, cmpVec_same cmpDimE_eq, cmpE_eq] <;> try simp
    case allocate x' _ e' ds' s' => rw [cmpS_eq s s']; simp
  | .makeBuffer x p e ds s, b => by
    cases b <;> simp only [cmpS, Stmt.Same, cmp3_nat, Stmt.tag, then_eq, cmpVec_same cmpDimE_eq, cmpE_eq] <;> try simp
    case makeBuffer s' => rw [cmpS_eq s s']; simp
  | .constantBuffer x v s, b => by
    cases b <;> simp only [cmpS, Stmt.Same, cmp3_nat, Stmt.tag, then_eq, cmpBuf_eq] <;> try simp
    case constantBuffer s' => rw [cmpS_eq s s']; simp
  | .cloneBuffer x y s, b => by
    cases b <;> simp only [cmpS, Stmt.Same, cmp3_nat, Stmt.tag, then_eq] <;> try simp
    case cloneBuffer s' => rw [cmpS_eq s s']; simp
  | .cropBuffer x y bs s, b => by
    cases b <;> simp only [cmpS, Stmt.Same, cmp3_nat, Stmt.tag, then_eq, cmpVec_same cmpI_eq] <;> try simp
    case cropBuffer s' => rw [cmpS_eq s s']; simp
  | .cropDim x y d bd s, b => by
    cases b <;> simp only [cmpS, Stmt.Same, cmp3_nat, Stmt.tag, then_eq, cmpI_eq] <;> try simp
    case cropDim s' => rw [cmpS_eq s s']; simp
  | .sliceBuffer x y es s, b => by
    cases b <;> simp only [cmpS, Stmt.Same, cmp3_nat, Stmt.tag, then_eq, cmpVec_eq cmpE_eq] <;> try simp
    case sliceBuffer s' => rw [cmpS_eq s s']; simp
  | .sliceDim x y d e s, b => by
    cases b <;> simp only [cmpS, Stmt.Same, cmp3_nat, Stmt.tag, then_eq, cmpE_eq] <;> try simp
    case sliceDim s' => rw [cmpS_eq s s']; simp
  | .transpose x y ds s, b => by
    cases b <;> simp only [cmpS, Stmt.Same, cmp3_nat, Stmt.tag, then_eq, cmpVec_eq cmpVar_eq] <;> try simp
    case transpose s' => rw [cmpS_eq s s']; simp
  | .async x t s, b => by
    cases b <;> simp only [cmpS, Stmt.Same, cmp3_nat, Stmt.tag, then_eq, cmpOptVar_eq] <;> try simp
    case async x' t' s' => rw [cmpS_eq s s', cmpS_eq t t']; simp
  | .check e, b => by
    cases b <;> simp only [cmpS, Stmt.Same, cmp3_nat, Stmt.tag, cmpE_eq] <;> simp
theorem cmpSs_eq {content : Buf → List Int} : ∀ a b : Stmts, a.length = b.length → (cmpSs content a b = .eq ↔ a.Same content b)
  | .nil, .nil, _ => by simp [cmpSs, Stmts.Same]
  | .nil, .cons _ _, h => by simp [Stmts.length] at h
  | .cons _ _, .nil, h => by simp [Stmts.length] at h
  | .cons s ss, .cons s' ss', h => by
    simp only [Stmts.length, Nat.add_right_cancel_iff] at h
    simp only [cmpSs, Stmts.Same, then_eq]
    rw [cmpS_eq s s', cmpSs_eq ss ss' h]
end

/-- Only statements of one kind need to be compared. -/
theorem cmpS_tr_reduce {content : Buf → List Int} {a b c : Stmt}
    (h : b.tag = a.tag → c.tag = a.tag → Tr (cmpS content a b) (cmpS content b c) (cmpS content a c)) :
    Tr (cmpS content a b) (cmpS content b c) (cmpS content a c) := by
  by_cases h1 : a.tag = b.tag
  · by_cases h2 : b.tag = c.tag
    · exact h h1.symm (h2.symm.trans h1.symm)
    · have h3 : a.tag ≠ c.tag := fun h3 => h2 (h1.symm.trans h3)
      rw [cmpS_tag h2, cmpS_tag h3, h1]
      exact Tr.last (by rw [ne_eq, cmp3_nat]; exact h2)
  · by_cases h2 : b.tag = c.tag
    · have h3 : a.tag ≠ c.tag := fun h3 => h1 (h3.trans h2.symm)
      rw [cmpS_tag h1, cmpS_tag h3, h2]
      exact Tr.first (by rw [ne_eq, cmp3_nat]; exact h3)
    · by_cases h3 : a.tag = c.tag
      · rw [cmpS_tag h1, cmpS_tag h2, ← h3, cmp3_swap (a.tag : Int)]
        exact Tr.mid (by rw [ne_eq, cmp3_nat]; exact h1)
      · rw [cmpS_tag h1, cmpS_tag h2, cmpS_tag h3]
        exact cmp3_tr _ _ _

mutual
theorem cmpS_tr {content : Buf → List Int} : ∀ a b c : Stmt, Tr (cmpS content a b) (cmpS content b c) (cmpS content a c)
  | .undef, b, c => cmpS_tr_reduce fun h1 h2 => by
    cases b <;> simp [Stmt.tag] at h1
    cases c <;> simp [Stmt.tag] at h2
    exact cmp3_tr _ _ _
  | .call t i o xs, b, c => cmpS_tr_reduce fun h1 h2 => by
    cases b <;> simp [Stmt.tag] at h1
    cases c <;> simp [Stmt.tag] at h2
    exact (cmpVec_tr cmpVar_tr _ _ _).then fun _ _ => (cmpVec_tr cmpVar_tr _ _ _).then fun _ _ => (cmpVec_tr cmpE_tr _ _ _).then fun _ _ => cmp3_tr _ _ _
  | .copy t s xs d ys p, b, c => cmpS_tr_reduce fun h1 h2 => by
    cases b <;> simp [Stmt.tag] at h1
    cases c <;> simp [Stmt.tag] at h2
    exact (cmp3_tr _ _ _).then fun _ _ => (cmpVec_tr cmpE_tr _ _ _).then fun _ _ => (cmp3_tr _ _ _).then fun _ _ =>
      (cmpVec_tr cmpVar_tr _ _ _).then fun _ _ => (cmpOptVar_tr _ _ _).then fun _ _ => cmp3_tr _ _ _
  | .lets bs s cl, b, c => cmpS_tr_reduce fun h1 h2 => by
    cases b <;> simp [Stmt.tag] at h1
    cases c <;> simp [Stmt.tag] at h2
    exact (cmpLets_tr _ _ _).then fun _ _ => cmpS_tr s _ _
  | .block ss, b, c => cmpS_tr_reduce fun h1 h2 => by
    cases b <;> simp [Stmt.tag] at h1
    cases c <;> simp [Stmt.tag] at h2
    exact (cmp3_tr _ _ _).then fun h h' => cmpSs_tr ss _ _ (by rwa [cmp3_nat] at h) (by rwa [cmp3_nat] at h')
  | .loop x wk bd st s, b, c => cmpS_tr_reduce fun h1 h2 => by
    cases b <;> simp [Stmt.tag] at h1
    cases c <;> simp [Stmt.tag] at h2
    exact (cmp3_tr _ _ _).then fun _ _ => (cmpI_tr _ _ _).then fun _ _ => (cmpE_tr _ _ _).then fun _ _ => cmpS_tr s _ _
  | .allocate x sto e ds s, b, c => cmpS_tr_reduce fun h1 h2 => by
    cases b <;> simp [Stmt.tag] at h1
    cases c <;> simp [Stmt.tag] at h2
    exact (cmp3_tr _ _ _).then fun _ _ => (cmpE_tr _ _ _).then fun _ _ => (cmpVec_tr cmpDimE_tr _ _ _).then fun _ _ => cmpS_tr s _ _
  | .makeBuffer x p e ds s, b, c => cmpS_tr_reduce fun h1 h2 => by
    cases b <;> simp [Stmt.tag] at h1
    cases c <;> simp [Stmt.tag] at h2
    exact (cmp3_tr _ _ _).then fun _ _ => (cmpE_tr _ _ _).then fun _ _ => (cmpE_tr _ _ _).then fun _ _ => (cmpVec_tr cmpDimE_tr _ _ _).then fun _ _ => cmpS_tr s _ _
  | .constantBuffer x v s, b, c => cmpS_tr_reduce fun h1 h2 => by
    cases b <;> simp [Stmt.tag] at h1
    cases c <;> simp [Stmt.tag] at h2
    exact (cmp3_tr _ _ _).then fun _ _ => (cmpBuf_tr _ _ _ _).then fun _ _ => cmpS_tr s _ _
  | .cloneBuffer x y s, b, c => cmpS_tr_reduce fun h1 h2 => by
    cases b <;> simp [Stmt.tag] at h1
    cases c <;> simp [Stmt.tag] at h2
    exact (cmp3_tr _ _ _).then fun _ _ => (cmp3_tr _ _ _).then fun _ _ => cmpS_tr s _ _
  | .cropBuffer x y bs s, b, c => cmpS_tr_reduce fun h1 h2 => by
    cases b <;> simp [Stmt.tag] at h1
    cases c <;> simp [Stmt.tag] at h2
    exact (cmp3_tr _ _ _).then fun _ _ => (cmp3_tr _ _ _).then fun _ _ => (cmpVec_tr cmpI_tr _ _ _).then fun _ _ => cmpS_tr s _ _
  | .cropDim x y d bd s, b, c => cmpS_tr_reduce fun h1 h2 => by
    cases b <;> simp [Stmt.tag] at h1
    cases c <;> simp [Stmt.tag] at h2
    exact (cmp3_tr _ _ _).then fun _ _ => (cmp3_tr _ _ _).then fun _ _ => (cmp3_tr _ _ _).then fun _ _ => (cmpI_tr _ _ _).then fun _ _ => cmpS_tr s _ _
  | .sliceBuffer x y es s, b, c => cmpS_tr_reduce fun h1 h2 => by
    cases b <;> simp [Stmt.tag] at h1
    cases c <;> simp [Stmt.tag] at h2
    exact (cmp3_tr _ _ _).then fun _ _ => (cmp3_tr _ _ _).then fun _ _ => (cmpVec_tr cmpE_tr _ _ _).then fun _ _ => cmpS_tr s _ _
  | .sliceDim x y d e s, b, c => cmpS_tr_reduce fun h1 h2 => by
    cases b <;> simp [Stmt.tag] at h1
    cases c <;> simp [Stmt.tag] at h2
    exact (cmp3_tr _ _ _).then fun _ _ => (cmp3_tr _ _ _).then fun _ _ => (cmp3_tr _ _ _).then fun _ _ => (cmpE_tr _ _ _).then fun _ _ => cmpS_tr s _ _
  | .transpose x y ds s, b, c => cmpS_tr_reduce fun h1 h2 => by
    cases b <;> simp [Stmt.tag] at h1
    cases c <;> simp [Stmt.tag] at h2
    exact (cmp3_tr _ _ _).then fun _ _ => (cmp3_tr _ _ _).then fun _ _ => (cmpVec_tr cmpVar_tr _ _ _).then fun _ _ => cmpS_tr s _ _
  | .async x t s, b, c => cmpS_tr_reduce fun h1 h2 => by
    cases b <;> simp [Stmt.tag] at h1
    cases c <;> simp [Stmt.tag] at h2
    exact (cmpOptVar_tr _ _ _).then fun _ _ => (cmpS_tr t _ _).then fun _ _ => cmpS_tr s _ _
  | .check e, b, c => cmpS_tr_reduce fun h1 h2 => by
    cases b <;> simp [Stmt.tag] at h1
    cases c <;> simp [Stmt.tag] at h2
    exact cmpE_tr _ _ _
theorem cmpSs_tr {content : Buf → List Int} : ∀ a b c : Stmts, a.length = b.length → b.length = c.length →
    Tr (cmpSs content a b) (cmpSs content b c) (cmpSs content a c)
  | .nil, .nil, .nil, _, _ => by simp [cmpSs, Tr]
  | .cons s ss, .cons s' ss', .cons s'' ss'', h, h' => by
    simp only [Stmts.length, Nat.add_right_cancel_iff] at h h'
    exact (cmpS_tr s s' s'').then fun _ _ => cmpSs_tr ss ss' ss'' h h'
  | .nil, .cons _ _, _, h, _ => by simp [Stmts.length] at h
  | .cons _ _, .nil, _, h, _ => by simp [Stmts.length] at h
  | _, .nil, .cons _ _, _, h => by simp [Stmts.length] at h
  | _, .cons _ _, .nil, _, h => by simp [Stmts.length] at h
end

theorem SameList.refl {α : Type} {R : α → α → Prop} (h : ∀ a, R a a) : ∀ as : List α, SameList R as as
  | [] => trivial
  | a :: as => ⟨h a, SameList.refl h as⟩
theorem Interval.Same.refl (a : Interval) : a.Same a := ⟨rfl, rfl⟩
theorem DimE.Same.refl (a : DimE) : a.Same a := ⟨.refl _, rfl, rfl⟩

mutual
theorem Stmt.Same.refl {content : Buf → List Int} : ∀ a : Stmt, a.Same content a
  | .undef => by simp [Stmt.Same]
  | .call .. => by simp [Stmt.Same]
  | .copy .. => by simp [Stmt.Same]
  | .lets _ s _ => by unfold Stmt.Same; exact ⟨rfl, Stmt.Same.refl s⟩
  | .block ss => by simp only [Stmt.Same]; exact Stmts.Same.refl ss
  | .loop _ _ _ _ s => by unfold Stmt.Same; exact ⟨rfl, .refl _, rfl, Stmt.Same.refl s⟩
  | .allocate _ _ _ _ s => by unfold Stmt.Same; exact ⟨rfl, rfl, .refl DimE.Same.refl _, Stmt.Same.refl s⟩
  | .makeBuffer _ _ _ _ s => by unfold Stmt.Same; exact ⟨rfl, rfl, rfl, .refl DimE.Same.refl _, Stmt.Same.refl s⟩
  | .constantBuffer _ _ s => by unfold Stmt.Same; exact ⟨rfl, ⟨rfl, rfl, rfl⟩, Stmt.Same.refl s⟩
  | .cloneBuffer _ _ s => by unfold Stmt.Same; exact ⟨rfl, rfl, Stmt.Same.refl s⟩
  | .cropBuffer _ _ _ s => by unfold Stmt.Same; exact ⟨rfl, rfl, .refl Interval.Same.refl _, Stmt.Same.refl s⟩
  | .cropDim _ _ _ _ s => by unfold Stmt.Same; exact ⟨rfl, rfl, rfl, .refl _, Stmt.Same.refl s⟩
  | .sliceBuffer _ _ _ s => by unfold Stmt.Same; exact ⟨rfl, rfl, rfl, Stmt.Same.refl s⟩
  | .sliceDim _ _ _ _ s => by unfold Stmt.Same; exact ⟨rfl, rfl, rfl, rfl, Stmt.Same.refl s⟩
  | .transpose _ _ _ s => by unfold Stmt.Same; exact ⟨rfl, rfl, rfl, Stmt.Same.refl s⟩
  | .async _ t s => by unfold Stmt.Same; exact ⟨rfl, Stmt.Same.refl t, Stmt.Same.refl s⟩
  | .check _ => by simp [Stmt.Same]
theorem Stmts.Same.refl {content : Buf → List Int} : ∀ a : Stmts, a.Same content a
  | .nil => by simp [Stmts.Same]
  | .cons s ss => by unfold Stmts.Same; exact ⟨Stmt.Same.refl s, Stmts.Same.refl ss⟩
end

theorem cmpS_refl {content : Buf → List Int} (a : Stmt) : cmpS content a a = .eq := (cmpS_eq a a).mpr (.refl a)

theorem cmpS_swap {content : Buf → List Int} (a b : Stmt) : cmpS content b a = (cmpS content a b).swap := by
  have h1 := cmpS_tr (content := content) a b a
  have h2 := cmpS_tr (content := content) b a b
  rw [cmpS_refl] at h1 h2
  unfold Tr at h1 h2
  revert h1 h2
  cases cmpS content a b <;> cases cmpS content b a <;> simp (decide := true)

theorem Stmt.Same.symm {content : Buf → List Int} {a b : Stmt} (h : a.Same content b) : b.Same content a := by
  rw [← cmpS_eq] at *; rw [cmpS_swap a b, h]; rfl

theorem Stmt.Same.trans {content : Buf → List Int} {a b c : Stmt} (h : a.Same content b) (h' : b.Same content c) : a.Same content c := by
  rw [← cmpS_eq] at *; rw [(cmpS_tr a b c).1 h]; exact h'

/-! ## Properties -/

/-- C08: `match(a, b)` of statements holds exactly when they are the same, except for what `Stmt.Same` does not compare. -/
theorem matchS_iff (content : Buf → List Int) (a b : Stmt) : matchS content a b = true ↔ a.Same content b := by
  simp [matchS, cmpS_eq]

/-- C08: swapping the arguments of `compare` negates the result. -/
theorem compareS_swap (content : Buf → List Int) (a b : Stmt) : cmpS content b a = (cmpS content a b).swap := cmpS_swap a b

/-- C08: `node_less` of statements is a strict weak order (what `std::map` needs), and two statements are equivalent in it exactly if they
match. -/
theorem compareS_strict_weak_order (content : Buf → List Int) :
    (∀ a, cmpS content a a ≠ .lt) ∧
    (∀ a b c, cmpS content a b = .lt → cmpS content b c = .lt → cmpS content a c = .lt) ∧
    (∀ a b, cmpS content a b ≠ .lt ∧ cmpS content b a ≠ .lt ↔ matchS content a b = true) ∧
    (∀ a b c, matchS content a b = true → matchS content b c = true → matchS content a c = true) := by
  refine ⟨fun a => by rw [cmpS_refl]; simp, fun a b c h h' => (cmpS_tr a b c).2.2.1 h h', fun a b => ?_, fun a b c h h' => ?_⟩
  · rw [cmpS_swap a b]
    unfold matchS
    cases cmpS content a b <;> simp
  · rw [matchS_iff] at *
    exact h.trans h'

/-- **A candidate bug**: statements that are not the same match: a serial loop and a parallel loop, an allocation on the stack and one on the
heap. -/
theorem matchS_counterexample (content : Buf → List Int) :
    matchS content (.loop 0 (.const 1) ⟨.const 0, .const 9, false⟩ (.const 1) (.call 7 [] [] [])) (.loop 0 (.const 4) ⟨.const 0, .const 9, false⟩ (.const 1) (.call 7 [] [] [])) = true ∧
    matchS content (.allocate 0 .stack (.const 1) [] (.call 7 [] [0] [])) (.allocate 0 .heap (.const 1) [] (.call 7 [] [0] [])) = true := by
  constructor <;> rw [matchS_iff] <;> simp [Stmt.Same, Interval.Same, SameList]

/-- A non-trivial case: the crops are compared by their bounds, before their bodies. -/
example (content : Buf → List Int) : cmpS content (.cropDim 1 0 0 ⟨.const 0, .const 5, false⟩ (.call 9 [] [1] [])) (.cropDim 1 0 0 ⟨.const 0, .const 6, false⟩ (.call 8 [] [1] [])) = .lt := rfl

end Slinky
