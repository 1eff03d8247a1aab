import Verif.RewriteSpec
import Verif.CompareProps
import Verif.SubstProps
import Verif.Ok
import Verif.RuleTac
import Mathlib.Tactic.Ring

/-!
# The rewriting engine is correct (C13)
-/

namespace Slinky

/-! ### Contexts -/

/-- `c'` has at least the matches of `c`. -/
structure MCtx.Ext (c c' : MCtx) : Prop where
  vars : ∀ i e, c.vars i = some e → c'.vars i = some e
  consts : ∀ i x, c.consts i = some x → c'.consts i = some x

theorem MCtx.Ext.refl (c : MCtx) : c.Ext c := ⟨fun _ _ h => h, fun _ _ h => h⟩
theorem MCtx.Ext.trans {a b c : MCtx} (h : a.Ext b) (h' : b.Ext c) : a.Ext c :=
  ⟨fun i e x => h'.vars i e (h.vars i e x), fun i e x => h'.consts i e (h.consts i e x)⟩

/-- The matched expressions are good. -/
def MCtx.OK (c : MCtx) : Prop := ∀ i e, c.vars i = some e → e.ok = true

/-- The value of a wildcard. -/
def MCtx.σ (c : MCtx) (m : Mem) (ρ : Env) (i : Nat) : Int := match c.vars i with | some e => eval m ρ e | none => 0
/-- The value of a constant. -/
def MCtx.κ (c : MCtx) (i : Nat) : Int := (c.consts i).getD 0
/-- The answer of a predicate about a wildcard. -/
def MCtx.π (c : MCtx) (k : PredKind) (i : Nat) : Bool := match c.vars i with | some e => k.fn e | none => false

/-- The wildcards of a pattern. -/
def Pat.wilds : Pat → List Nat
  | .wild i => [i]
  | .pred _ i => [i]
  | .opt p _ | .not p | .eval p | .boolean p | .call1 _ p => p.wilds
  | .bin _ a b | .call2 _ a b => a.wilds ++ b.wilds
  | .select c t f => c.wilds ++ t.wilds ++ f.wilds
  | .stair x a b c => x.wilds ++ a.wilds ++ b.wilds ++ c.wilds
  | .stairMin a1 b1 c1 a2 b2 c2 | .stairMax a1 b1 c1 a2 b2 c2 =>
    a1.wilds ++ b1.wilds ++ c1.wilds ++ a2.wilds ++ b2.wilds ++ c2.wilds
  | _ => []

/-- The constants of a pattern. -/
def Pat.csts : Pat → List Nat
  | .cst i => [i]
  | .opt p _ | .not p | .eval p | .boolean p | .call1 _ p => p.csts
  | .bin _ a b | .call2 _ a b => a.csts ++ b.csts
  | .select c t f => c.csts ++ t.csts ++ f.csts
  | .stair x a b c => x.csts ++ a.csts ++ b.csts ++ c.csts
  | .stairMin a1 b1 c1 a2 b2 c2 | .stairMax a1 b1 c1 a2 b2 c2 =>
    a1.csts ++ b1.csts ++ c1.csts ++ a2.csts ++ b2.csts ++ c2.csts
  | _ => []

/-- A `pattern_constant` or a literal. -/
def Pat.isLeafConst : Pat → Bool
  | .cst _ | .lit _ => true
  | _ => false

/-- Is `d op e` the same as `e` (as a number, or as a truth value)? -/
def unitLeft (truth : Bool) : BinOp → Int → Bool
  | .add, d => d == 0
  | .mul, d => d == 1
  | .and, d => truth && d != 0
  | .or, d => truth && d == 0
  | _, _ => false
/-- Is `e op d` the same as `e` (as a number, or as a truth value)? -/
def unitRight (truth : Bool) : BinOp → Int → Bool
  | .add, d | .sub, d => d == 0
  | .mul, d | .div, d => d == 1
  | .and, d => truth && d != 0
  | .or, d => truth && d == 0
  | _, _ => false

/-- Do the operands of the operator only matter as truth values? -/
def BinOp.truth : BinOp → Bool
  | .and | .or => true
  | _ => false

/-- Static checks of the patterns of the tables: they are patterns, and the default of every `may_be` is a unit of the
operator around it (if `truth`, only as a truth value). -/
def Pat.isPat (truth : Bool) : Pat → Bool
  | .wild _ | .cst _ | .lit _ => true
  | .opt p _ => p.isPat truth
  | .bin op a b =>
    a.isPat op.truth && b.isPat op.truth &&
    (match a.dflt, b.dflt with
     | some d, _ => unitLeft truth op d
     | none, some d => unitRight truth op d
     | none, none => true)
  | .not a => a.isPat true
  | .select c t f => c.isPat true && t.isPat truth && f.isPat truth
  | .call0 fn => !fn.isOk
  | .call1 fn a => fn == .abs && a.isPat false
  | .call2 fn a b => (fn == .andThen || fn == .orElse) && a.isPat true && b.isPat true
  | .stair x a b c => x.isPat false && a.isLeafConst && b.isLeafConst && c.isLeafConst
  | _ => false

/-- Static checks of the replacements and predicates: the operands of `eval` and of the staircases are constants. -/
def Pat.isRep : Pat → Bool
  | .wild _ | .cst _ | .lit _ | .pred _ _ => true
  | .opt p _ | .not p | .boolean p => p.isRep
  | .eval p => p.isRep && p.isConst
  | .bin _ a b => a.isRep && b.isRep
  | .select c t f => c.isRep && t.isRep && f.isRep
  | .call0 _ => false
  | .call1 fn a => fn == .abs && a.isRep
  | .call2 fn a b => (fn == .andThen || fn == .orElse) && a.isRep && b.isRep
  | .stair x a b c => x.isRep && (a.isRep && a.isConst) && (b.isRep && b.isConst) && (c.isRep && c.isConst)
  | .stairMin a1 b1 c1 a2 b2 c2 | .stairMax a1 b1 c1 a2 b2 c2 =>
    (a1.isRep && a1.isConst) && (b1.isRep && b1.isConst) && (c1.isRep && c1.isConst) &&
    (a2.isRep && a2.isConst) && (b2.isRep && b2.isConst) && (c2.isRep && c2.isConst)

/-- All wildcards and constants of `q` occur in `p`. -/
def Pat.covers (p q : Pat) : Bool := q.wilds.all (p.wilds.contains ·) && q.csts.all (p.csts.contains ·)

/-- Static checks of a rule: it would compile. -/
def Rule.wf (r : Rule) : Bool :=
  r.pat.isPat false &&
  (r.pat.hasInf || r.alts.all fun a => a.1.isRep && r.pat.covers a.1 &&
    (match a.2 with | none => true | some p => p.isRep && p.isConst && r.pat.covers p))

/-- Equal, as numbers or as truth values. -/
def Rel (truth : Bool) (a b : Int) : Prop := if truth then (a = 0 ↔ b = 0) else a = b

theorem Rel.of_eq {t a b} (h : a = b) : Rel t a b := by unfold Rel; split <;> simp [h]
theorem Rel.false_iff {a b} : Rel false a b ↔ a = b := by simp [Rel]
theorem Rel.true_iff {a b} : Rel true a b ↔ (a = 0 ↔ b = 0) := by simp [Rel]

/-! ### Matching -/

theorem seqM_some {r f c' n'} (h : seqM r f = (some c', n')) : ∃ c1 n1, r = (some c1, n1) ∧ f c1 n1 = (some c', n') := by
  rcases r with ⟨_ | c, n⟩
  · simp [seqM] at h
  · exact ⟨c, n, rfl, h⟩

/-- What a successful match of `p` against a value means. -/
structure MatchedV (t : Bool) (p : Pat) (m : Mem) (ρ : Env) (v : Int) (c c' : MCtx) : Prop where
  ext : c.Ext c'
  ok : c.OK → c'.OK
  wilds : ∀ i ∈ p.wilds, (c'.vars i).isSome = true
  csts : ∀ i ∈ p.csts, (c'.consts i).isSome = true
  noInf : p.hasInf = false
  val : ∀ cf, c'.Ext cf → ∀ π, Rel t (patVal (cf.σ m ρ) cf.κ π p) v

theorem matchC_sound (m ρ) {p : Pat} (hp : p.isLeafConst = true) {x c c'} (h : matchC p x c = some c') :
    MatchedV false p m ρ x c c' := by
  cases p <;> simp [Pat.isLeafConst] at hp
  case lit k =>
    simp only [matchC] at h
    split at h
    · next hk =>
      obtain rfl := Option.some.inj h
      exact ⟨.refl _, id, by simp [Pat.wilds], by simp [Pat.csts], rfl, fun _ _ _ => Rel.of_eq hk⟩
    · simp at h
  case cst i =>
    simp only [matchC] at h
    split at h
    · next k hk =>
      split at h
      · next hx =>
        obtain rfl := Option.some.inj h
        refine ⟨.refl _, id, by simp [Pat.wilds], by simp [Pat.csts, hk], rfl, fun cf hcf _ => ?_⟩
        simp [Rel, patVal, MCtx.κ, hcf.consts i k hk, hx]
      · simp at h
    · next hk =>
      obtain rfl := Option.some.inj h
      refine ⟨⟨fun _ _ h => h, fun j x hx => ?_⟩, id, by simp [Pat.wilds], by simp [Pat.csts], rfl, fun cf hcf _ => ?_⟩
      · by_cases hj : j = i
        · rw [hj, hk] at hx; cases hx
        · simp [hj, hx]
      · have := hcf.consts i x (by simp)
        simp [Rel, patVal, MCtx.κ, this]

/-- (a - x)/b is the staircase (x + |b| - 1 - a)/(-b) (rewrite.h:548-550). -/
theorem stair_neg (a x b : Int) : (a - x) / b = (x + ((b.natAbs : Int) - 1 - a)) / (-b) := by
  rcases lt_trichotomy b 0 with hb | hb | hb
  · have hk : 0 < -b := by omega
    have e1 : (a - x) / b = -((a - x) / (-b)) := by rw [Int.ediv_neg]; omega
    rw [e1]
    generalize hkk : -b = k at *
    have hna : (b.natAbs : Int) = k := by omega
    rw [hna]
    have h1 := Int.ediv_mul_add_emod (a - x) k
    have h2 := Int.emod_nonneg (a - x) (b := k) (by omega)
    have h3 := Int.emod_lt_of_pos (a - x) hk
    have e2 : x + (k - 1 - a) = (k - 1 - (a - x) % k) + (-((a - x) / k)) * k := by
      have : (-((a - x) / k)) * k = -((a - x) / k * k) := by ring
      omega
    have e3 : (k - 1 - (a - x) % k) / k = 0 := Int.ediv_eq_zero_of_lt (by omega) (by omega)
    rw [e2, Int.add_mul_ediv_right _ _ (by omega), e3]
    omega
  · simp [hb]
  · have hna : (b.natAbs : Int) = b := by omega
    rw [hna, Int.ediv_neg]
    have h1 := Int.ediv_mul_add_emod (a - x) b
    have h2 := Int.emod_nonneg (a - x) (b := b) (by omega)
    have h3 := Int.emod_lt_of_pos (a - x) hb
    have e2 : x + (b - 1 - a) = (b - 1 - (a - x) % b) + (-((a - x) / b)) * b := by
      have : (-((a - x) / b)) * b = -((a - x) / b * b) := by ring
      omega
    have e3 : (b - 1 - (a - x) % b) / b = 0 := Int.ediv_eq_zero_of_lt (by omega) (by omega)
    rw [e2, Int.add_mul_ediv_right _ _ (by omega), e3]
    omega

theorem unitLeft_sound {t op d} (v) (h : unitLeft t op d = true) : Rel t (op.denote d v) v := by
  cases op <;> simp [unitLeft] at h <;> try (subst h; exact Rel.of_eq (by simp [BinOp.denote]))
  · obtain ⟨rfl, h⟩ := h; rw [Rel.true_iff, denote_and, ite01_eq_zero]; simp [h]
  · obtain ⟨rfl, h⟩ := h; rw [Rel.true_iff, denote_or, ite01_eq_zero]; simp [h]

theorem unitRight_sound {t op d} (v) (h : unitRight t op d = true) : Rel t (op.denote v d) v := by
  cases op <;> simp [unitRight] at h <;> try (subst h; exact Rel.of_eq (by simp [BinOp.denote, ediv]))
  · obtain ⟨rfl, h⟩ := h; rw [Rel.true_iff, denote_and, ite01_eq_zero]; simp [h]
  · obtain ⟨rfl, h⟩ := h; rw [Rel.true_iff, denote_or, ite01_eq_zero]; simp [h]

theorem denote_truth {op : BinOp} {a a' b b'} (ha : Rel op.truth a a') (hb : Rel op.truth b b') :
    op.denote a b = op.denote a' b' := by
  by_cases h : op.truth = true
  · rw [h] at ha hb
    rw [Rel.true_iff] at ha hb
    cases op <;> simp [BinOp.truth] at h
    · rw [denote_and, denote_and]; simp [ha, hb]
    · rw [denote_or, denote_or]; simp [ha, hb]
  · simp only [Bool.not_eq_true] at h
    rw [h] at ha hb
    rw [Rel.false_iff] at ha hb
    rw [ha, hb]

/-- Two matches in a row, of the operands of a binary pattern. -/
theorem MatchedV.bin {op : BinOp} {a b m ρ va vb c c1 c'} (ha : MatchedV op.truth a m ρ va c c1)
    (hb : MatchedV op.truth b m ρ vb c1 c') : MatchedV false (.bin op a b) m ρ (op.denote va vb) c c' where
  ext := ha.ext.trans hb.ext
  ok h := hb.ok (ha.ok h)
  wilds i hi := by
    simp only [Pat.wilds, List.mem_append] at hi
    rcases hi with hi | hi
    · obtain ⟨e, he⟩ := Option.isSome_iff_exists.1 (ha.wilds i hi); rw [hb.ext.vars i e he]; rfl
    · exact hb.wilds i hi
  csts i hi := by
    simp only [Pat.csts, List.mem_append] at hi
    rcases hi with hi | hi
    · obtain ⟨e, he⟩ := Option.isSome_iff_exists.1 (ha.csts i hi); rw [hb.ext.consts i e he]; rfl
    · exact hb.csts i hi
  noInf := by simp [Pat.hasInf, ha.noInf, hb.noInf]
  val cf hcf π := by
    rw [Rel.false_iff]
    exact denote_truth (ha.val cf (hb.ext.trans hcf) π) (hb.val cf hcf π)

theorem MatchedV.weaken {t p m ρ v v' c c'} (h : MatchedV false p m ρ v c c') (hv : Rel t v v') :
    MatchedV t p m ρ v' c c' :=
  { h with val := fun cf hcf π => by have := h.val cf hcf π; rw [Rel.false_iff] at this; rw [this]; exact hv }

theorem MatchedV.wilds_mono {t p m ρ v c c1 c'} (h : MatchedV t p m ρ v c c1) (hx : c1.Ext c') :
    (∀ i ∈ p.wilds, (c'.vars i).isSome = true) ∧ (∀ i ∈ p.csts, (c'.consts i).isSome = true) :=
  ⟨fun i hi => by obtain ⟨e, he⟩ := Option.isSome_iff_exists.1 (h.wilds i hi); rw [hx.vars i e he]; rfl,
   fun i hi => by obtain ⟨e, he⟩ := Option.isSome_iff_exists.1 (h.csts i hi); rw [hx.consts i e he]; rfl⟩

theorem isPat_leaf {p : Pat} (h : p.isLeafConst = true) : p.isPat false = true := by
  cases p <;> simp [Pat.isLeafConst, Pat.isPat] at h ⊢

/-- The value matched by a staircase pattern, from its parts. -/
theorem MatchedV.stair {px pa pb pc m ρ vx va vb vc v c c1 c2 c3 c'}
    (hc : MatchedV false pc m ρ vc c c1) (hb : MatchedV false pb m ρ vb c1 c2) (hx : MatchedV false px m ρ vx c2 c3)
    (ha : MatchedV false pa m ρ va c3 c') (hv : v = staircase vx va vb vc) :
    MatchedV false (.stair px pa pb pc) m ρ v c c' where
  ext := ((hc.ext.trans hb.ext).trans hx.ext).trans ha.ext
  ok h := ha.ok (hx.ok (hb.ok (hc.ok h)))
  wilds i hi := by
    simp only [Pat.wilds, List.mem_append] at hi
    rcases hi with ((hi | hi) | hi) | hi
    · exact (hx.wilds_mono ha.ext).1 i hi
    · exact ha.wilds i hi
    · exact (hb.wilds_mono (hx.ext.trans ha.ext)).1 i hi
    · exact (hc.wilds_mono ((hb.ext.trans hx.ext).trans ha.ext)).1 i hi
  csts i hi := by
    simp only [Pat.csts, List.mem_append] at hi
    rcases hi with ((hi | hi) | hi) | hi
    · exact (hx.wilds_mono ha.ext).2 i hi
    · exact ha.csts i hi
    · exact (hb.wilds_mono (hx.ext.trans ha.ext)).2 i hi
    · exact (hc.wilds_mono ((hb.ext.trans hx.ext).trans ha.ext)).2 i hi
  noInf := by simp [Pat.hasInf, ha.noInf, hb.noInf, hc.noInf, hx.noInf]
  val cf hcf π := by
    rw [Rel.false_iff, hv]
    have e1 := Rel.false_iff.1 (ha.val cf hcf π)
    have e2 := Rel.false_iff.1 (hx.val cf (ha.ext.trans hcf) π)
    have e3 := Rel.false_iff.1 (hb.val cf (hx.ext.trans (ha.ext.trans hcf)) π)
    have e4 := Rel.false_iff.1 (hc.val cf (hb.ext.trans (hx.ext.trans (ha.ext.trans hcf))) π)
    simp only [patVal, e1, e2, e3, e4]

/-- A successful match binds all wildcards and constants of the pattern, and then the value of the pattern is the value of
the expression, whichever order of the operands of the commutative nodes was tried. -/
theorem matchP_sound (m ρ) (v : Nat) : ∀ (p : Pat) t e c n c' n', p.isPat t = true → e.ok = true →
    matchP v p e c n = (some c', n') → MatchedV t p m ρ (eval m ρ e) c c' := by
  intro p
  induction p with
  | wild i =>
    intro t e c n c' n' _ he h
    simp only [matchP] at h
    split at h
    · next e' he' =>
      split at h
      · next hm =>
        have := (match_iff e e').1 hm
        subst this
        simp only [Prod.mk.injEq, Option.some.injEq] at h
        obtain ⟨rfl, _⟩ := h
        refine ⟨.refl _, id, by simp [Pat.wilds, he'], by simp [Pat.csts], rfl, fun cf hcf π => Rel.of_eq ?_⟩
        simp [patVal, MCtx.σ, hcf.vars i e he']
      · simp at h
    · next he' =>
      simp only [Prod.mk.injEq, Option.some.injEq] at h
      obtain ⟨rfl, _⟩ := h
      refine ⟨⟨fun j x hx => ?_, fun _ _ h => h⟩, fun hok j x hx => ?_, by simp [Pat.wilds], by simp [Pat.csts], rfl,
        fun cf hcf π => Rel.of_eq ?_⟩
      · by_cases hj : j = i
        · rw [hj, he'] at hx; cases hx
        · simp [hj, hx]
      · by_cases hj : j = i
        · simp [hj] at hx; rw [← hx]; exact he
        · simp [hj] at hx; exact hok j x hx
      · have := hcf.vars i e (by simp)
        simp [patVal, MCtx.σ, this]
  | cst i =>
    intro t e c n c' n' _ he h
    simp only [matchP] at h
    split at h
    · next k hk =>
      rw [asConst_eq hk]
      simp only [Prod.mk.injEq] at h
      have := matchC_sound m ρ (p := .cst i) rfl h.1
      exact this.weaken (Rel.of_eq (by simp [eval]))
    · simp at h
  | lit k =>
    intro t e c n c' n' _ he h
    simp only [matchP] at h
    split at h
    · next hk =>
      rw [asConst_eq hk]
      simp only [Prod.mk.injEq, Option.some.injEq] at h
      obtain ⟨rfl, _⟩ := h
      exact ⟨.refl _, id, by simp [Pat.wilds], by simp [Pat.csts], rfl, fun _ _ _ => Rel.of_eq (by simp [patVal, eval])⟩
    · simp at h
  | opt p d ih =>
    intro t e c n c' n' hp he h
    simp only [matchP] at h
    simp only [Pat.isPat] at hp
    have := ih t e c n c' n' hp he h
    exact ⟨this.ext, this.ok, this.wilds, this.csts, this.noInf, this.val⟩
  | bin op a b iha ihb =>
    intro t e c n c' n' hp he h
    simp only [Pat.isPat, Bool.and_eq_true] at hp
    obtain ⟨⟨hpa, hpb⟩, hd⟩ := hp
    simp only [matchP] at h
    split at h
    · next x y hxy =>
      have hxy' : e = .bin op x y := by
        split at hxy
        · split at hxy
          · next hop => simp only [Option.some.injEq, Prod.mk.injEq] at hxy; rw [hop, hxy.1, hxy.2]
          · simp at hxy
        · simp at hxy
      subst hxy'
      simp only [Expr.ok_bin, Bool.and_eq_true] at he
      obtain ⟨hx, hy⟩ := he
      split at h
      · next hcomm =>
        split at h
        · obtain ⟨c1, n1, h1, h2⟩ := seqM_some h
          have := (iha _ _ _ _ _ _ hpa hy h1).bin (ihb _ _ _ _ _ _ hpb hx h2)
          refine this.weaken (Rel.of_eq ?_)
          simp only [couldCommute, Bool.and_eq_true] at hcomm
          rw [eval]
          exact BinOp.denote_comm hcomm.1 _ _
        · obtain ⟨c1, n1, h1, h2⟩ := seqM_some h
          have := (iha _ _ _ _ _ _ hpa hx h1).bin (ihb _ _ _ _ _ _ hpb hy h2)
          exact this.weaken (Rel.of_eq (by rw [eval]))
      · obtain ⟨c1, n1, h1, h2⟩ := seqM_some h
        have := (iha _ _ _ _ _ _ hpa hx h1).bin (ihb _ _ _ _ _ _ hpb hy h2)
        exact this.weaken (Rel.of_eq (by rw [eval]))
    · split at h
      · next hda =>
        rw [hda] at hd
        obtain ⟨c1, n1, h1, h2⟩ := seqM_some h
        have := (iha _ _ _ _ _ _ hpa (Expr.ok_const _) h1).bin (ihb _ _ _ _ _ _ hpb he h2)
        refine this.weaken ?_
        simp only [eval]
        exact unitLeft_sound _ hd
      · next d hda hdb =>
        rw [hda, hdb] at hd
        obtain ⟨c1, n1, h1, h2⟩ := seqM_some h
        have := (iha _ _ _ _ _ _ hpa he h1).bin (ihb _ _ _ _ _ _ hpb (Expr.ok_const d) h2)
        refine this.weaken ?_
        rw [show eval m ρ (.const d) = d by simp [eval]]
        exact unitRight_sound _ hd
      · simp at h
  | not a ih =>
    intro t e c n c' n' hp he h
    simp only [Pat.isPat] at hp
    cases e <;> simp only [matchP] at h <;> try (simp at h; done)
    next x =>
    have := ih _ _ _ _ _ _ hp (by simpa [Expr.ok] using he) h
    refine ⟨this.ext, this.ok, this.wilds, this.csts, this.noInf, fun cf hcf π => Rel.of_eq ?_⟩
    have := Rel.true_iff.1 (this.val cf hcf π)
    rw [patVal_not, notV_def, eval, b2i_def]
    simp [this]
  | select pc pt pf ihc iht ihf =>
    intro t e c n c' n' hp he h
    simp only [Pat.isPat, Bool.and_eq_true] at hp
    cases e <;> simp only [matchP] at h <;> try (simp at h; done)
    next x y z =>
    simp only [Expr.ok, Bool.and_eq_true] at he
    obtain ⟨c2, n2, h2, h3⟩ := seqM_some h
    obtain ⟨c1, n1, h1, h2⟩ := seqM_some h2
    have mc := ihc _ _ _ _ _ _ hp.1.1 he.1.1 h1
    have mt := iht _ _ _ _ _ _ hp.1.2 he.1.2 h2
    have mf := ihf _ _ _ _ _ _ hp.2 he.2 h3
    refine ⟨(mc.ext.trans mt.ext).trans mf.ext, fun hk => mf.ok (mt.ok (mc.ok hk)), ?_, ?_, ?_, fun cf hcf π => ?_⟩
    · intro i hi
      simp only [Pat.wilds, List.mem_append] at hi
      rcases hi with (hi | hi) | hi
      · exact (mc.wilds_mono (mt.ext.trans mf.ext)).1 i hi
      · exact (mt.wilds_mono mf.ext).1 i hi
      · exact mf.wilds i hi
    · intro i hi
      simp only [Pat.csts, List.mem_append] at hi
      rcases hi with (hi | hi) | hi
      · exact (mc.wilds_mono (mt.ext.trans mf.ext)).2 i hi
      · exact (mt.wilds_mono mf.ext).2 i hi
      · exact mf.csts i hi
    · simp [Pat.hasInf, mc.noInf, mt.noInf, mf.noInf]
    · have e1 := Rel.true_iff.1 (mc.val cf (mt.ext.trans (mf.ext.trans hcf)) π)
      have e2 := mt.val cf (mf.ext.trans hcf) π
      have e3 := mf.val cf hcf π
      rw [eval, patVal]
      by_cases h0 : eval m ρ x = 0
      · rw [if_neg (not_not.2 (e1.2 h0)), if_neg (not_not.2 h0)]; exact e3
      · rw [if_pos (fun h => h0 (e1.1 h)), if_pos h0]; exact e2
  | call0 fn =>
    intro t e c n c' n' hp he h
    exfalso
    cases e <;> simp only [matchP] at h <;> try (simp at h; done)
    next fn' as =>
    cases as <;> simp only at h <;> try (simp at h; done)
    split at h
    · next hf =>
      subst hf
      simp [Pat.isPat] at hp
      simp [Expr.ok, hp] at he
    · simp at h
  | call1 fn a ih =>
    intro t e c n c' n' hp he h
    simp only [Pat.isPat, Bool.and_eq_true, beq_iff_eq] at hp
    obtain ⟨rfl, hp⟩ := hp
    simp only [matchP] at h
    split at h
    · next fn' x =>
      split at h
      · next hf =>
        subst hf
        have hx : x.ok = true := by simp [Expr.ok, Exprs.ok, Fn.strict] at he; exact he.1.2
        have := ih _ _ _ _ _ _ hp hx h
        refine ⟨this.ext, this.ok, this.wilds, this.csts, this.noInf, fun cf hcf π => Rel.of_eq ?_⟩
        have := Rel.false_iff.1 (this.val cf hcf π)
        simp only [patVal, this, eval, evalArgs, ok_defined hx, if_true, Fn.denote]
      · simp at h
    · simp at h
  | call2 fn a b iha ihb =>
    intro t e c n c' n' hp he h
    simp only [Pat.isPat, Bool.and_eq_true, Bool.or_eq_true, beq_iff_eq] at hp
    simp only [matchP] at h
    split at h
    · next fn' x y =>
      split at h
      · next hf =>
        subst hf
        have hst : fn'.strict = true := by rcases hp.1.1 with h | h <;> rw [h] <;> rfl
        simp [Expr.ok, Exprs.ok, hst] at he
        obtain ⟨⟨_, hx, hy⟩, _⟩ := he
        obtain ⟨c1, n1, h1, h2⟩ := seqM_some h
        have ma := iha _ _ _ _ _ _ hp.1.2 hx h1
        have mb := ihb _ _ _ _ _ _ hp.2 hy h2
        refine ⟨ma.ext.trans mb.ext, fun hk => mb.ok (ma.ok hk), ?_, ?_, ?_, fun cf hcf π => Rel.of_eq ?_⟩
        · intro i hi
          simp only [Pat.wilds, List.mem_append] at hi
          rcases hi with hi | hi
          · exact (ma.wilds_mono mb.ext).1 i hi
          · exact mb.wilds i hi
        · intro i hi
          simp only [Pat.csts, List.mem_append] at hi
          rcases hi with hi | hi
          · exact (ma.wilds_mono mb.ext).2 i hi
          · exact mb.csts i hi
        · simp [Pat.hasInf, ma.noInf, mb.noInf]
        · have e1 := Rel.true_iff.1 (ma.val cf (mb.ext.trans hcf) π)
          have e2 := Rel.true_iff.1 (mb.val cf hcf π)
          rcases hp.1.1 with hf | hf <;> subst hf
          · rw [patVal_andThen, andV_def]
            simp only [eval, evalArgs, ok_defined hx, ok_defined hy, if_true, Fn.denote, b2i_def]
            simp [e1, e2]
          · rw [patVal_orElse, orV_def]
            simp only [eval, evalArgs, ok_defined hx, ok_defined hy, if_true, Fn.denote, b2i_def]
            simp [e1, e2]
      · simp at h
    · simp at h
  | stair px pa pb pc ihx iha ihb ihc =>
    intro t e c n c' n' hp he h
    simp only [Pat.isPat, Bool.and_eq_true] at hp
    obtain ⟨⟨⟨hpx, hpa⟩, hpb⟩, hpc⟩ := hp
    -- the multiply
    have key : ∀ e1 vc r, e1.ok = true → eval m ρ e = eval m ρ e1 * vc →
        (∀ c1 n1, r = (some c1, n1) → MatchedV false pc m ρ vc c c1) →
        (seqM r fun ctx n =>
          match (match e1 with
            | .bin .div x y => (asConst y).map fun b => (b, x)
            | _ => some (1, e1)) with
          | none => (none, n)
          | some (b, e2) =>
            match e2 with
            | .bin .add x y =>
              seqM (seqM (matchC pb b ctx, n) (fun c k => matchP v px x c k)) (fun c k => matchP v pa y c k)
            | .bin .sub x y =>
              match asConst x with
              | some ac =>
                seqM (seqM (matchC pb (-b) ctx, n) (fun c k => matchP v px y c k))
                  (fun c k => (matchC pa ((b.natAbs : Int) - 1 - ac) c, k))
              | none => (none, n)
            | _ => seqM (seqM (matchC pb b ctx, n) (fun c k => matchP v px e2 c k)) (fun c k => (matchC pa 0 c, k)))
          = (some c', n') → MatchedV false (.stair px pa pb pc) m ρ (eval m ρ e) c c' := by
      intro e1 vc r he1 hv1 hr h
      obtain ⟨c1, n1, h1, h2⟩ := seqM_some h
      have mc := hr _ _ h1
      split at h2
      · simp at h2
      · next b e2 hb =>
        have hb' : e2.ok = true ∧ eval m ρ e1 = eval m ρ e2 / b := by
          split at hb
          · next x y =>
            simp only [Option.map_eq_some_iff, Prod.mk.injEq] at hb
            obtain ⟨k, hk, rfl, rfl⟩ := hb
            rw [asConst_eq hk]
            simp only [Expr.ok_bin, Bool.and_eq_true] at he1
            exact ⟨he1.1, by simp [eval, BinOp.denote, ediv]⟩
          · simp only [Option.some.injEq, Prod.mk.injEq] at hb
            obtain ⟨rfl, rfl⟩ := hb
            exact ⟨he1, by simp⟩
        obtain ⟨he2, hv2⟩ := hb'
        split at h2
        · next x y =>
          simp only [Expr.ok_bin, Bool.and_eq_true] at he2
          obtain ⟨c3, n3, h3, h4⟩ := seqM_some h2
          obtain ⟨c2, n2, h3, h5⟩ := seqM_some h3
          simp only [Prod.mk.injEq] at h3
          refine mc.stair (matchC_sound m ρ hpb h3.1) (ihx _ _ _ _ _ _ hpx he2.1 h5)
            (iha _ _ _ _ _ _ (isPat_leaf hpa) he2.2 h4) ?_
          rw [hv1, hv2, staircase_def]; simp [eval, BinOp.denote]
        · next x y =>
          simp only [Expr.ok_bin, Bool.and_eq_true] at he2
          split at h2
          · next ac hac =>
            obtain ⟨c3, n3, h3, h4⟩ := seqM_some h2
            obtain ⟨c2, n2, h3, h5⟩ := seqM_some h3
            simp only [Prod.mk.injEq] at h3 h4
            refine mc.stair (matchC_sound m ρ hpb h3.1) (ihx _ _ _ _ _ _ hpx he2.2 h5) (matchC_sound m ρ hpa h4.1) ?_
            rw [hv1, hv2, staircase_def, asConst_eq hac, ← stair_neg]; simp [eval, BinOp.denote]
          · simp at h2
        · obtain ⟨c3, n3, h3, h4⟩ := seqM_some h2
          obtain ⟨c2, n2, h3, h5⟩ := seqM_some h3
          simp only [Prod.mk.injEq] at h3 h4
          refine mc.stair (matchC_sound m ρ hpb h3.1) (ihx _ _ _ _ _ _ hpx he2 h5) (matchC_sound m ρ hpa h4.1) ?_
          rw [hv1, hv2, staircase_def]; simp
    refine (?_ : MatchedV false _ m ρ _ c c').weaken (Rel.of_eq rfl)
    simp only [matchP] at h
    split at h
    · next x y =>
      simp only [Expr.ok_bin, Bool.and_eq_true] at he
      refine key x (eval m ρ y) _ he.1 (by simp [eval, BinOp.denote]) (fun c1 n1 hr' => ?_) h
      exact ihc _ _ _ _ _ _ (isPat_leaf hpc) he.2 hr'
    · refine key e 1 _ he (by simp) (fun c1 n1 hr' => ?_) h
      rw [Prod.mk.injEq] at hr'
      exact matchC_sound m ρ hpc hr'.1
  | eval _ _ => intro t e c n c' n' hp; simp [Pat.isPat] at hp
  | boolean _ _ => intro t e c n c' n' hp; simp [Pat.isPat] at hp
  | pred _ _ => intro t e c n c' n' hp; simp [Pat.isPat] at hp
  | stairMin _ _ _ _ _ _ _ _ _ _ _ _ => intro t e c n c' n' hp; simp [Pat.isPat] at hp
  | stairMax _ _ _ _ _ _ _ _ _ _ _ _ => intro t e c n c' n' hp; simp [Pat.isPat] at hp

/-! ### All variants -/

theorem matchLoop_some {p e ctx} : ∀ {fuel v c}, matchLoop p e fuel v c = some ctx →
    ∃ w n, matchP w p e MCtx.empty 0 = (some ctx, n)
  | 0, _, _, h => by simp [matchLoop] at h
  | fuel + 1, v, c, h => by
    simp only [matchLoop] at h
    split at h
    · split at h
      · next ctx' n hm => exact ⟨v, n, by rw [hm, Option.some.inj h]⟩
      · exact matchLoop_some h
    · simp at h

/-- A match of a rule binds all its wildcards and constants such that the pattern has the value of the expression. -/
theorem matchAny_sound (m ρ) {p e ctx} (hp : p.isPat false = true) (he : e.ok = true) (h : matchAny p e = some ctx) :
    MatchedV false p m ρ (eval m ρ e) MCtx.empty ctx := by
  obtain ⟨w, n, hm⟩ := matchLoop_some h
  exact matchP_sound m ρ w p _ _ _ _ _ _ hp he hm

/-! ### Substitution -/

theorem substBinE_correct (m ρ) (op : BinOp) {a b : Expr} (ha : a.ok = true) (hb : b.ok = true) :
    eval m ρ (substBinE op a b) = op.denote (eval m ρ a) (eval m ρ b) ∧ (substBinE op a b).ok = true := by
  have hzero : ∀ {e : Expr}, isZero e = true → eval m ρ e = 0 := fun h => (isTrue_sound m ρ _).2.1 h
  have hone : ∀ {e : Expr}, isOne e = true → eval m ρ e = 1 := fun h => (isTrue_sound m ρ _).2.2 h
  have htrue : ∀ {e : Expr}, isTrue e = true → eval m ρ e ≠ 0 := fun h => (isTrue_sound m ρ _).1 h
  have hba := boolean_correct m ρ a (ok_defined ha)
  have hbb := boolean_correct m ρ b (ok_defined hb)
  have hoa := ok_boolean ha
  have hob := ok_boolean hb
  have hm := eval_mkBin m ρ op a b
  have hmo : (mkBin op a b).ok = true := by simp [ha, hb]
  cases op <;> simp only [substBinE]
  case add =>
    split
    · next h => exact ⟨by simp [denote_add, hzero h], hb⟩
    · split
      · next h => exact ⟨by simp [denote_add, hzero h], ha⟩
      · exact ⟨hm, hmo⟩
  case sub =>
    split
    · next h => exact ⟨by simp [denote_sub, hzero h], ha⟩
    · exact ⟨hm, hmo⟩
  case mul =>
    split
    · next h =>
      simp only [Bool.or_eq_true] at h
      refine ⟨?_, ha⟩
      rcases h with h | h
      · simp [denote_mul, hzero h]
      · simp [denote_mul, hone h]
    · split
      · next h =>
        simp only [Bool.or_eq_true] at h
        refine ⟨?_, hb⟩
        rcases h with h | h
        · simp [denote_mul, hzero h]
        · simp [denote_mul, hone h]
      · exact ⟨hm, hmo⟩
  case div =>
    split
    · next h =>
      simp only [Bool.or_eq_true] at h
      refine ⟨?_, ha⟩
      rcases h with h | h
      · simp [denote_div, hzero h]
      · simp [denote_div, hone h]
    · split
      · next h => exact ⟨by simp [denote_div, hzero h, eval], rfl⟩
      · exact ⟨hm, hmo⟩
  case mod =>
    split
    · next h => exact ⟨by simp [denote_mod, hzero h], ha⟩
    · split
      · next h => exact ⟨by simp [denote_mod, hone h, eval], rfl⟩
      · exact ⟨hm, hmo⟩
  case and =>
    rw [denote_and]
    split
    · next h =>
      simp only [Bool.or_eq_true] at h
      refine ⟨?_, hob⟩
      rw [hbb]
      rcases h with h | h
      · simp [htrue h]
      · simp [hzero h]
    · split
      · next h =>
        simp only [Bool.or_eq_true] at h
        refine ⟨?_, hoa⟩
        rw [hba]
        rcases h with h | h
        · simp [htrue h]
        · simp [hzero h]
      · rw [denote_and] at hm; exact ⟨hm, hmo⟩
  case or =>
    rw [denote_or]
    split
    · next h =>
      simp only [Bool.or_eq_true] at h
      refine ⟨?_, hoa⟩
      rw [hba]
      rcases h with h | h
      · simp [htrue h]
      · simp [hzero h]
    · split
      · next h =>
        simp only [Bool.or_eq_true] at h
        refine ⟨?_, hob⟩
        rw [hbb]
        rcases h with h | h
        · simp [htrue h]
        · simp [hzero h]
      · rw [denote_or] at hm; exact ⟨hm, hmo⟩
  all_goals exact ⟨hm, hmo⟩

/-- What substitution in a replacement computes. -/
def SubstSpec (c : MCtx) (m : Mem) (ρ : Env) (q : Pat) : Option PV → Prop
  | none => q.Ovf (c.σ m ρ) c.κ c.π
  | some (.num x) => q.isConst = true ∧ ¬ q.Ovf (c.σ m ρ) c.κ c.π ∧ x = patVal (c.σ m ρ) c.κ c.π q
  | some (.ex e) => q.isConst = false ∧ ¬ q.Ovf (c.σ m ρ) c.κ c.π ∧ eval m ρ e = patVal (c.σ m ρ) c.κ c.π q ∧ e.ok = true

theorem SubstSpec.toE {c m ρ q v} (h : SubstSpec c m ρ q (some v)) :
    ¬ q.Ovf (c.σ m ρ) c.κ c.π ∧ eval m ρ v.toE = patVal (c.σ m ρ) c.κ c.π q ∧ v.toE.ok = true := by
  cases v with
  | num x => exact ⟨h.2.1, by simp [PV.toE, eval, h.2.2], rfl⟩
  | ex e => exact h.2

/-- A constant is substituted by its value. -/
theorem SubstSpec.const {c m ρ q r} (h : SubstSpec c m ρ q r) (hc : q.isConst = true) :
    (r = none ∧ q.Ovf (c.σ m ρ) c.κ c.π) ∨
    (r = some (.num (patVal (c.σ m ρ) c.κ c.π q)) ∧ ¬ q.Ovf (c.σ m ρ) c.κ c.π) := by
  rcases r with _ | (x | e)
  · exact .inl ⟨rfl, h⟩
  · exact .inr ⟨by rw [h.2.2], h.2.1⟩
  · exact absurd hc (by simp [h.1])

theorem staircase_substStair (m ρ) {x : Expr} (hx : x.ok = true) (a b c : Int) :
    eval m ρ (substStair x a b c) = staircase (eval m ρ x) a b c ∧ (substStair x a b c).ok = true := by
  unfold substStair
  rw [staircase_def]
  constructor
  · split <;> split <;> split <;> simp_all [eval_mkBin, denote_add, denote_div, denote_mul, eval]
  · split <;> split <;> split <;> simp [hx]

set_option maxHeartbeats 1000000 in
/-- Substitution in a replacement computes its value, or says that it overflowed. -/
theorem substP_spec (m ρ) {c : MCtx} (hok : c.OK) : ∀ q : Pat, q.isRep = true →
    (∀ i ∈ q.wilds, (c.vars i).isSome = true) → (∀ i ∈ q.csts, (c.consts i).isSome = true) →
    SubstSpec c m ρ q (substP c q) := by
  intro q
  induction q with
  | wild i =>
    intro _ hw _
    obtain ⟨e, he⟩ := Option.isSome_iff_exists.1 (hw i (by simp [Pat.wilds]))
    simp [substP, he, SubstSpec, Pat.isConst, Pat.Ovf, patVal, MCtx.σ, hok i e he]
  | cst i =>
    intro _ _ hc
    obtain ⟨e, he⟩ := Option.isSome_iff_exists.1 (hc i (by simp [Pat.csts]))
    simp [substP, he, SubstSpec, Pat.isConst, Pat.Ovf, patVal, MCtx.κ]
  | lit k => intro _ _ _; simp [substP, SubstSpec, Pat.isConst, Pat.Ovf, patVal]
  | opt p d ih =>
    intro hr hw hc
    have := ih (by simpa [Pat.isRep] using hr) hw hc
    simp only [substP]
    generalize substP c p = r at this
    rcases r with _ | (x | e) <;> exact this
  | bin op a b iha ihb =>
    intro hr hw hc
    simp only [Pat.isRep, Bool.and_eq_true] at hr
    simp only [Pat.wilds, Pat.csts, List.mem_append] at hw hc
    have ha := iha hr.1 (fun i h => hw i (.inl h)) (fun i h => hc i (.inl h))
    have hb := ihb hr.2 (fun i h => hw i (.inr h)) (fun i h => hc i (.inr h))
    simp only [substP]
    generalize substP c a = ra at ha
    generalize substP c b = rb at hb
    rcases ra with _ | va
    · exact .inl ha
    rcases rb with _ | vb
    · exact .inr (.inl hb)
    simp only [Option.bind_eq_bind, Option.bind_some]
    have ha' := ha.toE
    have hb' := hb.toE
    have hbe := substBinE_correct m ρ op ha'.2.2 hb'.2.2
    rcases va with x | ea
    · rcases vb with y | eb
      · simp only [substBin]
        have hx : x = patVal (c.σ m ρ) c.κ c.π a := ha.2.2
        have hy : y = patVal (c.σ m ρ) c.κ c.π b := hb.2.2
        split
        · next ho => exact .inr (.inr ⟨ha.1, hb.1, by rw [← hx, ← hy]; exact ho⟩)
        · next ho =>
          refine ⟨by simp [Pat.isConst, ha.1, hb.1], ?_, by rw [hx, hy, patVal]⟩
          rintro (h | h | ⟨_, _, h⟩)
          · exact ha'.1 h
          · exact hb'.1 h
          · rw [← hx, ← hy] at h; exact ho h
      · refine ⟨by simp [Pat.isConst, hb.1], ?_, by rw [patVal, ← ha'.2.1, ← hb'.2.1]; exact hbe.1, hbe.2⟩
        rintro (h | h | ⟨_, h, _⟩)
        · exact ha'.1 h
        · exact hb'.1 h
        · rw [hb.1] at h; simp at h
    · refine ⟨by simp [Pat.isConst, ha.1], ?_, by rw [patVal, ← ha'.2.1, ← hb'.2.1]; exact hbe.1, hbe.2⟩
      rintro (h | h | ⟨h, _, _⟩)
      · exact ha'.1 h
      · exact hb'.1 h
      · rw [ha.1] at h; simp at h
  | not a ih =>
    intro hr hw hc
    have := ih (by simpa [Pat.isRep] using hr) hw hc
    simp only [substP]
    generalize substP c a = r at this
    rcases r with _ | (x | e)
    · exact this
    · exact ⟨this.1, this.2.1, by rw [patVal_not, notV_def, ← this.2.2]⟩
    · exact ⟨this.1, this.2.1, by rw [patVal_not, notV_def, ← this.2.2.1, eval, b2i_def], by
        rw [Expr.ok]; exact this.2.2.2⟩
  | select a b d iha ihb ihd =>
    intro hr hw hc
    simp only [Pat.isRep, Bool.and_eq_true] at hr
    simp only [Pat.wilds, Pat.csts, List.mem_append] at hw hc
    have ha := iha hr.1.1 (fun i h => hw i (.inl (.inl h))) (fun i h => hc i (.inl (.inl h)))
    have hb := ihb hr.1.2 (fun i h => hw i (.inl (.inr h))) (fun i h => hc i (.inl (.inr h)))
    have hd := ihd hr.2 (fun i h => hw i (.inr h)) (fun i h => hc i (.inr h))
    simp only [substP]
    generalize substP c a = ra at ha
    generalize substP c b = rb at hb
    generalize substP c d = rd at hd
    rcases ra with _ | va
    · exact .inl ha
    rcases rb with _ | vb
    · exact .inr (.inl hb)
    rcases rd with _ | vd
    · exact .inr (.inr hd)
    simp only [Option.bind_eq_bind, Option.bind_some]
    have ha' := ha.toE
    have hb' := hb.toE
    have hd' := hd.toE
    refine ⟨rfl, ?_, by rw [patVal, eval, ha'.2.1, hb'.2.1, hd'.2.1], by simp [Expr.ok, ha'.2.2, hb'.2.2, hd'.2.2]⟩
    rintro (h | h | h)
    · exact ha'.1 h
    · exact hb'.1 h
    · exact hd'.1 h
  | call0 fn => intro hr; simp [Pat.isRep] at hr
  | call1 fn a ih =>
    intro hr hw hc
    simp only [Pat.isRep, Bool.and_eq_true, beq_iff_eq] at hr
    obtain ⟨rfl, hr⟩ := hr
    have := ih hr hw hc
    simp only [substP]
    generalize substP c a = r at this
    rcases r with _ | v
    · exact this
    have h' := this.toE
    refine ⟨rfl, h'.1, ?_, ?_⟩
    · rw [patVal_abs, ← h'.2.1]
      simp only [eval, evalArgs, ok_defined h'.2.2, if_true, Fn.denote]
    · simp [Expr.ok, Exprs.ok, h'.2.2, Fn.isOk, Exprs.length]
  | call2 fn a b iha ihb =>
    intro hr hw hc
    simp only [Pat.isRep, Bool.and_eq_true, Bool.or_eq_true, beq_iff_eq] at hr
    simp only [Pat.wilds, Pat.csts, List.mem_append] at hw hc
    have ha := iha hr.1.2 (fun i h => hw i (.inl h)) (fun i h => hc i (.inl h))
    have hb := ihb hr.2 (fun i h => hw i (.inr h)) (fun i h => hc i (.inr h))
    simp only [substP]
    generalize substP c a = ra at ha
    generalize substP c b = rb at hb
    rcases ra with _ | va
    · exact .inl ha
    rcases rb with _ | vb
    · exact .inr hb
    simp only [Option.bind_eq_bind, Option.bind_some]
    have ha' := ha.toE
    have hb' := hb.toE
    refine ⟨rfl, ?_, ?_, ?_⟩
    · rintro (h | h)
      · exact ha'.1 h
      · exact hb'.1 h
    · rcases hr.1.1 with hf | hf <;> subst hf
      · rw [patVal_andThen, andV_def, ← ha'.2.1, ← hb'.2.1]
        simp only [eval, evalArgs, ok_defined ha'.2.2, ok_defined hb'.2.2, if_true, Fn.denote, b2i_def]
        simp
      · rw [patVal_orElse, orV_def, ← ha'.2.1, ← hb'.2.1]
        simp only [eval, evalArgs, ok_defined ha'.2.2, ok_defined hb'.2.2, if_true, Fn.denote, b2i_def]
        simp
    · rcases hr.1.1 with hf | hf <;> subst hf <;> simp [Expr.ok, Exprs.ok, ha'.2.2, hb'.2.2, Fn.isOk]
  | stair x a b d ihx iha ihb ihd =>
    intro hr hw hc
    simp only [Pat.isRep, Bool.and_eq_true] at hr
    simp only [Pat.wilds, Pat.csts, List.mem_append] at hw hc
    have hx := ihx hr.1.1.1 (fun i h => hw i (.inl (.inl (.inl h)))) (fun i h => hc i (.inl (.inl (.inl h))))
    have ha := iha hr.1.1.2.1 (fun i h => hw i (.inl (.inl (.inr h)))) (fun i h => hc i (.inl (.inl (.inr h))))
    have hb := ihb hr.1.2.1 (fun i h => hw i (.inl (.inr h))) (fun i h => hc i (.inl (.inr h)))
    have hd := ihd hr.2.1 (fun i h => hw i (.inr h)) (fun i h => hc i (.inr h))
    have ha := ha.const hr.1.1.2.2
    have hb := hb.const hr.1.2.2
    have hd := hd.const hr.2.2
    simp only [substP]
    generalize substP c x = rx at hx
    rcases rx with _ | vx
    · exact .inl hx
    rcases ha with ⟨ha, ho⟩ | ⟨ha, hna⟩
    · simp only [ha, Option.bind_eq_bind, Option.bind_some, Option.bind_none]; exact .inr (.inl ho)
    rcases hb with ⟨hb, ho⟩ | ⟨hb, hnb⟩
    · simp only [ha, hb, PV.asC, Option.bind_eq_bind, Option.bind_some, Option.bind_none]; exact .inr (.inr (.inl ho))
    rcases hd with ⟨hd, ho⟩ | ⟨hd, hnd⟩
    · simp only [ha, hb, hd, PV.asC, Option.bind_eq_bind, Option.bind_some, Option.bind_none]; exact .inr (.inr (.inr ho))
    simp only [ha, hb, hd, PV.asC, Option.bind_eq_bind, Option.bind_some]
    have hx' := hx.toE
    have hs := staircase_substStair m ρ hx'.2.2 (patVal (c.σ m ρ) c.κ c.π a) (patVal (c.σ m ρ) c.κ c.π b)
      (patVal (c.σ m ρ) c.κ c.π d)
    refine ⟨rfl, ?_, by rw [hs.1, hx'.2.1, patVal_stair], hs.2⟩
    rintro (h | h | h | h)
    · exact hx'.1 h
    · exact hna h
    · exact hnb h
    · exact hnd h
  | eval p ih =>
    intro hr hw hc
    simp only [Pat.isRep, Bool.and_eq_true] at hr
    have := (ih hr.1 hw hc).const hr.2
    simp only [substP]
    rcases this with ⟨h, ho⟩ | ⟨h, hno⟩
    · simp only [h, Option.bind_eq_bind, Option.bind_none]; exact ho
    · simp only [h, PV.asC, Option.bind_eq_bind, Option.bind_some]; exact ⟨rfl, hno, rfl⟩
  | boolean p ih =>
    intro hr hw hc
    have := ih (by simpa [Pat.isRep] using hr) hw hc
    simp only [substP]
    generalize substP c p = r at this
    rcases r with _ | v
    · exact this
    have h' := this.toE
    refine ⟨rfl, h'.1, ?_, ok_boolean h'.2.2⟩
    rw [boolean_correct m ρ _ (ok_defined h'.2.2), h'.2.1, patVal_boolean, boolV_def]
  | pred k i =>
    intro _ hw _
    obtain ⟨e, he⟩ := Option.isSome_iff_exists.1 (hw i (by simp [Pat.wilds]))
    simp only [substP, he, Option.map_some]
    refine ⟨rfl, id, ?_⟩
    rw [patVal_pred, predV_def, MCtx.π, he]
  | stairMin a1 b1 c1 a2 b2 c2 ia1 ib1 ic1 ia2 ib2 ic2 =>
    intro hr hw hc
    simp only [Pat.isRep, Bool.and_eq_true] at hr
    simp only [Pat.wilds, Pat.csts, List.mem_append] at hw hc
    have ha1 := (ia1 hr.1.1.1.1.1.1 (fun i h => hw i (by simp only [h, true_or, or_true])) (fun i h => hc i (by simp only [h, true_or, or_true]))).const hr.1.1.1.1.1.2
    have hb1 := (ib1 hr.1.1.1.1.2.1 (fun i h => hw i (by simp only [h, true_or, or_true])) (fun i h => hc i (by simp only [h, true_or, or_true]))).const hr.1.1.1.1.2.2
    have hc1 := (ic1 hr.1.1.1.2.1 (fun i h => hw i (by simp only [h, true_or, or_true])) (fun i h => hc i (by simp only [h, true_or, or_true]))).const hr.1.1.1.2.2
    have ha2 := (ia2 hr.1.1.2.1 (fun i h => hw i (by simp only [h, true_or, or_true])) (fun i h => hc i (by simp only [h, true_or, or_true]))).const hr.1.1.2.2
    have hb2 := (ib2 hr.1.2.1 (fun i h => hw i (by simp only [h, true_or, or_true])) (fun i h => hc i (by simp only [h, true_or, or_true]))).const hr.1.2.2
    have hc2 := (ic2 hr.2.1 (fun i h => hw i (by simp only [h, true_or, or_true])) (fun i h => hc i (by simp only [h, true_or, or_true]))).const hr.2.2
    simp only [substP]
    rcases ha1 with ⟨ha1, ho⟩ | ⟨ha1, ho1⟩ <;>
      simp only [ha1, PV.asC, Option.bind_eq_bind, Option.bind_some, Option.bind_none]
    · exact .inl ho
    rcases hb1 with ⟨hb1, ho⟩ | ⟨hb1, ho2⟩ <;>
      simp only [hb1, PV.asC, Option.bind_some, Option.bind_none]
    · exact .inr (.inl ho)
    rcases hc1 with ⟨hc1, ho⟩ | ⟨hc1, ho3⟩ <;>
      simp only [hc1, PV.asC, Option.bind_some, Option.bind_none]
    · exact .inr (.inr (.inl ho))
    rcases ha2 with ⟨ha2, ho⟩ | ⟨ha2, ho4⟩ <;>
      simp only [ha2, PV.asC, Option.bind_some, Option.bind_none]
    · exact .inr (.inr (.inr (.inl ho)))
    rcases hb2 with ⟨hb2, ho⟩ | ⟨hb2, ho5⟩ <;>
      simp only [hb2, PV.asC, Option.bind_some, Option.bind_none]
    · exact .inr (.inr (.inr (.inr (.inl ho))))
    rcases hc2 with ⟨hc2, ho⟩ | ⟨hc2, ho6⟩ <;>
      simp only [hc2, PV.asC, Option.bind_some, Option.bind_none]
    · exact .inr (.inr (.inr (.inr (.inr ho))))
    refine ⟨rfl, ?_, rfl⟩
    rintro (h | h | h | h | h | h)
    exacts [ho1 h, ho2 h, ho3 h, ho4 h, ho5 h, ho6 h]
  | stairMax a1 b1 c1 a2 b2 c2 ia1 ib1 ic1 ia2 ib2 ic2 =>
    intro hr hw hc
    simp only [Pat.isRep, Bool.and_eq_true] at hr
    simp only [Pat.wilds, Pat.csts, List.mem_append] at hw hc
    have ha1 := (ia1 hr.1.1.1.1.1.1 (fun i h => hw i (by simp only [h, true_or, or_true])) (fun i h => hc i (by simp only [h, true_or, or_true]))).const hr.1.1.1.1.1.2
    have hb1 := (ib1 hr.1.1.1.1.2.1 (fun i h => hw i (by simp only [h, true_or, or_true])) (fun i h => hc i (by simp only [h, true_or, or_true]))).const hr.1.1.1.1.2.2
    have hc1 := (ic1 hr.1.1.1.2.1 (fun i h => hw i (by simp only [h, true_or, or_true])) (fun i h => hc i (by simp only [h, true_or, or_true]))).const hr.1.1.1.2.2
    have ha2 := (ia2 hr.1.1.2.1 (fun i h => hw i (by simp only [h, true_or, or_true])) (fun i h => hc i (by simp only [h, true_or, or_true]))).const hr.1.1.2.2
    have hb2 := (ib2 hr.1.2.1 (fun i h => hw i (by simp only [h, true_or, or_true])) (fun i h => hc i (by simp only [h, true_or, or_true]))).const hr.1.2.2
    have hc2 := (ic2 hr.2.1 (fun i h => hw i (by simp only [h, true_or, or_true])) (fun i h => hc i (by simp only [h, true_or, or_true]))).const hr.2.2
    simp only [substP]
    rcases ha1 with ⟨ha1, ho⟩ | ⟨ha1, ho1⟩ <;>
      simp only [ha1, PV.asC, Option.bind_eq_bind, Option.bind_some, Option.bind_none]
    · exact .inl ho
    rcases hb1 with ⟨hb1, ho⟩ | ⟨hb1, ho2⟩ <;>
      simp only [hb1, PV.asC, Option.bind_some, Option.bind_none]
    · exact .inr (.inl ho)
    rcases hc1 with ⟨hc1, ho⟩ | ⟨hc1, ho3⟩ <;>
      simp only [hc1, PV.asC, Option.bind_some, Option.bind_none]
    · exact .inr (.inr (.inl ho))
    rcases ha2 with ⟨ha2, ho⟩ | ⟨ha2, ho4⟩ <;>
      simp only [ha2, PV.asC, Option.bind_some, Option.bind_none]
    · exact .inr (.inr (.inr (.inl ho)))
    rcases hb2 with ⟨hb2, ho⟩ | ⟨hb2, ho5⟩ <;>
      simp only [hb2, PV.asC, Option.bind_some, Option.bind_none]
    · exact .inr (.inr (.inr (.inr (.inl ho))))
    rcases hc2 with ⟨hc2, ho⟩ | ⟨hc2, ho6⟩ <;>
      simp only [hc2, PV.asC, Option.bind_some, Option.bind_none]
    · exact .inr (.inr (.inr (.inr (.inr ho))))
    refine ⟨rfl, ?_, rfl⟩
    rintro (h | h | h | h | h | h)
    exacts [ho1 h, ho2 h, ho3 h, ho4 h, ho5 h, ho6 h]

/-- The predicates are right about the values of the matched expressions. -/
theorem MCtx.predOK (m ρ) {c : MCtx} (hok : c.OK) : PredOK (c.σ m ρ) c.π := by
  refine ⟨fun i h => ?_, fun i h => ?_, fun i h => ?_, fun i h => ?_⟩ <;> simp only [MCtx.π] at h <;> split at h
  all_goals try (simp at h; done)
  all_goals rename_i e he
  all_goals simp only [MCtx.σ, he]
  · exact isBoolean_sound m ρ e h
  · exact (isTrue_sound m ρ e).2.1 h
  · exact isNonNegative_ok m ρ (hok i e he) h
  · exact isNonPositive_ok m ρ (hok i e he) h

/-! ### Rules -/

/-- The alternatives, and their predicates, do not overflow. -/
def NoOvf (σ κ : Nat → Int) (π : PredKind → Nat → Bool) (alts : List (Pat × Option Pat)) : Prop :=
  ∀ a ∈ alts, ¬ a.1.Ovf σ κ π ∧ ∀ p, a.2 = some p → ¬ p.Ovf σ κ π

/-- The replacement that the engine chooses has the value `v`. -/
theorem findRepl_sound (m ρ) {c : MCtx} (hok : c.OK) {strict : Bool} {v : Int} : ∀ {alts : List (Pat × Option Pat)} {e' : Expr},
    (∀ a ∈ alts, a.1.isRep = true ∧ (∀ i ∈ a.1.wilds, (c.vars i).isSome = true) ∧
      (∀ i ∈ a.1.csts, (c.consts i).isSome = true) ∧
      ∀ p, a.2 = some p → p.isRep = true ∧ p.isConst = true ∧ (∀ i ∈ p.wilds, (c.vars i).isSome = true) ∧
      (∀ i ∈ p.csts, (c.consts i).isSome = true)) →
    AltsSound strict (c.σ m ρ) c.κ c.π v alts → (strict = false → NoOvf (c.σ m ρ) c.κ c.π alts) →
    findRepl c alts = some e' → eval m ρ e' = v ∧ e'.ok = true
  | [], e', _, _, _, h => by simp [findRepl] at h
  | (r, none) :: rest, e', hwf, hs, hn, h => by
    have hr := hwf (r, none) (by simp)
    have hsp := substP_spec m ρ hok r hr.1 hr.2.1 hr.2.2.1
    simp only [findRepl] at h
    split at h
    · next w hw =>
      rw [hw] at hsp
      rw [← Option.some.inj h]
      exact ⟨by rw [hsp.toE.2.1]; exact (hs.1 hsp.toE.1).symm, hsp.toE.2.2⟩
    · next hw =>
      rw [hw] at hsp
      have hst : strict = true := by
        by_contra hf
        exact (hn (by simpa using hf) (r, none) (by simp)).1 hsp
      exact findRepl_sound m ρ hok (fun a ha => hwf a (by simp [ha])) (hs.2 hst hsp)
        (fun hf => by rw [hst] at hf; cases hf) h
  | (r, some pr) :: rest, e', hwf, hs, hn, h => by
    have hr := hwf (r, some pr) (by simp)
    have hsp := substP_spec m ρ hok r hr.1 hr.2.1 hr.2.2.1
    obtain ⟨h1, h2, h3, h4⟩ := hr.2.2.2 pr rfl
    have hpp := (substP_spec m ρ hok pr h1 h3 h4).const h2
    have hrest : (¬ pr.Ovf (c.σ m ρ) c.κ c.π ∧ patVal (c.σ m ρ) c.κ c.π pr = 0) ∨
        (pr.Ovf (c.σ m ρ) c.κ c.π ∨ r.Ovf (c.σ m ρ) c.κ c.π) → findRepl c rest = some e' →
        eval m ρ e' = v ∧ e'.ok = true := by
      intro hor h
      refine findRepl_sound m ρ hok (fun a ha => hwf a (by simp [ha])) (hs.2 ?_)
        (fun hf a ha => hn hf a (by simp [ha])) h
      rcases hor with h | h
      · exact .inl h
      · refine .inr ⟨?_, h⟩
        by_contra hf
        have := hn (by simpa using hf) (r, some pr) (by simp)
        rcases h with h | h
        · exact this.2 pr rfl h
        · exact this.1 h
    simp only [findRepl] at h
    rcases hpp with ⟨hpp, ho⟩ | ⟨hpp, hno⟩
    · rw [hpp] at h
      exact hrest (.inr (.inl ho)) h
    · rw [hpp] at h
      simp only at h
      split at h
      · next hp =>
        split at h
        · next w hw =>
          rw [hw] at hsp
          rw [← Option.some.inj h]
          exact ⟨by rw [hsp.toE.2.1]; exact (hs.1 hp hno hsp.toE.1).symm, hsp.toE.2.2⟩
        · next hw =>
          rw [hw] at hsp
          exact hrest (.inr (.inr hsp)) h
      · next hp =>
        exact hrest (.inl ⟨hno, by simpa using hp⟩) h

/-- The guard only lets a rule with a side condition be applied if the side condition holds. -/
def GuardOK (g : Rule → MCtx → Bool) (m : Mem) (ρ : Env) : Prop :=
  ∀ r c, g r c = true → r.side.Holds (c.σ m ρ) c.κ ∧ (r.side = .exact → NoOvf (c.σ m ρ) c.κ c.π r.alts)

/-- Applying a rule that is an identity does not change the value of the expression. -/
theorem applyRule_sound (m ρ) {g r e e'} (hg : GuardOK g m ρ) (hr : RuleSound r) (hw : r.wf = true) (he : e.ok = true)
    (h : applyRule g r e = some e') : eval m ρ e' = eval m ρ e ∧ e'.ok = true := by
  unfold applyRule at h
  split at h
  · simp at h
  · next c hc =>
    split at h
    · next hgc =>
      simp only [Rule.wf, Bool.and_eq_true, Bool.or_eq_true, List.all_eq_true] at hw
      have hm := matchAny_sound m ρ hw.1 he hc
      have hok : c.OK := hm.ok (fun i e h => by simp [MCtx.empty] at h)
      have hni : r.pat.hasInf ≠ true := by simp [hm.noInf]
      have hs := hr.resolve_left hni (c.σ m ρ) c.κ c.π (MCtx.predOK m ρ hok) (hg r c hgc).1
      have hv := Rel.false_iff.1 (hm.val c (.refl c) c.π)
      rw [hv] at hs
      refine findRepl_sound m ρ hok ?_ hs (fun hf => (hg r c hgc).2 (by simpa using hf)) h
      have cov : ∀ q, r.pat.covers q = true →
          (∀ i ∈ q.wilds, (c.vars i).isSome = true) ∧ (∀ i ∈ q.csts, (c.consts i).isSome = true) := by
        intro q hq
        simp only [Pat.covers, Bool.and_eq_true, List.all_eq_true, List.contains_iff_mem] at hq
        exact ⟨fun i hi => hm.wilds i (by simpa using hq.1 i hi), fun i hi => hm.csts i (by simpa using hq.2 i hi)⟩
      intro a ha
      obtain ⟨⟨h1, h2⟩, h3⟩ := hw.2.resolve_left hni a ha
      refine ⟨h1, (cov _ h2).1, (cov _ h2).2, fun p hp => ?_⟩
      rw [hp] at h3
      simp only [Bool.and_eq_true] at h3
      exact ⟨h3.1.1, h3.1.2, (cov _ h3.2).1, (cov _ h3.2).2⟩
    · simp at h

/-- C13: a table of identities never changes the value of an expression. -/
theorem applyRules_sound (m ρ) {g e} (hg : GuardOK g m ρ) (he : e.ok = true) : ∀ {rs : List Rule} {e'},
    (∀ r ∈ rs, RuleSound r ∧ r.wf = true) → applyRules g rs e = some e' → eval m ρ e' = eval m ρ e ∧ e'.ok = true
  | [], e', _, h => by simp [applyRules] at h
  | r :: rs, e', hrs, h => by
    simp only [applyRules] at h
    split at h
    · next e1 h1 =>
      rw [← Option.some.inj h]
      have := hrs r (by simp)
      exact applyRule_sound m ρ hg this.1 this.2 he h1
    · exact applyRules_sound m ρ hg he (fun r hr => hrs r (by simp [hr])) h

end Slinky
