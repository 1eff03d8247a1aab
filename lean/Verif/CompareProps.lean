import Verif.Compare

/-! # C08: structural comparison is a total order and `match` is structural equality -/

namespace Slinky

theorem cmp3_eq {a b : Int} : cmp3 a b = .eq ↔ a = b := by
  unfold cmp3; split <;> [skip; split] <;> simp <;> omega
theorem cmp3_lt {a b : Int} : cmp3 a b = .lt ↔ a < b := by
  unfold cmp3; split <;> [skip; split] <;> simp <;> omega
theorem cmp3_swap (a b : Int) : cmp3 b a = (cmp3 a b).swap := by
  unfold cmp3; split <;> split <;> first | rfl | omega | (split <;> first | rfl | omega)
@[simp] theorem cmp3_self (a : Int) : cmp3 a a = .eq := cmp3_eq.mpr rfl

theorem then_eq {o p : Ordering} : o.then p = .eq ↔ o = .eq ∧ p = .eq := by cases o <;> simp [Ordering.then]
theorem then_lt {o p : Ordering} : o.then p = .lt ↔ o = .lt ∨ (o = .eq ∧ p = .lt) := by cases o <;> simp [Ordering.then]
theorem then_swap {o p : Ordering} : (o.then p).swap = o.swap.then p.swap := by cases o <;> simp [Ordering.then, Ordering.swap]

theorem BinOp.tag_inj {a b : BinOp} (h : a.tag = b.tag) : a = b := by cases a <;> cases b <;> simp_all [BinOp.tag]
theorem Field.tag_inj {a b : Field} (h : a.tag = b.tag) : a = b := by cases a <;> cases b <;> simp_all [Field.tag]
theorem Fn.inj {a b : Fn} (h : a.tag = b.tag) (h' : a.ident = b.ident) : a = b := by
  cases a <;> cases b <;> simp_all [Fn.tag, Fn.ident]

theorem BinOp.tag_range (a : BinOp) : 3 ≤ a.tag ∧ a.tag ≤ 15 := by cases a <;> decide

mutual
theorem cmpE_eq : ∀ a b : Expr, cmpE a b = .eq ↔ a = b
  | .undef, b => by
    cases b <;> simp [cmpE, cmp3_eq, Expr.tag]
    have := BinOp.tag_range ‹BinOp›; omega
  | .var x f d, b => by
    cases b <;> simp [cmpE, cmp3_eq, Expr.tag, then_eq] 
    case var x' f' d' =>
      exact fun _ _ => ⟨Field.tag_inj, fun h => h ▸ rfl⟩
    have := BinOp.tag_range ‹BinOp›; omega
  | .const c, b => by
    cases b <;> simp [cmpE, cmp3_eq, Expr.tag]
    have := BinOp.tag_range ‹BinOp›; omega
  | .lets bs e, b => by
    cases b <;> simp [cmpE, cmp3_eq, Expr.tag, then_eq]
    case lets bs' e' =>
      rw [cmpE_eq e e']
      constructor
      · rintro ⟨⟨h1, h2⟩, h3⟩; exact ⟨(cmpBinds_eq bs bs' (by exact_mod_cast h1)).mp h2, h3⟩
      · rintro ⟨h1, h2⟩; subst h1; exact ⟨⟨rfl, (cmpBinds_eq _ _ rfl).mpr rfl⟩, h2⟩
    have := BinOp.tag_range ‹BinOp›; omega
  | .bin op x y, b => by
    have hop := BinOp.tag_range op
    cases b <;> simp [cmpE, cmp3_eq, Expr.tag, then_eq] <;> try omega
    case bin op' x' y' =>
      rw [cmpE_eq x x', cmpE_eq y y']
      constructor
      · rintro ⟨h1, h2, h3⟩; exact ⟨BinOp.tag_inj (by exact_mod_cast h1), h2, h3⟩
      · rintro ⟨h1, h2, h3⟩; subst h1; exact ⟨rfl, h2, h3⟩
  | .not a, b => by
    cases b <;> simp [cmpE, cmp3_eq, Expr.tag]
    case not b => exact cmpE_eq a b
    have := BinOp.tag_range ‹BinOp›; omega
  | .select c t f, b => by
    cases b <;> simp [cmpE, cmp3_eq, Expr.tag, then_eq]
    case select c' t' f' => rw [cmpE_eq c c', cmpE_eq t t', cmpE_eq f f']
    have := BinOp.tag_range ‹BinOp›; omega
  | .call fn as, b => by
    cases b <;> simp [cmpE, cmp3_eq, Expr.tag, then_eq]
    case call fn' as' =>
      constructor
      · rintro ⟨h1, ⟨h2, h3⟩, h4⟩
        exact ⟨Fn.inj (by exact_mod_cast h1) (by exact_mod_cast h4), (cmpArgs_eq as as' (by exact_mod_cast h2)).mp h3⟩
      · rintro ⟨h1, h2⟩; subst h1 h2; exact ⟨rfl, ⟨rfl, (cmpArgs_eq _ _ rfl).mpr rfl⟩, rfl⟩
    have := BinOp.tag_range ‹BinOp›; omega
theorem cmpArgs_eq : ∀ as bs : Exprs, as.length = bs.length → (cmpArgs as bs = .eq ↔ as = bs)
  | .nil, .nil, _ => by simp [cmpArgs]
  | .nil, .cons _ _, h => by simp [Exprs.length] at h
  | .cons _ _, .nil, h => by simp [Exprs.length] at h
  | .cons e es, .cons e' es', h => by
    simp only [Exprs.length, Nat.add_right_cancel_iff] at h
    simp [cmpArgs, then_eq, cmpE_eq e e', cmpArgs_eq es es' h]
theorem cmpBinds_eq : ∀ as bs : Binds, as.length = bs.length → (cmpBinds as bs = .eq ↔ as = bs)
  | .nil, .nil, _ => by simp [cmpBinds]
  | .nil, .cons _ _ _, h => by simp [Binds.length] at h
  | .cons _ _ _, .nil, h => by simp [Binds.length] at h
  | .cons x e es, .cons x' e' es', h => by
    simp only [Binds.length, Nat.add_right_cancel_iff] at h
    simp [cmpBinds, then_eq, cmp3_eq, cmpE_eq e e', cmpBinds_eq es es' h, and_assoc]
end

mutual
theorem cmpE_swap : ∀ a b : Expr, cmpE b a = (cmpE a b).swap
  | .undef, b => by cases b <;> simp only [cmpE, then_swap, ← cmp3_swap]
  | .var x f d, b => by cases b <;> simp only [cmpE, then_swap, ← cmp3_swap]
  | .const c, b => by cases b <;> simp only [cmpE, then_swap, ← cmp3_swap]
  | .lets bs e, b => by
    cases b <;> simp only [cmpE, then_swap, ← cmp3_swap]
    rw [cmpE_swap e _, cmpBinds_swap bs _]
  | .bin op x y, b => by
    cases b <;> simp only [cmpE, then_swap, ← cmp3_swap]
    rw [cmpE_swap x _, cmpE_swap y _]
  | .not a, b => by
    cases b <;> simp only [cmpE, then_swap, ← cmp3_swap]
    rw [cmpE_swap a _]
  | .select c t f, b => by
    cases b <;> simp only [cmpE, then_swap, ← cmp3_swap]
    rw [cmpE_swap c _, cmpE_swap t _, cmpE_swap f _]
  | .call fn as, b => by
    cases b <;> simp only [cmpE, then_swap, ← cmp3_swap]
    rw [cmpArgs_swap as _]
theorem cmpArgs_swap : ∀ as bs : Exprs, cmpArgs bs as = (cmpArgs as bs).swap
  | .nil, bs => by cases bs <;> simp [cmpArgs]
  | .cons e es, .nil => by simp [cmpArgs]
  | .cons e es, .cons e' es' => by simp only [cmpArgs, then_swap]; rw [cmpE_swap e e', cmpArgs_swap es es']
theorem cmpBinds_swap : ∀ as bs : Binds, cmpBinds bs as = (cmpBinds as bs).swap
  | .nil, bs => by cases bs <;> simp [cmpBinds]
  | .cons x e es, .nil => by simp [cmpBinds]
  | .cons x e es, .cons x' e' es' => by
    simp only [cmpBinds, then_swap, ← cmp3_swap]; rw [cmpE_swap e e', cmpBinds_swap es es']
end

theorem cmpE_tag {a b : Expr} (h : cmpE a b = .lt) : a.tag ≤ b.tag := by
  cases a <;> cases b <;> simp [cmpE, Expr.tag, cmp3_lt, then_lt, cmp3_eq] at * <;> omega

theorem cmpE_of_tag {a b : Expr} (h : a.tag < b.tag) : cmpE a b = .lt := by
  cases a <;> cases b <;> simp [cmpE, Expr.tag, cmp3_lt, then_lt, cmp3_eq] at * <;> omega

theorem shape_lets {b : Expr} (h : b.tag = 2) : ∃ bs e, b = .lets bs e := by
  cases b <;> simp [Expr.tag] at h <;> try (have := BinOp.tag_range ‹BinOp›; omega)
  exact ⟨_, _, rfl⟩
theorem shape_not {b : Expr} (h : b.tag = 16) : ∃ e, b = .not e := by
  cases b <;> simp [Expr.tag] at h <;> try (have := BinOp.tag_range ‹BinOp›; omega)
  exact ⟨_, rfl⟩
theorem shape_select {b : Expr} (h : b.tag = 17) : ∃ c t f, b = .select c t f := by
  cases b <;> simp [Expr.tag] at h <;> try (have := BinOp.tag_range ‹BinOp›; omega)
  exact ⟨_, _, _, rfl⟩
theorem shape_call {b : Expr} (h : b.tag = 18) : ∃ f as, b = .call f as := by
  cases b <;> simp [Expr.tag] at h <;> try (have := BinOp.tag_range ‹BinOp›; omega)
  exact ⟨_, _, rfl⟩
theorem shape_var {b : Expr} (h : b.tag = 1) : ∃ x f d, b = .var x f d := by
  cases b <;> simp [Expr.tag] at h <;> try (have := BinOp.tag_range ‹BinOp›; omega)
  exact ⟨_, _, _, rfl⟩
theorem shape_const {b : Expr} (h : b.tag = 19) : ∃ c, b = .const c := by
  cases b <;> simp [Expr.tag] at h <;> try (have := BinOp.tag_range ‹BinOp›; omega)
  exact ⟨_, rfl⟩
theorem shape_undef {b : Expr} (h : b.tag = 0) : b = .undef := by
  cases b <;> simp [Expr.tag] at h <;> try (have := BinOp.tag_range ‹BinOp›; omega)
  rfl
theorem shape_bin {op : BinOp} {b : Expr} (h : b.tag = op.tag) : ∃ x y, b = .bin op x y := by
  have := BinOp.tag_range op
  cases b <;> simp only [Expr.tag] at h <;> try omega
  exact ⟨_, _, by rw [BinOp.tag_inj h]⟩

theorem trans_reduce {a b c : Expr} (h1 : cmpE a b = .lt) (h2 : cmpE b c = .lt)
    (h : b.tag = a.tag → c.tag = a.tag → cmpE a c = .lt) : cmpE a c = .lt := by
  have t1 := cmpE_tag h1
  have t2 := cmpE_tag h2
  by_cases ht : a.tag < c.tag
  · exact cmpE_of_tag ht
  · exact h (by omega) (by omega)

mutual
theorem cmpE_trans : ∀ a b c : Expr, cmpE a b = .lt → cmpE b c = .lt → cmpE a c = .lt
  | .undef, b, c, h1, h2 => trans_reduce h1 h2 fun e1 e2 => by
    obtain rfl := shape_undef e1
    simp [cmpE] at h1
  | .var x f d, b, c, h1, h2 => trans_reduce h1 h2 fun e1 e2 => by
    obtain ⟨x', f', d', rfl⟩ := shape_var e1; obtain ⟨x'', f'', d'', rfl⟩ := shape_var e2
    simp only [cmpE, then_lt, cmp3_lt, cmp3_eq] at h1 h2 ⊢
    omega
  | .const x, b, c, h1, h2 => trans_reduce h1 h2 fun e1 e2 => by
    obtain ⟨y, rfl⟩ := shape_const e1; obtain ⟨z, rfl⟩ := shape_const e2
    simp only [cmpE, cmp3_lt] at h1 h2 ⊢; omega
  | .lets bs e, b, c, h1, h2 => trans_reduce h1 h2 fun e1 e2 => by
    obtain ⟨bs', e', rfl⟩ := shape_lets e1; obtain ⟨bs'', e'', rfl⟩ := shape_lets e2
    simp only [cmpE, then_lt, cmp3_lt, cmp3_eq, then_eq] at h1 h2 ⊢
    rcases h1 with (h1 | ⟨l1, h1⟩) | ⟨⟨l1, h1⟩, h1'⟩
    · rcases h2 with (h2 | ⟨l2, h2⟩) | ⟨⟨l2, h2⟩, h2'⟩ <;> (left; left; omega)
    · rcases h2 with (h2 | ⟨l2, h2⟩) | ⟨⟨l2, h2⟩, h2'⟩
      · left; left; omega
      · left; right; exact ⟨by omega, cmpBinds_trans _ _ _ h1 h2⟩
      · rw [cmpBinds_eq _ _ (by exact_mod_cast l2)] at h2; subst h2; left; right; exact ⟨l1, h1⟩
    · rw [cmpBinds_eq _ _ (by exact_mod_cast l1)] at h1; subst h1
      rcases h2 with (h2 | ⟨l2, h2⟩) | ⟨⟨l2, h2⟩, h2'⟩
      · left; left; exact h2
      · left; right; exact ⟨l2, h2⟩
      · right; exact ⟨⟨l2, h2⟩, cmpE_trans _ _ _ h1' h2'⟩
  | .bin op x y, b, c, h1, h2 => trans_reduce h1 h2 fun e1 e2 => by
    obtain ⟨x', y', rfl⟩ := shape_bin e1; obtain ⟨x'', y'', rfl⟩ := shape_bin e2
    simp only [cmpE, then_lt, cmp3_self, reduceCtorEq, false_or, true_and] at h1 h2 ⊢
    rcases h1 with h1 | ⟨h1, h1'⟩
    · rcases h2 with h2 | ⟨h2, h2'⟩
      · left; exact cmpE_trans _ _ _ h1 h2
      · rw [cmpE_eq] at h2; subst h2; left; exact h1
    · rw [cmpE_eq] at h1; subst h1
      rcases h2 with h2 | ⟨h2, h2'⟩
      · left; exact h2
      · right; exact ⟨h2, cmpE_trans _ _ _ h1' h2'⟩
  | .not x, b, c, h1, h2 => trans_reduce h1 h2 fun e1 e2 => by
    obtain ⟨y, rfl⟩ := shape_not e1; obtain ⟨z, rfl⟩ := shape_not e2
    simp only [cmpE] at h1 h2 ⊢; exact cmpE_trans _ _ _ h1 h2
  | .select x y z, b, c, h1, h2 => trans_reduce h1 h2 fun e1 e2 => by
    obtain ⟨x', y', z', rfl⟩ := shape_select e1; obtain ⟨x'', y'', z'', rfl⟩ := shape_select e2
    simp only [cmpE, then_lt] at h1 h2 ⊢
    rcases h1 with h1 | ⟨h1, h1'⟩
    · rcases h2 with h2 | ⟨h2, h2'⟩
      · left; exact cmpE_trans _ _ _ h1 h2
      · rw [cmpE_eq] at h2; subst h2; left; exact h1
    · rw [cmpE_eq] at h1; subst h1
      rcases h2 with h2 | ⟨h2, h2'⟩
      · left; exact h2
      · right; refine ⟨h2, ?_⟩
        rcases h1' with h1 | ⟨h1, h1'⟩
        · rcases h2' with h2 | ⟨h2, h2'⟩
          · left; exact cmpE_trans _ _ _ h1 h2
          · rw [cmpE_eq] at h2; subst h2; left; exact h1
        · rw [cmpE_eq] at h1; subst h1
          rcases h2' with h2 | ⟨h2, h2'⟩
          · left; exact h2
          · right; exact ⟨h2, cmpE_trans _ _ _ h1' h2'⟩
  | .call f as, b, c, h1, h2 => trans_reduce h1 h2 fun e1 e2 => by
    obtain ⟨f', as', rfl⟩ := shape_call e1; obtain ⟨f'', as'', rfl⟩ := shape_call e2
    simp only [cmpE, then_lt, cmp3_lt, cmp3_eq, then_eq] at h1 h2 ⊢
    rcases h1 with h1 | ⟨t1, h1⟩
    · left; rcases h2 with h2 | ⟨t2, h2⟩ <;> omega
    · rcases h2 with h2 | ⟨t2, h2⟩
      · left; omega
      · right; refine ⟨by omega, ?_⟩
        rcases h1 with (h1 | ⟨l1, h1⟩) | ⟨⟨l1, h1⟩, h1'⟩
        · rcases h2 with (h2 | ⟨l2, h2⟩) | ⟨⟨l2, h2⟩, h2'⟩ <;> (left; left; omega)
        · rcases h2 with (h2 | ⟨l2, h2⟩) | ⟨⟨l2, h2⟩, h2'⟩
          · left; left; omega
          · left; right; exact ⟨by omega, cmpArgs_trans _ _ _ h1 h2⟩
          · rw [cmpArgs_eq _ _ (by exact_mod_cast l2)] at h2; subst h2; left; right; exact ⟨l1, h1⟩
        · rw [cmpArgs_eq _ _ (by exact_mod_cast l1)] at h1; subst h1
          rcases h2 with (h2 | ⟨l2, h2⟩) | ⟨⟨l2, h2⟩, h2'⟩
          · left; left; exact h2
          · left; right; exact ⟨l2, h2⟩
          · right; exact ⟨⟨l2, h2⟩, by omega⟩
theorem cmpArgs_trans : ∀ as bs cs : Exprs, cmpArgs as bs = .lt → cmpArgs bs cs = .lt → cmpArgs as cs = .lt
  | .nil, _, _, h1, _ => by simp [cmpArgs] at h1
  | .cons _ _, .nil, _, h1, _ => by simp [cmpArgs] at h1
  | .cons _ _, .cons _ _, .nil, _, h2 => by simp [cmpArgs] at h2
  | .cons a as, .cons b bs, .cons c cs, h1, h2 => by
    simp only [cmpArgs, then_lt] at *
    rcases h1 with h1 | ⟨h1, h1'⟩
    · rcases h2 with h2 | ⟨h2, h2'⟩
      · left; exact cmpE_trans _ _ _ h1 h2
      · rw [cmpE_eq] at h2; subst h2; left; exact h1
    · rw [cmpE_eq] at h1; subst h1
      rcases h2 with h2 | ⟨h2, h2'⟩
      · left; exact h2
      · right; exact ⟨h2, cmpArgs_trans _ _ _ h1' h2'⟩
theorem cmpBinds_trans : ∀ as bs cs : Binds, cmpBinds as bs = .lt → cmpBinds bs cs = .lt → cmpBinds as cs = .lt
  | .nil, _, _, h1, _ => by simp [cmpBinds] at h1
  | .cons _ _ _, .nil, _, h1, _ => by simp [cmpBinds] at h1
  | .cons _ _ _, .cons _ _ _, .nil, _, h2 => by simp [cmpBinds] at h2
  | .cons x a as, .cons y b bs, .cons z c cs, h1, h2 => by
    simp only [cmpBinds, then_lt, then_eq, cmp3_lt, cmp3_eq] at *
    rcases h1 with (h1 | ⟨x1, h1⟩) | ⟨⟨x1, h1⟩, h1'⟩
    · rcases h2 with (h2 | ⟨x2, h2⟩) | ⟨⟨x2, h2⟩, h2'⟩ <;> (left; left; omega)
    · rcases h2 with (h2 | ⟨x2, h2⟩) | ⟨⟨x2, h2⟩, h2'⟩
      · left; left; omega
      · left; right; exact ⟨by omega, cmpE_trans _ _ _ h1 h2⟩
      · rw [cmpE_eq] at h2; subst h2; left; right; exact ⟨by omega, h1⟩
    · rw [cmpE_eq] at h1; subst h1
      rcases h2 with (h2 | ⟨x2, h2⟩) | ⟨⟨x2, h2⟩, h2'⟩
      · left; left; omega
      · left; right; exact ⟨by omega, h2⟩
      · right; exact ⟨⟨by omega, h2⟩, cmpBinds_trans _ _ _ h1' h2'⟩
end

/-! ### Properties -/

/-- C08: `match(a, b)` holds exactly when `a` and `b` are structurally the same expression. -/
theorem match_iff (a b : Expr) : matchE a b = true ↔ a = b := by
  simp [matchE, cmpE_eq]

/-- C08: `compare(a, b) == 0` exactly for structurally equal expressions, and swapping the arguments negates the result. -/
theorem compare_spec (a b : Expr) : (cmpE a b = .eq ↔ a = b) ∧ cmpE b a = (cmpE a b).swap :=
  ⟨cmpE_eq a b, cmpE_swap a b⟩

/-- C08: `node_less` is a strict total order on expressions: irreflexive, transitive and total up to equality, i.e. a
valid `Compare` for `std::map`/`std::set`. -/
theorem nodeLess_strict_total_order :
    (∀ a, nodeLess a a = false) ∧
    (∀ a b c, nodeLess a b = true → nodeLess b c = true → nodeLess a c = true) ∧
    (∀ a b, nodeLess a b = true → nodeLess b a = false) ∧
    (∀ a b, nodeLess a b = true ∨ a = b ∨ nodeLess b a = true) := by
  refine ⟨fun a => ?_, fun a b c h1 h2 => ?_, fun a b h => ?_, fun a b => ?_⟩
  · simp [nodeLess, (cmpE_eq a a).mpr rfl]
  · simp only [nodeLess, beq_iff_eq] at *; exact cmpE_trans a b c h1 h2
  · simp only [nodeLess, beq_iff_eq] at *; rw [cmpE_swap a b, h]; rfl
  · simp only [nodeLess, beq_iff_eq]; rw [cmpE_swap a b, ← cmpE_eq]; cases cmpE a b <;> simp

/-- A non-trivial case: `x + 1 < x * 1` in the order, because `add` precedes `mul`. -/
example : nodeLess (.bin .add (.v 0) (.const 1)) (.bin .mul (.v 0) (.const 1)) = true ∧
    nodeLess (.bin .add (.v 0) (.const 1)) (.bin .add (.v 0) (.const 2)) = true := by
  constructor <;> rfl

end Slinky
