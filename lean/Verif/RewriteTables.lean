import Verif.RewriteProps
import Verif.RulesMinProps
import Verif.RulesMaxProps
import Verif.RulesAddProps
import Verif.RulesSubProps
import Verif.RulesMulProps
import Verif.RulesDivProps
import Verif.RulesModProps
import Verif.RulesLessProps
import Verif.RulesEqualProps
import Verif.RulesAndProps
import Verif.RulesOrProps
import Verif.RulesNotProps
import Verif.RulesSelectProps
import Verif.RulesCallProps

/-!
# The rule tables, applied by the engine (C12, C13)
-/

namespace Slinky

open Rules

set_option maxRecDepth 100000 in
theorem tables_wf : ∀ rs ∈ [minRules, maxRules, addRules, subRules, mulRules, divRules, modRules, lessRules, equalRules,
    andRules, orRules, notRules, selectRules, callRules], ∀ r ∈ rs, r.wf = true := by
  decide

/-- The rule tables of simplify_rules.h. -/
def allTables : List (List Rule) := [minRules, maxRules, addRules, subRules, mulRules, divRules, modRules, lessRules,
  equalRules, andRules, orRules, notRules, selectRules, callRules]

theorem tables_sound : ∀ rs ∈ allTables, ∀ r ∈ rs, RuleSound r ∧ r.wf = true := by
  intro rs hrs r hr
  refine ⟨?_, tables_wf rs hrs r hr⟩
  simp only [allTables, List.mem_cons, List.not_mem_nil, or_false] at hrs
  rcases hrs with rfl | rfl | rfl | rfl | rfl | rfl | rfl | rfl | rfl | rfl | rfl | rfl | rfl | rfl
  · exact minRules_sound r hr
  · exact maxRules_sound r hr
  · exact addRules_sound r hr
  · exact subRules_sound r hr
  · exact mulRules_sound r hr
  · exact divRules_sound r hr
  · exact modRules_sound r hr
  · exact lessRules_sound r hr
  · exact equalRules_sound r hr
  · exact andRules_sound r hr
  · exact orRules_sound r hr
  · exact notRules_sound r hr
  · exact selectRules_sound r hr
  · exact callRules_sound r hr

/-- C13, _partial because of the guard `g` (which the C++ does not have): rewriting an expression with any of the tables does
not change its value, provided that the 11 rules with a side condition are only applied if it holds. The counterexamples
below show that the guard is needed. -/
theorem rewrite_correct_partial (m ρ) {g} (hg : GuardOK g m ρ) {rs} (hrs : rs ∈ allTables) {e e'} (he : e.ok = true)
    (h : applyRules g rs e = some e') : eval m ρ e' = eval m ρ e ∧ e'.ok = true :=
  applyRules_sound m ρ hg he (tables_sound rs hrs) h

/-- The rules that are identities without any side condition: 468 of the 479 rules. -/
def sideFree (r : Rule) : Bool := r.side == .none

/-- For the rules without side condition, no guard is needed: this is the C++ engine with the rules that have a side
condition removed from the tables. -/
theorem rewrite_correct (m ρ) {rs} (hrs : rs ∈ allTables) {e e'} (he : e.ok = true)
    (h : applyRules (fun r _ => sideFree r) rs e = some e') : eval m ρ e' = eval m ρ e ∧ e'.ok = true := by
  refine rewrite_correct_partial m ρ (g := fun r _ => sideFree r) ?_ hrs he h
  intro r c hr
  have : r.side = .none := by simpa [sideFree] using hr
  rw [this]
  exact ⟨trivial, fun h => by cases h⟩

set_option maxRecDepth 100000 in
/-- All but 11 rules are free of side conditions. -/
theorem sideFree_count : (allTables.flatten.length, (allTables.flatten.filter sideFree).length) = (479, 468) := by
  decide +kernel

/-- The rules apply: `min(x, x + 3)` becomes `x`, and `(y - x) + x` becomes `y` in the commuted order. -/
example : applyRules (fun r _ => sideFree r) minRules
    (.bin .min (.v 0) (.bin .add (.v 0) (.const 3))) = some (.v 0) := by
  decide +kernel
example : applyRules (fun r _ => sideFree r) addRules (.bin .add (.v 0) (.bin .sub (.v 1) (.v 0))) = some (.v 1) := by
  decide +kernel

/-- The guard of the C++: every rule is always applied. -/
def gTrue : Rule → MCtx → Bool := fun _ _ => true

/-- C13 finding: simplify_rules.h, `apply_min_rules`: `min(x, min(y, x + c0) + c1)`. If the predicate `0 <= c0 + c1` of the first
replacement overflows, then the engine goes on to the last replacement, which is only right if the predicate is false. Here,
`min(x, min(y, x + 2^62) + 2^62)` is replaced by `min(y, x + 2^62) + 2^62`, which is different for `x = y = 0`. -/
theorem rewrite_min_overflow_counterexample : ∃ e e', applyRules gTrue minRules e = some e' ∧ e.ok = true ∧
    ∃ ρ : Env, (∀ x, ρ x = 0) ∧ ∀ m, eval m ρ e = 0 ∧ eval m ρ e' = 2 ^ 62 := by
  refine ⟨.bin .min (.v 0) (.bin .add (.bin .min (.v 1) (.bin .add (.v 0) (.const (2 ^ 62)))) (.const (2 ^ 62))),
    .bin .add (.bin .min (.v 1) (.bin .add (.v 0) (.const (2 ^ 62)))) (.const (2 ^ 62)), by decide +kernel, by decide,
    fun _ => 0, fun _ => rfl, fun m => ?_⟩
  simp [eval, BinOp.denote, Expr.v]

/-- C13 finding: the same for `max(x, max(y, x + c0) + c1)`. -/
theorem rewrite_max_overflow_counterexample : ∃ e e', applyRules gTrue maxRules e = some e' ∧ e.ok = true ∧
    ∃ ρ : Env, (∀ x, ρ x = 0) ∧ ∀ m, eval m ρ e = 0 ∧ eval m ρ e' = - 2 ^ 63 := by
  refine ⟨.bin .max (.v 0) (.bin .add (.bin .max (.v 1) (.bin .add (.v 0) (.const (-2 ^ 62 - 1)))) (.const (-2 ^ 63))),
    .bin .add (.bin .max (.v 1) (.bin .add (.v 0) (.const (-2 ^ 62 - 1)))) (.const (-2 ^ 63)), by decide +kernel, by decide,
    fun _ => 0, fun _ => rfl, fun m => ?_⟩
  simp [eval, BinOp.denote, Expr.v]

/-- C13 finding: `max(x, c0)/c1 == c2`. If the replacement `x < (c2 + 1)*c1` overflows, then the engine goes on to the
replacement `false`: `max(x, 2^63 - 2)/2 == 2^62 - 1` is replaced by `false`, although it is true for `x = 0`. -/
theorem rewrite_equal_overflow_counterexample : ∃ e, applyRules gTrue equalRules e = some (.const 0) ∧ e.ok = true ∧
    ∃ ρ : Env, (∀ x, ρ x = 0) ∧ ∀ m, eval m ρ e = 1 := by
  refine ⟨.bin .eq (.bin .div (.bin .max (.v 0) (.const (2 ^ 63 - 2))) (.const 2)) (.const (2 ^ 62 - 1)),
    by decide +kernel, by decide, fun _ => 0, fun _ => rfl, fun m => ?_⟩
  simp [eval, BinOp.denote, Expr.v, b2i, ediv]

/-- C13 finding: the constants of the staircases are truncated to 32 bits: `x/2 < (x + 2^32)/2` is replaced by `false`,
although it is always true. -/
theorem rewrite_less_staircase_counterexample : ∃ e, applyRules gTrue lessRules e = some (.const 0) ∧ e.ok = true ∧
    ∀ m ρ, eval m ρ e = 1 := by
  refine ⟨.bin .lt (.bin .div (.v 0) (.const 2)) (.bin .div (.bin .add (.v 0) (.const (2 ^ 32))) (.const 2)),
    by decide +kernel, by decide, fun m ρ => ?_⟩
  simp only [eval, BinOp.denote, Expr.v, b2i, ediv]
  rw [if_pos (by omega)]

end Slinky
