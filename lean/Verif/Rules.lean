import Verif.Rewrite

/-!
# The rule tables of slinky/builder/simplify_rules.h
Generated by tools/rules2lean.py; one definition per rule, in the order of the C++.
-/

namespace Slinky.Rules
open Slinky

/-- simplify_rules.h:36 `apply(min(x, std::numeric_limits<index_t>::max()), x)` -/
def min0 : Rule := ⟨(.bin .min (.wild 0) (.lit i64max)), [((.wild 0), none)], .range⟩
/-- simplify_rules.h:37 `apply(min(x, rewrite::positive_infinity()), x)` -/
def min1 : Rule := ⟨(.bin .min (.wild 0) (.call0 .posInf)), [((.wild 0), none)], .none⟩
/-- simplify_rules.h:38 `apply(min(x, std::numeric_limits<index_t>::min()), std::numeric_limits<index_t>::min())` -/
def min2 : Rule := ⟨(.bin .min (.wild 0) (.lit i64min)), [((.lit i64min), none)], .range⟩
/-- simplify_rules.h:39 `apply(min(x, rewrite::negative_infinity()), rewrite::negative_infinity())` -/
def min3 : Rule := ⟨(.bin .min (.wild 0) (.call0 .negInf)), [((.call0 .negInf), none)], .none⟩
/-- simplify_rules.h:40 `apply(min(x, x + may_be<0>(c0)), x, c0 >= 0, x + c0 )` -/
def min4 : Rule := ⟨(.bin .min (.wild 0) (.bin .add (.wild 0) (.opt (.cst 0) 0))), [((.wild 0), some (.bin .le (.lit 0) (.cst 0))), ((.bin .add (.wild 0) (.cst 0)), none)], .none⟩
/-- simplify_rules.h:43 `apply(min(x, y), x && y, is_boolean(x) && is_boolean(y))` -/
def min5 : Rule := ⟨(.bin .min (.wild 0) (.wild 1)), [((.bin .and (.wild 0) (.wild 1)), some (.bin .and (.pred .isBoolean 0) (.pred .isBoolean 1)))], .none⟩
/-- simplify_rules.h:46 `apply(min(max(x, c0)/may_be<1>(c1), c2), c2, c1 > 1 && c0/c1 == c2, max(min(x/c1, c2), eval(c0/c1)), c1 > 1 && c0/c1 < c2)` -/
def min6 : Rule := ⟨(.bin .min (.bin .div (.bin .max (.wild 0) (.cst 0)) (.opt (.cst 1) 1)) (.cst 2)), [((.cst 2), some (.bin .and (.bin .lt (.lit 1) (.cst 1)) (.bin .eq (.bin .div (.cst 0) (.cst 1)) (.cst 2)))), ((.bin .max (.bin .min (.bin .div (.wild 0) (.cst 1)) (.cst 2)) (.eval (.bin .div (.cst 0) (.cst 1)))), some (.bin .and (.bin .lt (.lit 1) (.cst 1)) (.bin .lt (.bin .div (.cst 0) (.cst 1)) (.cst 2))))], .none⟩
/-- simplify_rules.h:49 `apply(min(min(y, max(x, c0)/may_be<1>(c1)), c2), min(y, c2), c1 > 1 && c0/c1 == c2, min(y, max(min(x/c1, c2), eval(c0/c1))), c1 > 1 && c0/c1 < c2)` -/
def min7 : Rule := ⟨(.bin .min (.bin .min (.wild 1) (.bin .div (.bin .max (.wild 0) (.cst 0)) (.opt (.cst 1) 1))) (.cst 2)), [((.bin .min (.wild 1) (.cst 2)), some (.bin .and (.bin .lt (.lit 1) (.cst 1)) (.bin .eq (.bin .div (.cst 0) (.cst 1)) (.cst 2)))), ((.bin .min (.wild 1) (.bin .max (.bin .min (.bin .div (.wild 0) (.cst 1)) (.cst 2)) (.eval (.bin .div (.cst 0) (.cst 1))))), some (.bin .and (.bin .lt (.lit 1) (.cst 1)) (.bin .lt (.bin .div (.cst 0) (.cst 1)) (.cst 2))))], .none⟩
/-- simplify_rules.h:54 `apply(min(min(x, y), min(x, z)), min(x, min(y, z)))` -/
def min8 : Rule := ⟨(.bin .min (.bin .min (.wild 0) (.wild 1)) (.bin .min (.wild 0) (.wild 2))), [((.bin .min (.wild 0) (.bin .min (.wild 1) (.wild 2))), none)], .none⟩
/-- simplify_rules.h:55 `apply(min(min(x, y), min(z, w)), min(x, min(y, min(z, w))))` -/
def min9 : Rule := ⟨(.bin .min (.bin .min (.wild 0) (.wild 1)) (.bin .min (.wild 2) (.wild 3))), [((.bin .min (.wild 0) (.bin .min (.wild 1) (.bin .min (.wild 2) (.wild 3)))), none)], .none⟩
/-- simplify_rules.h:56 `apply(min(x, min(x, y)), min(x, y))` -/
def min10 : Rule := ⟨(.bin .min (.wild 0) (.bin .min (.wild 0) (.wild 1))), [((.bin .min (.wild 0) (.wild 1)), none)], .none⟩
/-- simplify_rules.h:57 `apply(min(x, min(y, min(x, z))), min(x, min(y, z)))` -/
def min11 : Rule := ⟨(.bin .min (.wild 0) (.bin .min (.wild 1) (.bin .min (.wild 0) (.wild 2)))), [((.bin .min (.wild 0) (.bin .min (.wild 1) (.wild 2))), none)], .none⟩
/-- simplify_rules.h:58 `apply(min(x, min(y, min(z, min(x, w)))), min(x, min(y, min(z, w))))` -/
def min12 : Rule := ⟨(.bin .min (.wild 0) (.bin .min (.wild 1) (.bin .min (.wild 2) (.bin .min (.wild 0) (.wild 3))))), [((.bin .min (.wild 0) (.bin .min (.wild 1) (.bin .min (.wild 2) (.wild 3)))), none)], .none⟩
/-- simplify_rules.h:59 `apply(min(x, min(y, min(z, min(w, min(x, u))))), min(x, min(y, min(z, min(w, u)))))` -/
def min13 : Rule := ⟨(.bin .min (.wild 0) (.bin .min (.wild 1) (.bin .min (.wild 2) (.bin .min (.wild 3) (.bin .min (.wild 0) (.wild 4)))))), [((.bin .min (.wild 0) (.bin .min (.wild 1) (.bin .min (.wild 2) (.bin .min (.wild 3) (.wild 4))))), none)], .none⟩
/-- simplify_rules.h:60 `apply(min(x, min(y, min(z, min(w, min(u, min(x, v)))))), min(x, min(y, min(z, min(w, min(u, v))))))` -/
def min14 : Rule := ⟨(.bin .min (.wild 0) (.bin .min (.wild 1) (.bin .min (.wild 2) (.bin .min (.wild 3) (.bin .min (.wild 4) (.bin .min (.wild 0) (.wild 5))))))), [((.bin .min (.wild 0) (.bin .min (.wild 1) (.bin .min (.wild 2) (.bin .min (.wild 3) (.bin .min (.wild 4) (.wild 5)))))), none)], .none⟩
/-- simplify_rules.h:63 `apply(min(max(y, x + may_be<0>(c0)) + may_be<0>(c1), max(z, x + may_be<0>(c2))), max(x + c2, min(z, y + c1)), eval(c0 + c1 == c2))` -/
def min15 : Rule := ⟨(.bin .min (.bin .add (.bin .max (.wild 1) (.bin .add (.wild 0) (.opt (.cst 0) 0))) (.opt (.cst 1) 0)) (.bin .max (.wild 2) (.bin .add (.wild 0) (.opt (.cst 2) 0)))), [((.bin .max (.bin .add (.wild 0) (.cst 2)) (.bin .min (.wild 2) (.bin .add (.wild 1) (.cst 1)))), some (.eval (.bin .eq (.bin .add (.cst 0) (.cst 1)) (.cst 2))))], .none⟩
/-- simplify_rules.h:65 `apply(min(x, min(y, x + may_be<0>(c0)) + may_be<0>(c1)), min(x, y + c1), c0 + c1 >= 0, min(y, x + c0) + c1 )` -/
def min16 : Rule := ⟨(.bin .min (.wild 0) (.bin .add (.bin .min (.wild 1) (.bin .add (.wild 0) (.opt (.cst 0) 0))) (.opt (.cst 1) 0))), [((.bin .min (.wild 0) (.bin .add (.wild 1) (.cst 1))), some (.bin .le (.lit 0) (.bin .add (.cst 0) (.cst 1)))), ((.bin .add (.bin .min (.wild 1) (.bin .add (.wild 0) (.cst 0))) (.cst 1)), none)], .exact⟩
/-- simplify_rules.h:68 `apply(min(x + may_be<0>(c0), max(y, min(x, z) + may_be<0>(c1))), min(x + c0, max(y, z + c1)), c1 >= c0)` -/
def min17 : Rule := ⟨(.bin .min (.bin .add (.wild 0) (.opt (.cst 0) 0)) (.bin .max (.wild 1) (.bin .add (.bin .min (.wild 0) (.wild 2)) (.opt (.cst 1) 0)))), [((.bin .min (.bin .add (.wild 0) (.cst 0)) (.bin .max (.wild 1) (.bin .add (.wild 2) (.cst 1)))), some (.bin .le (.cst 0) (.cst 1)))], .none⟩
/-- simplify_rules.h:69 `apply(min(max(x, min(y, c0)), c1), min(max(x, y), c1), c0 >= c1)` -/
def min18 : Rule := ⟨(.bin .min (.bin .max (.wild 0) (.bin .min (.wild 1) (.cst 0))) (.cst 1)), [((.bin .min (.bin .max (.wild 0) (.wild 1)) (.cst 1)), some (.bin .le (.cst 1) (.cst 0)))], .none⟩
/-- simplify_rules.h:70 `apply(min(min(x, y), max(x, z)), min(x, y))` -/
def min19 : Rule := ⟨(.bin .min (.bin .min (.wild 0) (.wild 1)) (.bin .max (.wild 0) (.wild 2))), [((.bin .min (.wild 0) (.wild 1)), none)], .none⟩
/-- simplify_rules.h:71 `apply(min(x, min(y, max(x, z))), min(x, y))` -/
def min20 : Rule := ⟨(.bin .min (.wild 0) (.bin .min (.wild 1) (.bin .max (.wild 0) (.wild 2)))), [((.bin .min (.wild 0) (.wild 1)), none)], .none⟩
/-- simplify_rules.h:72 `apply(min(x, max(y, min(x, z))), min(x, max(y, z)))` -/
def min21 : Rule := ⟨(.bin .min (.wild 0) (.bin .max (.wild 1) (.bin .min (.wild 0) (.wild 2)))), [((.bin .min (.wild 0) (.bin .max (.wild 1) (.wild 2))), none)], .none⟩
/-- simplify_rules.h:73 `apply(min(min(y, max(x, z)), max(w, z)), min(y, max(min(w, x), z)))` -/
def min22 : Rule := ⟨(.bin .min (.bin .min (.wild 1) (.bin .max (.wild 0) (.wild 2))) (.bin .max (.wild 3) (.wild 2))), [((.bin .min (.wild 1) (.bin .max (.bin .min (.wild 3) (.wild 0)) (.wild 2))), none)], .none⟩
/-- simplify_rules.h:74 `apply(min(x, max(x, y) + may_be<0>(c1)), x, c1 >= 0)` -/
def min23 : Rule := ⟨(.bin .min (.wild 0) (.bin .add (.bin .max (.wild 0) (.wild 1)) (.opt (.cst 1) 0))), [((.wild 0), some (.bin .le (.lit 0) (.cst 1)))], .none⟩
/-- simplify_rules.h:75 `apply(min(x, max(y, x + may_be<0>(c0))), x, c0 >= 0)` -/
def min24 : Rule := ⟨(.bin .min (.wild 0) (.bin .max (.wild 1) (.bin .add (.wild 0) (.opt (.cst 0) 0)))), [((.wild 0), some (.bin .le (.lit 0) (.cst 0)))], .none⟩
/-- simplify_rules.h:78 `apply(min(x + may_be<0>(z), min(y, x + may_be<0>(w))), min(y, x + min(z, w)))` -/
def min25 : Rule := ⟨(.bin .min (.bin .add (.wild 0) (.opt (.wild 2) 0)) (.bin .min (.wild 1) (.bin .add (.wild 0) (.opt (.wild 3) 0)))), [((.bin .min (.wild 1) (.bin .add (.wild 0) (.bin .min (.wild 2) (.wild 3)))), none)], .none⟩
/-- simplify_rules.h:79 `apply(min(x + may_be<0>(y), x + z), x + min(y, z))` -/
def min26 : Rule := ⟨(.bin .min (.bin .add (.wild 0) (.opt (.wild 1) 0)) (.bin .add (.wild 0) (.wild 2))), [((.bin .add (.wild 0) (.bin .min (.wild 1) (.wild 2))), none)], .none⟩
/-- simplify_rules.h:80 `apply(min(x + may_be<0>(y), x - z), x - max(-y, z), is_non_positive(y), x + min(y, -z))` -/
def min27 : Rule := ⟨(.bin .min (.bin .add (.wild 0) (.opt (.wild 1) 0)) (.bin .sub (.wild 0) (.wild 2))), [((.bin .sub (.wild 0) (.bin .max (.bin .sub (.lit 0) (.wild 1)) (.wild 2))), some (.pred .isNonPositive 1)), ((.bin .add (.wild 0) (.bin .min (.wild 1) (.bin .sub (.lit 0) (.wild 2)))), none)], .none⟩
/-- simplify_rules.h:83 `apply(min(y - x, z - x), min(y, z) - x)` -/
def min28 : Rule := ⟨(.bin .min (.bin .sub (.wild 1) (.wild 0)) (.bin .sub (.wild 2) (.wild 0))), [((.bin .sub (.bin .min (.wild 1) (.wild 2)) (.wild 0)), none)], .none⟩
/-- simplify_rules.h:84 `apply(min(x - y, x - z), x - max(y, z))` -/
def min29 : Rule := ⟨(.bin .min (.bin .sub (.wild 0) (.wild 1)) (.bin .sub (.wild 0) (.wild 2))), [((.bin .sub (.wild 0) (.bin .max (.wild 1) (.wild 2))), none)], .none⟩
/-- simplify_rules.h:85 `apply(min(x, -x), -abs(x))` -/
def min30 : Rule := ⟨(.bin .min (.wild 0) (.bin .sub (.lit 0) (.wild 0))), [((.bin .sub (.lit 0) (.call1 .abs (.wild 0))), none)], .none⟩
/-- simplify_rules.h:88 `apply(min(x, select(y, max(z, min(x, u)), w)), select(y, min(x, max(z, u)), min(x, w)))` -/
def min31 : Rule := ⟨(.bin .min (.wild 0) (.select (.wild 1) (.bin .max (.wild 2) (.bin .min (.wild 0) (.wild 4))) (.wild 3))), [((.select (.wild 1) (.bin .min (.wild 0) (.bin .max (.wild 2) (.wild 4))) (.bin .min (.wild 0) (.wild 3))), none)], .none⟩
/-- simplify_rules.h:89 `apply(min(x, select(y, z, max(w, min(x, u)))), select(y, min(x, z), min(x, max(w, u))))` -/
def min32 : Rule := ⟨(.bin .min (.wild 0) (.select (.wild 1) (.wild 2) (.bin .max (.wild 3) (.bin .min (.wild 0) (.wild 4))))), [((.select (.wild 1) (.bin .min (.wild 0) (.wild 2)) (.bin .min (.wild 0) (.bin .max (.wild 3) (.wild 4)))), none)], .none⟩
/-- simplify_rules.h:90 `apply(min(x, select(y, min(x, z), w)), min(x, select(y, z, w)))` -/
def min33 : Rule := ⟨(.bin .min (.wild 0) (.select (.wild 1) (.bin .min (.wild 0) (.wild 2)) (.wild 3))), [((.bin .min (.wild 0) (.select (.wild 1) (.wild 2) (.wild 3))), none)], .none⟩
/-- simplify_rules.h:91 `apply(min(x, select(y, z, min(x, w))), min(x, select(y, z, w)))` -/
def min34 : Rule := ⟨(.bin .min (.wild 0) (.select (.wild 1) (.wild 2) (.bin .min (.wild 0) (.wild 3)))), [((.bin .min (.wild 0) (.select (.wild 1) (.wild 2) (.wild 3))), none)], .none⟩
/-- simplify_rules.h:92 `apply(min(x, select(y, max(x, z), w)), select(y, x, min(x, w)))` -/
def min35 : Rule := ⟨(.bin .min (.wild 0) (.select (.wild 1) (.bin .max (.wild 0) (.wild 2)) (.wild 3))), [((.select (.wild 1) (.wild 0) (.bin .min (.wild 0) (.wild 3))), none)], .none⟩
/-- simplify_rules.h:93 `apply(min(x, select(y, z, max(x, w))), select(y, min(x, z), x))` -/
def min36 : Rule := ⟨(.bin .min (.wild 0) (.select (.wild 1) (.wild 2) (.bin .max (.wild 0) (.wild 3)))), [((.select (.wild 1) (.bin .min (.wild 0) (.wild 2)) (.wild 0)), none)], .none⟩
/-- simplify_rules.h:94 `apply(min(y, select(x, y, w)), select(x, y, min(y, w)))` -/
def min37 : Rule := ⟨(.bin .min (.wild 1) (.select (.wild 0) (.wild 1) (.wild 3))), [((.select (.wild 0) (.wild 1) (.bin .min (.wild 1) (.wild 3))), none)], .none⟩
/-- simplify_rules.h:95 `apply(min(z, select(x, w, z)), select(x, min(z, w), z))` -/
def min38 : Rule := ⟨(.bin .min (.wild 2) (.select (.wild 0) (.wild 3) (.wild 2))), [((.select (.wild 0) (.bin .min (.wild 2) (.wild 3)) (.wild 2)), none)], .none⟩
/-- simplify_rules.h:96 `apply(min(may_be<0>(w) + select(x, y, z), select(x, u, v)), select(x, min(u, w + y), min(v, w + z)))` -/
def min39 : Rule := ⟨(.bin .min (.bin .add (.opt (.wild 3) 0) (.select (.wild 0) (.wild 1) (.wild 2))) (.select (.wild 0) (.wild 4) (.wild 5))), [((.select (.wild 0) (.bin .min (.wild 4) (.bin .add (.wild 3) (.wild 1))) (.bin .min (.wild 5) (.bin .add (.wild 3) (.wild 2)))), none)], .none⟩
/-- simplify_rules.h:97 `apply(min(min(v, select(x, y, z)), select(x, w, u)), min(v, select(x, min(y, w), min(z, u))))` -/
def min40 : Rule := ⟨(.bin .min (.bin .min (.wild 5) (.select (.wild 0) (.wild 1) (.wild 2))) (.select (.wild 0) (.wild 3) (.wild 4))), [((.bin .min (.wild 5) (.select (.wild 0) (.bin .min (.wild 1) (.wild 3)) (.bin .min (.wild 2) (.wild 4)))), none)], .none⟩
/-- simplify_rules.h:98 `apply(min(max(v, select(x, y, z)), select(x, w, u)), select(x, min(w, max(v, y)), min(u, max(v, z))))` -/
def min41 : Rule := ⟨(.bin .min (.bin .max (.wild 5) (.select (.wild 0) (.wild 1) (.wild 2))) (.select (.wild 0) (.wild 3) (.wild 4))), [((.select (.wild 0) (.bin .min (.wild 3) (.bin .max (.wild 5) (.wild 1))) (.bin .min (.wild 4) (.bin .max (.wild 5) (.wild 2)))), none)], .none⟩
/-- simplify_rules.h:99 `apply(min(w - select(x, y, z), select(x, u, v)), select(x, min(u, w - y), min(v, w - z)))` -/
def min42 : Rule := ⟨(.bin .min (.bin .sub (.wild 3) (.select (.wild 0) (.wild 1) (.wild 2))) (.select (.wild 0) (.wild 4) (.wild 5))), [((.select (.wild 0) (.bin .min (.wild 4) (.bin .sub (.wild 3) (.wild 1))) (.bin .min (.wild 5) (.bin .sub (.wild 3) (.wild 2)))), none)], .none⟩
/-- simplify_rules.h:100 `apply(min(select(x, y, z) - w, select(x, u, v)), select(x, min(u, y - w), min(v, z - w)))` -/
def min43 : Rule := ⟨(.bin .min (.bin .sub (.select (.wild 0) (.wild 1) (.wild 2)) (.wild 3)) (.select (.wild 0) (.wild 4) (.wild 5))), [((.select (.wild 0) (.bin .min (.wild 4) (.bin .sub (.wild 1) (.wild 3))) (.bin .min (.wild 5) (.bin .sub (.wild 2) (.wild 3)))), none)], .none⟩
/-- simplify_rules.h:102 `apply(min(select(x, y, select(z, w, u)), select(z, v, t)), select(z, min(v, select(x, y, w)), min(t, select(x, y, u))))` -/
def min44 : Rule := ⟨(.bin .min (.select (.wild 0) (.wild 1) (.select (.wild 2) (.wild 3) (.wild 4))) (.select (.wild 2) (.wild 5) (.wild 6))), [((.select (.wild 2) (.bin .min (.wild 5) (.select (.wild 0) (.wild 1) (.wild 3))) (.bin .min (.wild 6) (.select (.wild 0) (.wild 1) (.wild 4)))), none)], .none⟩
/-- simplify_rules.h:103 `apply(min(select(x, select(z, w, u), y), select(z, v, t)), select(z, min(v, select(x, w, y)), min(t, select(x, u, y))))` -/
def min45 : Rule := ⟨(.bin .min (.select (.wild 0) (.select (.wild 2) (.wild 3) (.wild 4)) (.wild 1)) (.select (.wild 2) (.wild 5) (.wild 6))), [((.select (.wild 2) (.bin .min (.wild 5) (.select (.wild 0) (.wild 3) (.wild 1))) (.bin .min (.wild 6) (.select (.wild 0) (.wild 4) (.wild 1)))), none)], .none⟩
/-- simplify_rules.h:105 `apply(min(x + may_be<0>(c2), select(c0 < x, y, c1)), select(c0 < x, min(x, y - c2), x) + c2, c1 >= c0 + c2)` -/
def min46 : Rule := ⟨(.bin .min (.bin .add (.wild 0) (.opt (.cst 2) 0)) (.select (.bin .lt (.cst 0) (.wild 0)) (.wild 1) (.cst 1))), [((.bin .add (.select (.bin .lt (.cst 0) (.wild 0)) (.bin .min (.wild 0) (.bin .sub (.wild 1) (.cst 2))) (.wild 0)) (.cst 2)), some (.bin .le (.bin .add (.cst 0) (.cst 2)) (.cst 1)))], .none⟩
/-- simplify_rules.h:106 `apply(min(x + may_be<0>(c2), select(c0 < x, c1, y)), select(c0 < x, c1, min(y, x + c2)), c1 <= c0 + c2)` -/
def min47 : Rule := ⟨(.bin .min (.bin .add (.wild 0) (.opt (.cst 2) 0)) (.select (.bin .lt (.cst 0) (.wild 0)) (.cst 1) (.wild 1))), [((.select (.bin .lt (.cst 0) (.wild 0)) (.cst 1) (.bin .min (.wild 1) (.bin .add (.wild 0) (.cst 2)))), some (.bin .le (.cst 1) (.bin .add (.cst 0) (.cst 2))))], .none⟩
/-- simplify_rules.h:107 `apply(min(x + may_be<0>(c2), select(x < c0, y, c1)), select(x < c0, min(y, x + c2), c1), c1 <= c0 + c2)` -/
def min48 : Rule := ⟨(.bin .min (.bin .add (.wild 0) (.opt (.cst 2) 0)) (.select (.bin .lt (.wild 0) (.cst 0)) (.wild 1) (.cst 1))), [((.select (.bin .lt (.wild 0) (.cst 0)) (.bin .min (.wild 1) (.bin .add (.wild 0) (.cst 2))) (.cst 1)), some (.bin .le (.cst 1) (.bin .add (.cst 0) (.cst 2))))], .none⟩
/-- simplify_rules.h:108 `apply(min(x + may_be<0>(c2), select(x < c0, c1, y)), select(x < c0, x, min(x, y - c2)) + c2, c1 >= c0 + c2)` -/
def min49 : Rule := ⟨(.bin .min (.bin .add (.wild 0) (.opt (.cst 2) 0)) (.select (.bin .lt (.wild 0) (.cst 0)) (.cst 1) (.wild 1))), [((.bin .add (.select (.bin .lt (.wild 0) (.cst 0)) (.wild 0) (.bin .min (.wild 0) (.bin .sub (.wild 1) (.cst 2)))) (.cst 2)), some (.bin .le (.bin .add (.cst 0) (.cst 2)) (.cst 1)))], .none⟩
/-- simplify_rules.h:111 `apply(min(min(x, c0), c1), min(x, eval(min(c0, c1))))` -/
def min50 : Rule := ⟨(.bin .min (.bin .min (.wild 0) (.cst 0)) (.cst 1)), [((.bin .min (.wild 0) (.eval (.bin .min (.cst 0) (.cst 1)))), none)], .none⟩
/-- simplify_rules.h:112 `apply(min(x, min(y, c0)), min(min(x, y), c0))` -/
def min51 : Rule := ⟨(.bin .min (.wild 0) (.bin .min (.wild 1) (.cst 0))), [((.bin .min (.bin .min (.wild 0) (.wild 1)) (.cst 0)), none)], .none⟩
/-- simplify_rules.h:113 `apply(min(x + c0, (y + c1)/c2), min(x, (y + eval(c1 - c0*c2))/c2) + c0, c2 != 0)` -/
def min52 : Rule := ⟨(.bin .min (.bin .add (.wild 0) (.cst 0)) (.bin .div (.bin .add (.wild 1) (.cst 1)) (.cst 2))), [((.bin .add (.bin .min (.wild 0) (.bin .div (.bin .add (.wild 1) (.eval (.bin .sub (.cst 1) (.bin .mul (.cst 0) (.cst 2))))) (.cst 2))) (.cst 0)), some (.bin .ne (.cst 2) (.lit 0)))], .none⟩
/-- simplify_rules.h:114 `apply(min(x + c0, y + c1), min(x, y + eval(c1 - c0)) + c0, c0 >= c1, min(y, x + eval(c0 - c1)) + c1)` -/
def min53 : Rule := ⟨(.bin .min (.bin .add (.wild 0) (.cst 0)) (.bin .add (.wild 1) (.cst 1))), [((.bin .add (.bin .min (.wild 0) (.bin .add (.wild 1) (.eval (.bin .sub (.cst 1) (.cst 0))))) (.cst 0)), some (.bin .le (.cst 1) (.cst 0))), ((.bin .add (.bin .min (.wild 1) (.bin .add (.wild 0) (.eval (.bin .sub (.cst 0) (.cst 1))))) (.cst 1)), none)], .none⟩
/-- simplify_rules.h:117 `apply(min(x + c0, c1 - may_be<0>(y)), min(x, eval(c1 - c0)) + c0, is_zero(y), c1 - max(y, eval(c1 - c0) - x))` -/
def min54 : Rule := ⟨(.bin .min (.bin .add (.wild 0) (.cst 0)) (.bin .sub (.cst 1) (.opt (.wild 1) 0))), [((.bin .add (.bin .min (.wild 0) (.eval (.bin .sub (.cst 1) (.cst 0)))) (.cst 0)), some (.pred .isZero 1)), ((.bin .sub (.cst 1) (.bin .max (.wild 1) (.bin .sub (.eval (.bin .sub (.cst 1) (.cst 0))) (.wild 0)))), none)], .none⟩
/-- simplify_rules.h:120 `apply(min(c0 - x, c1 - may_be<0>(y)), c0 - max(x, y + eval(c0 - c1)))` -/
def min55 : Rule := ⟨(.bin .min (.bin .sub (.cst 0) (.wild 0)) (.bin .sub (.cst 1) (.opt (.wild 1) 0))), [((.bin .sub (.cst 0) (.bin .max (.wild 0) (.bin .add (.wild 1) (.eval (.bin .sub (.cst 0) (.cst 1)))))), none)], .none⟩
/-- simplify_rules.h:121 `apply(min(min(x, c0) + may_be<0>(c1), min(y, c2)), min(min(y, x + c1), eval(min(c0 + c1, c2))))` -/
def min56 : Rule := ⟨(.bin .min (.bin .add (.bin .min (.wild 0) (.cst 0)) (.opt (.cst 1) 0)) (.bin .min (.wild 1) (.cst 2))), [((.bin .min (.bin .min (.wild 1) (.bin .add (.wild 0) (.cst 1))) (.eval (.bin .min (.bin .add (.cst 0) (.cst 1)) (.cst 2)))), none)], .none⟩
/-- simplify_rules.h:122 `apply(min(max(x, c0) + may_be<0>(c1), max(y, c2)), max(min(y, max(x, c0) + c1), c2), c2 < c0 + c1, max(min(x + c1, max(y, c2)), eval(c0 + c1)) )` -/
def min57 : Rule := ⟨(.bin .min (.bin .add (.bin .max (.wild 0) (.cst 0)) (.opt (.cst 1) 0)) (.bin .max (.wild 1) (.cst 2))), [((.bin .max (.bin .min (.wild 1) (.bin .add (.bin .max (.wild 0) (.cst 0)) (.cst 1))) (.cst 2)), some (.bin .lt (.cst 2) (.bin .add (.cst 0) (.cst 1)))), ((.bin .max (.bin .min (.bin .add (.wild 0) (.cst 1)) (.bin .max (.wild 1) (.cst 2))) (.eval (.bin .add (.cst 0) (.cst 1)))), none)], .none⟩
/-- simplify_rules.h:125 `apply(min(x + c0, select(y, may_be<0>(z) + c1, may_be<0>(w) + c2)), min(x, select(y, z + eval(c1 - c0), w + eval(c2 - c0))) + c0)` -/
def min58 : Rule := ⟨(.bin .min (.bin .add (.wild 0) (.cst 0)) (.select (.wild 1) (.bin .add (.opt (.wild 2) 0) (.cst 1)) (.bin .add (.opt (.wild 3) 0) (.cst 2)))), [((.bin .add (.bin .min (.wild 0) (.select (.wild 1) (.bin .add (.wild 2) (.eval (.bin .sub (.cst 1) (.cst 0)))) (.bin .add (.wild 3) (.eval (.bin .sub (.cst 2) (.cst 0)))))) (.cst 0)), none)], .none⟩
/-- simplify_rules.h:126 `apply(min(select(y, c1, c2), c0), select(y, eval(min(c0, c1)), eval(min(c0, c2))))` -/
def min59 : Rule := ⟨(.bin .min (.select (.wild 1) (.cst 1) (.cst 2)) (.cst 0)), [((.select (.wild 1) (.eval (.bin .min (.cst 0) (.cst 1))) (.eval (.bin .min (.cst 0) (.cst 2)))), none)], .none⟩
/-- simplify_rules.h:129 `apply(min(x*c0, c1), min(x, eval(c1/c0))*c0, c0 > 0 && c1%c0 == 0, max(x, eval(c1/c0))*c0, c0 < 0 && c1%c0 == 0)` -/
def min60 : Rule := ⟨(.bin .min (.bin .mul (.wild 0) (.cst 0)) (.cst 1)), [((.bin .mul (.bin .min (.wild 0) (.eval (.bin .div (.cst 1) (.cst 0)))) (.cst 0)), some (.bin .and (.bin .lt (.lit 0) (.cst 0)) (.bin .eq (.bin .mod (.cst 1) (.cst 0)) (.lit 0)))), ((.bin .mul (.bin .max (.wild 0) (.eval (.bin .div (.cst 1) (.cst 0)))) (.cst 0)), some (.bin .and (.bin .lt (.cst 0) (.lit 0)) (.bin .eq (.bin .mod (.cst 1) (.cst 0)) (.lit 0))))], .none⟩
/-- simplify_rules.h:133 `apply(min(x*c0, y*c1), min(x, y*eval(c1/c0))*c0, c0 > 0 && c1%c0 == 0, max(x, y*eval(c1/c0))*c0, c0 < 0 && c1%c0 == 0, min(y, x*eval(c0/c1))*c1, c1 > 0 && c0%c1 == 0, max(y, x*eval(c0/c1))*c1, c1 < 0 && c0%c1 == 0)` -/
def min61 : Rule := ⟨(.bin .min (.bin .mul (.wild 0) (.cst 0)) (.bin .mul (.wild 1) (.cst 1))), [((.bin .mul (.bin .min (.wild 0) (.bin .mul (.wild 1) (.eval (.bin .div (.cst 1) (.cst 0))))) (.cst 0)), some (.bin .and (.bin .lt (.lit 0) (.cst 0)) (.bin .eq (.bin .mod (.cst 1) (.cst 0)) (.lit 0)))), ((.bin .mul (.bin .max (.wild 0) (.bin .mul (.wild 1) (.eval (.bin .div (.cst 1) (.cst 0))))) (.cst 0)), some (.bin .and (.bin .lt (.cst 0) (.lit 0)) (.bin .eq (.bin .mod (.cst 1) (.cst 0)) (.lit 0)))), ((.bin .mul (.bin .min (.wild 1) (.bin .mul (.wild 0) (.eval (.bin .div (.cst 0) (.cst 1))))) (.cst 1)), some (.bin .and (.bin .lt (.lit 0) (.cst 1)) (.bin .eq (.bin .mod (.cst 0) (.cst 1)) (.lit 0)))), ((.bin .mul (.bin .max (.wild 1) (.bin .mul (.wild 0) (.eval (.bin .div (.cst 0) (.cst 1))))) (.cst 1)), some (.bin .and (.bin .lt (.cst 1) (.lit 0)) (.bin .eq (.bin .mod (.cst 0) (.cst 1)) (.lit 0))))], .none⟩
/-- simplify_rules.h:138 `apply(min(y*c0 + c1, x*c0), min(x, y + eval(c1/c0))*c0, c0 > 0 && c1%c0 == 0, max(x, y + eval(c1/c0))*c0, c0 < 0 && c1%c0 == 0)` -/
def min62 : Rule := ⟨(.bin .min (.bin .add (.bin .mul (.wild 1) (.cst 0)) (.cst 1)) (.bin .mul (.wild 0) (.cst 0))), [((.bin .mul (.bin .min (.wild 0) (.bin .add (.wild 1) (.eval (.bin .div (.cst 1) (.cst 0))))) (.cst 0)), some (.bin .and (.bin .lt (.lit 0) (.cst 0)) (.bin .eq (.bin .mod (.cst 1) (.cst 0)) (.lit 0)))), ((.bin .mul (.bin .max (.wild 0) (.bin .add (.wild 1) (.eval (.bin .div (.cst 1) (.cst 0))))) (.cst 0)), some (.bin .and (.bin .lt (.cst 0) (.lit 0)) (.bin .eq (.bin .mod (.cst 1) (.cst 0)) (.lit 0))))], .none⟩
/-- simplify_rules.h:142 `apply(min(y/c0 + may_be<0>(c1), x/c0), min(x, y + eval(c1*c0))/c0, c0 > 0, max(x, y + eval(c1*c0))/c0, c0 < 0)` -/
def min63 : Rule := ⟨(.bin .min (.bin .add (.bin .div (.wild 1) (.cst 0)) (.opt (.cst 1) 0)) (.bin .div (.wild 0) (.cst 0))), [((.bin .div (.bin .min (.wild 0) (.bin .add (.wild 1) (.eval (.bin .mul (.cst 1) (.cst 0))))) (.cst 0)), some (.bin .lt (.lit 0) (.cst 0))), ((.bin .div (.bin .max (.wild 0) (.bin .add (.wild 1) (.eval (.bin .mul (.cst 1) (.cst 0))))) (.cst 0)), some (.bin .lt (.cst 0) (.lit 0)))], .none⟩
/-- simplify_rules.h:146 `apply(min(x/c0, c1), min(x, eval(c1*c0))/c0, c0 > 0, max(x, eval(c1*c0))/c0, c0 < 0)` -/
def min64 : Rule := ⟨(.bin .min (.bin .div (.wild 0) (.cst 0)) (.cst 1)), [((.bin .div (.bin .min (.wild 0) (.eval (.bin .mul (.cst 1) (.cst 0)))) (.cst 0)), some (.bin .lt (.lit 0) (.cst 0))), ((.bin .div (.bin .max (.wild 0) (.eval (.bin .mul (.cst 1) (.cst 0)))) (.cst 0)), some (.bin .lt (.cst 0) (.lit 0)))], .none⟩
/-- simplify_rules.h:150 `apply(min(staircase(x, c0, c1, c2), staircase(x, c3, c4, c5) + may_be<0>(c6)), staircase(x, c0, c1, c2), 0 <= staircase_sum_min(c0, c1, -c2, c3, c4, c5) + c6, staircase(x, c3, c4, c5) + c6, 0 >= staircase_sum_max(c0, c1, -c2, c3, c4, c5) + c6)` -/
def min65 : Rule := ⟨(.bin .min (.stair (.wild 0) (.cst 0) (.cst 1) (.cst 2)) (.bin .add (.stair (.wild 0) (.cst 3) (.cst 4) (.cst 5)) (.opt (.cst 6) 0))), [((.stair (.wild 0) (.cst 0) (.cst 1) (.cst 2)), some (.bin .le (.lit 0) (.bin .add (.stairMin (.cst 0) (.cst 1) (.bin .sub (.lit 0) (.cst 2)) (.cst 3) (.cst 4) (.cst 5)) (.cst 6)))), ((.bin .add (.stair (.wild 0) (.cst 3) (.cst 4) (.cst 5)) (.cst 6)), some (.bin .le (.bin .add (.stairMax (.cst 0) (.cst 1) (.bin .sub (.lit 0) (.cst 2)) (.cst 3) (.cst 4) (.cst 5)) (.cst 6)) (.lit 0)))], .fit32⟩
/-- simplify_rules.h:154 `apply(min(x, abs(x)), x)` -/
def min66 : Rule := ⟨(.bin .min (.wild 0) (.call1 .abs (.wild 0))), [((.wild 0), none)], .none⟩

/-- simplify_rules.h:33 `apply_min_rules` -/
def minRules : List Rule := [min0, min1, min2, min3, min4, min5, min6, min7, min8, min9, min10, min11, min12, min13, min14, min15, min16, min17, min18, min19, min20, min21, min22, min23, min24, min25, min26, min27, min28, min29, min30, min31, min32, min33, min34, min35, min36, min37, min38, min39, min40, min41, min42, min43, min44, min45, min46, min47, min48, min49, min50, min51, min52, min53, min54, min55, min56, min57, min58, min59, min60, min61, min62, min63, min64, min65, min66]

/-- simplify_rules.h:163 `apply(max(x, std::numeric_limits<index_t>::min()), x)` -/
def max0 : Rule := ⟨(.bin .max (.wild 0) (.lit i64min)), [((.wild 0), none)], .range⟩
/-- simplify_rules.h:164 `apply(max(x, rewrite::negative_infinity()), x)` -/
def max1 : Rule := ⟨(.bin .max (.wild 0) (.call0 .negInf)), [((.wild 0), none)], .none⟩
/-- simplify_rules.h:165 `apply(max(x, std::numeric_limits<index_t>::max()), std::numeric_limits<index_t>::max())` -/
def max2 : Rule := ⟨(.bin .max (.wild 0) (.lit i64max)), [((.lit i64max), none)], .range⟩
/-- simplify_rules.h:166 `apply(max(x, rewrite::positive_infinity()), rewrite::positive_infinity())` -/
def max3 : Rule := ⟨(.bin .max (.wild 0) (.call0 .posInf)), [((.call0 .posInf), none)], .none⟩
/-- simplify_rules.h:167 `apply(max(x, x + may_be<0>(c0)), x + c0, c0 > 0, x )` -/
def max4 : Rule := ⟨(.bin .max (.wild 0) (.bin .add (.wild 0) (.opt (.cst 0) 0))), [((.bin .add (.wild 0) (.cst 0)), some (.bin .lt (.lit 0) (.cst 0))), ((.wild 0), none)], .none⟩
/-- simplify_rules.h:170 `apply(max(x, y), x || y, is_boolean(x) && is_boolean(y))` -/
def max5 : Rule := ⟨(.bin .max (.wild 0) (.wild 1)), [((.bin .or (.wild 0) (.wild 1)), some (.bin .and (.pred .isBoolean 0) (.pred .isBoolean 1)))], .none⟩
/-- simplify_rules.h:173 `apply(max(max(x, y), max(x, z)), max(x, max(y, z)))` -/
def max6 : Rule := ⟨(.bin .max (.bin .max (.wild 0) (.wild 1)) (.bin .max (.wild 0) (.wild 2))), [((.bin .max (.wild 0) (.bin .max (.wild 1) (.wild 2))), none)], .none⟩
/-- simplify_rules.h:174 `apply(max(max(x, y), max(z, w)), max(x, max(y, max(z, w))))` -/
def max7 : Rule := ⟨(.bin .max (.bin .max (.wild 0) (.wild 1)) (.bin .max (.wild 2) (.wild 3))), [((.bin .max (.wild 0) (.bin .max (.wild 1) (.bin .max (.wild 2) (.wild 3)))), none)], .none⟩
/-- simplify_rules.h:175 `apply(max(x, max(x, y)), max(x, y))` -/
def max8 : Rule := ⟨(.bin .max (.wild 0) (.bin .max (.wild 0) (.wild 1))), [((.bin .max (.wild 0) (.wild 1)), none)], .none⟩
/-- simplify_rules.h:176 `apply(max(x, max(y, max(x, z))), max(x, max(y, z)))` -/
def max9 : Rule := ⟨(.bin .max (.wild 0) (.bin .max (.wild 1) (.bin .max (.wild 0) (.wild 2)))), [((.bin .max (.wild 0) (.bin .max (.wild 1) (.wild 2))), none)], .none⟩
/-- simplify_rules.h:177 `apply(max(x, max(y, max(z, max(x, w)))), max(x, max(y, max(z, w))))` -/
def max10 : Rule := ⟨(.bin .max (.wild 0) (.bin .max (.wild 1) (.bin .max (.wild 2) (.bin .max (.wild 0) (.wild 3))))), [((.bin .max (.wild 0) (.bin .max (.wild 1) (.bin .max (.wild 2) (.wild 3)))), none)], .none⟩
/-- simplify_rules.h:178 `apply(max(x, max(y, max(z, max(w, max(x, u))))), max(x, max(y, max(z, max(w, u)))))` -/
def max11 : Rule := ⟨(.bin .max (.wild 0) (.bin .max (.wild 1) (.bin .max (.wild 2) (.bin .max (.wild 3) (.bin .max (.wild 0) (.wild 4)))))), [((.bin .max (.wild 0) (.bin .max (.wild 1) (.bin .max (.wild 2) (.bin .max (.wild 3) (.wild 4))))), none)], .none⟩
/-- simplify_rules.h:179 `apply(max(x, max(y, max(z, max(w, max(u, max(x, v)))))), max(x, max(y, max(z, max(w, max(u, v))))))` -/
def max12 : Rule := ⟨(.bin .max (.wild 0) (.bin .max (.wild 1) (.bin .max (.wild 2) (.bin .max (.wild 3) (.bin .max (.wild 4) (.bin .max (.wild 0) (.wild 5))))))), [((.bin .max (.wild 0) (.bin .max (.wild 1) (.bin .max (.wild 2) (.bin .max (.wild 3) (.bin .max (.wild 4) (.wild 5)))))), none)], .none⟩
/-- simplify_rules.h:182 `apply(max(min(y, x + may_be<0>(c0)) + may_be<0>(c1), min(z, x + may_be<0>(c2))), min(x + c2, max(z, y + c1)), eval(c0 + c1 == c2))` -/
def max13 : Rule := ⟨(.bin .max (.bin .add (.bin .min (.wild 1) (.bin .add (.wild 0) (.opt (.cst 0) 0))) (.opt (.cst 1) 0)) (.bin .min (.wild 2) (.bin .add (.wild 0) (.opt (.cst 2) 0)))), [((.bin .min (.bin .add (.wild 0) (.cst 2)) (.bin .max (.wild 2) (.bin .add (.wild 1) (.cst 1)))), some (.eval (.bin .eq (.bin .add (.cst 0) (.cst 1)) (.cst 2))))], .none⟩
/-- simplify_rules.h:184 `apply(max(x, max(y, x + may_be<0>(c0)) + may_be<0>(c1)), max(x, y + c1), c0 + c1 <= 0, max(y, x + c0) + c1 )` -/
def max14 : Rule := ⟨(.bin .max (.wild 0) (.bin .add (.bin .max (.wild 1) (.bin .add (.wild 0) (.opt (.cst 0) 0))) (.opt (.cst 1) 0))), [((.bin .max (.wild 0) (.bin .add (.wild 1) (.cst 1))), some (.bin .le (.bin .add (.cst 0) (.cst 1)) (.lit 0))), ((.bin .add (.bin .max (.wild 1) (.bin .add (.wild 0) (.cst 0))) (.cst 1)), none)], .exact⟩
/-- simplify_rules.h:187 `apply(max(x + may_be<0>(c0), min(y, max(x, z) + may_be<0>(c1))), max(x + c0, min(y, z + c1)), c1 < c0)` -/
def max15 : Rule := ⟨(.bin .max (.bin .add (.wild 0) (.opt (.cst 0) 0)) (.bin .min (.wild 1) (.bin .add (.bin .max (.wild 0) (.wild 2)) (.opt (.cst 1) 0)))), [((.bin .max (.bin .add (.wild 0) (.cst 0)) (.bin .min (.wild 1) (.bin .add (.wild 2) (.cst 1)))), some (.bin .lt (.cst 1) (.cst 0)))], .none⟩
/-- simplify_rules.h:188 `apply(max(min(x, max(y, c0)), c1), max(min(x, y), c1), c0 <= c1)` -/
def max16 : Rule := ⟨(.bin .max (.bin .min (.wild 0) (.bin .max (.wild 1) (.cst 0))) (.cst 1)), [((.bin .max (.bin .min (.wild 0) (.wild 1)) (.cst 1)), some (.bin .le (.cst 0) (.cst 1)))], .none⟩
/-- simplify_rules.h:189 `apply(max(min(x, y), max(x, z)), max(x, z))` -/
def max17 : Rule := ⟨(.bin .max (.bin .min (.wild 0) (.wild 1)) (.bin .max (.wild 0) (.wild 2))), [((.bin .max (.wild 0) (.wild 2)), none)], .none⟩
/-- simplify_rules.h:190 `apply(max(x, max(y, min(x, z))), max(x, y))` -/
def max18 : Rule := ⟨(.bin .max (.wild 0) (.bin .max (.wild 1) (.bin .min (.wild 0) (.wild 2)))), [((.bin .max (.wild 0) (.wild 1)), none)], .none⟩
/-- simplify_rules.h:191 `apply(max(x, min(y, max(x, z))), max(x, min(y, z)))` -/
def max19 : Rule := ⟨(.bin .max (.wild 0) (.bin .min (.wild 1) (.bin .max (.wild 0) (.wild 2)))), [((.bin .max (.wild 0) (.bin .min (.wild 1) (.wild 2))), none)], .none⟩
/-- simplify_rules.h:192 `apply(max(min(w, z), max(y, min(x, z))), max(y, min(max(w, x), z)))` -/
def max20 : Rule := ⟨(.bin .max (.bin .min (.wild 3) (.wild 2)) (.bin .max (.wild 1) (.bin .min (.wild 0) (.wild 2)))), [((.bin .max (.wild 1) (.bin .min (.bin .max (.wild 3) (.wild 0)) (.wild 2))), none)], .none⟩
/-- simplify_rules.h:193 `apply(max(x, min(y, x + may_be<0>(c0))), x, c0 <= 0)` -/
def max21 : Rule := ⟨(.bin .max (.wild 0) (.bin .min (.wild 1) (.bin .add (.wild 0) (.opt (.cst 0) 0)))), [((.wild 0), some (.bin .le (.cst 0) (.lit 0)))], .none⟩
/-- simplify_rules.h:194 `apply(max(x, min(x, y) + may_be<0>(c1)), x, c1 <= 0)` -/
def max22 : Rule := ⟨(.bin .max (.wild 0) (.bin .add (.bin .min (.wild 0) (.wild 1)) (.opt (.cst 1) 0))), [((.wild 0), some (.bin .le (.cst 1) (.lit 0)))], .none⟩
/-- simplify_rules.h:197 `apply(max(x + may_be<0>(z), max(y, x + may_be<0>(w))), max(y, x + max(z, w)))` -/
def max23 : Rule := ⟨(.bin .max (.bin .add (.wild 0) (.opt (.wild 2) 0)) (.bin .max (.wild 1) (.bin .add (.wild 0) (.opt (.wild 3) 0)))), [((.bin .max (.wild 1) (.bin .add (.wild 0) (.bin .max (.wild 2) (.wild 3)))), none)], .none⟩
/-- simplify_rules.h:198 `apply(max(x + may_be<0>(y), x + z), x + max(y, z))` -/
def max24 : Rule := ⟨(.bin .max (.bin .add (.wild 0) (.opt (.wild 1) 0)) (.bin .add (.wild 0) (.wild 2))), [((.bin .add (.wild 0) (.bin .max (.wild 1) (.wild 2))), none)], .none⟩
/-- simplify_rules.h:199 `apply(max(x + may_be<0>(y), x - z), x - min(-y, z), is_non_positive(y), x + max(y, -z))` -/
def max25 : Rule := ⟨(.bin .max (.bin .add (.wild 0) (.opt (.wild 1) 0)) (.bin .sub (.wild 0) (.wild 2))), [((.bin .sub (.wild 0) (.bin .min (.bin .sub (.lit 0) (.wild 1)) (.wild 2))), some (.pred .isNonPositive 1)), ((.bin .add (.wild 0) (.bin .max (.wild 1) (.bin .sub (.lit 0) (.wild 2)))), none)], .none⟩
/-- simplify_rules.h:202 `apply(max(y - x, z - x), max(y, z) - x)` -/
def max26 : Rule := ⟨(.bin .max (.bin .sub (.wild 1) (.wild 0)) (.bin .sub (.wild 2) (.wild 0))), [((.bin .sub (.bin .max (.wild 1) (.wild 2)) (.wild 0)), none)], .none⟩
/-- simplify_rules.h:203 `apply(max(x - y, x - z), x - min(y, z))` -/
def max27 : Rule := ⟨(.bin .max (.bin .sub (.wild 0) (.wild 1)) (.bin .sub (.wild 0) (.wild 2))), [((.bin .sub (.wild 0) (.bin .min (.wild 1) (.wild 2))), none)], .none⟩
/-- simplify_rules.h:204 `apply(max(x, -x), abs(x))` -/
def max28 : Rule := ⟨(.bin .max (.wild 0) (.bin .sub (.lit 0) (.wild 0))), [((.call1 .abs (.wild 0)), none)], .none⟩
/-- simplify_rules.h:207 `apply(max(x, select(y, max(z, min(x, u)), w)), select(y, max(z, x), max(x, w)))` -/
def max29 : Rule := ⟨(.bin .max (.wild 0) (.select (.wild 1) (.bin .max (.wild 2) (.bin .min (.wild 0) (.wild 4))) (.wild 3))), [((.select (.wild 1) (.bin .max (.wild 2) (.wild 0)) (.bin .max (.wild 0) (.wild 3))), none)], .none⟩
/-- simplify_rules.h:208 `apply(max(x, select(y, z, max(w, min(x, u)))), select(y, max(x, z), max(x, w)))` -/
def max30 : Rule := ⟨(.bin .max (.wild 0) (.select (.wild 1) (.wild 2) (.bin .max (.wild 3) (.bin .min (.wild 0) (.wild 4))))), [((.select (.wild 1) (.bin .max (.wild 0) (.wild 2)) (.bin .max (.wild 0) (.wild 3))), none)], .none⟩
/-- simplify_rules.h:209 `apply(max(x, select(y, max(x, z), w)), max(x, select(y, z, w)))` -/
def max31 : Rule := ⟨(.bin .max (.wild 0) (.select (.wild 1) (.bin .max (.wild 0) (.wild 2)) (.wild 3))), [((.bin .max (.wild 0) (.select (.wild 1) (.wild 2) (.wild 3))), none)], .none⟩
/-- simplify_rules.h:210 `apply(max(x, select(y, z, max(x, w))), max(x, select(y, z, w)))` -/
def max32 : Rule := ⟨(.bin .max (.wild 0) (.select (.wild 1) (.wild 2) (.bin .max (.wild 0) (.wild 3)))), [((.bin .max (.wild 0) (.select (.wild 1) (.wild 2) (.wild 3))), none)], .none⟩
/-- simplify_rules.h:211 `apply(max(x, select(y, min(x, z), w)), select(y, x, max(x, w)))` -/
def max33 : Rule := ⟨(.bin .max (.wild 0) (.select (.wild 1) (.bin .min (.wild 0) (.wild 2)) (.wild 3))), [((.select (.wild 1) (.wild 0) (.bin .max (.wild 0) (.wild 3))), none)], .none⟩
/-- simplify_rules.h:212 `apply(max(x, select(y, z, min(x, w))), select(y, max(x, z), x))` -/
def max34 : Rule := ⟨(.bin .max (.wild 0) (.select (.wild 1) (.wild 2) (.bin .min (.wild 0) (.wild 3)))), [((.select (.wild 1) (.bin .max (.wild 0) (.wild 2)) (.wild 0)), none)], .none⟩
/-- simplify_rules.h:213 `apply(max(y, select(x, y, w)), select(x, y, max(y, w)))` -/
def max35 : Rule := ⟨(.bin .max (.wild 1) (.select (.wild 0) (.wild 1) (.wild 3))), [((.select (.wild 0) (.wild 1) (.bin .max (.wild 1) (.wild 3))), none)], .none⟩
/-- simplify_rules.h:214 `apply(max(z, select(x, w, z)), select(x, max(z, w), z))` -/
def max36 : Rule := ⟨(.bin .max (.wild 2) (.select (.wild 0) (.wild 3) (.wild 2))), [((.select (.wild 0) (.bin .max (.wild 2) (.wild 3)) (.wild 2)), none)], .none⟩
/-- simplify_rules.h:215 `apply(max(may_be<0>(w) + select(x, y, z), select(x, u, v)), select(x, max(u, w + y), max(v, w + z)))` -/
def max37 : Rule := ⟨(.bin .max (.bin .add (.opt (.wild 3) 0) (.select (.wild 0) (.wild 1) (.wild 2))) (.select (.wild 0) (.wild 4) (.wild 5))), [((.select (.wild 0) (.bin .max (.wild 4) (.bin .add (.wild 3) (.wild 1))) (.bin .max (.wild 5) (.bin .add (.wild 3) (.wild 2)))), none)], .none⟩
/-- simplify_rules.h:216 `apply(max(max(v, select(x, y, z)), select(x, w, u)), max(v, select(x, max(y, w), max(z, u))))` -/
def max38 : Rule := ⟨(.bin .max (.bin .max (.wild 5) (.select (.wild 0) (.wild 1) (.wild 2))) (.select (.wild 0) (.wild 3) (.wild 4))), [((.bin .max (.wild 5) (.select (.wild 0) (.bin .max (.wild 1) (.wild 3)) (.bin .max (.wild 2) (.wild 4)))), none)], .none⟩
/-- simplify_rules.h:217 `apply(max(min(v, select(x, y, z)), select(x, w, u)), select(x, max(w, min(v, y)), max(u, min(v, z))))` -/
def max39 : Rule := ⟨(.bin .max (.bin .min (.wild 5) (.select (.wild 0) (.wild 1) (.wild 2))) (.select (.wild 0) (.wild 3) (.wild 4))), [((.select (.wild 0) (.bin .max (.wild 3) (.bin .min (.wild 5) (.wild 1))) (.bin .max (.wild 4) (.bin .min (.wild 5) (.wild 2)))), none)], .none⟩
/-- simplify_rules.h:218 `apply(max(w - select(x, y, z), select(x, u, v)), select(x, max(u, w - y), max(v, w - z)))` -/
def max40 : Rule := ⟨(.bin .max (.bin .sub (.wild 3) (.select (.wild 0) (.wild 1) (.wild 2))) (.select (.wild 0) (.wild 4) (.wild 5))), [((.select (.wild 0) (.bin .max (.wild 4) (.bin .sub (.wild 3) (.wild 1))) (.bin .max (.wild 5) (.bin .sub (.wild 3) (.wild 2)))), none)], .none⟩
/-- simplify_rules.h:219 `apply(max(select(x, y, z) - w, select(x, u, v)), select(x, max(u, y - w), max(v, z - w)))` -/
def max41 : Rule := ⟨(.bin .max (.bin .sub (.select (.wild 0) (.wild 1) (.wild 2)) (.wild 3)) (.select (.wild 0) (.wild 4) (.wild 5))), [((.select (.wild 0) (.bin .max (.wild 4) (.bin .sub (.wild 1) (.wild 3))) (.bin .max (.wild 5) (.bin .sub (.wild 2) (.wild 3)))), none)], .none⟩
/-- simplify_rules.h:221 `apply(max(select(x, y, select(z, w, u)), select(z, v, t)), select(z, max(v, select(x, y, w)), max(t, select(x, y, u))))` -/
def max42 : Rule := ⟨(.bin .max (.select (.wild 0) (.wild 1) (.select (.wild 2) (.wild 3) (.wild 4))) (.select (.wild 2) (.wild 5) (.wild 6))), [((.select (.wild 2) (.bin .max (.wild 5) (.select (.wild 0) (.wild 1) (.wild 3))) (.bin .max (.wild 6) (.select (.wild 0) (.wild 1) (.wild 4)))), none)], .none⟩
/-- simplify_rules.h:222 `apply(max(select(x, select(z, w, u), y), select(z, v, t)), select(z, max(v, select(x, w, y)), max(t, select(x, u, y))))` -/
def max43 : Rule := ⟨(.bin .max (.select (.wild 0) (.select (.wild 2) (.wild 3) (.wild 4)) (.wild 1)) (.select (.wild 2) (.wild 5) (.wild 6))), [((.select (.wild 2) (.bin .max (.wild 5) (.select (.wild 0) (.wild 3) (.wild 1))) (.bin .max (.wild 6) (.select (.wild 0) (.wild 4) (.wild 1)))), none)], .none⟩
/-- simplify_rules.h:224 `apply(max(x + may_be<0>(c2), select(c0 < x, y, c1)), select(c0 < x, max(y, x + c2), c1), c1 >= c0 + c2)` -/
def max44 : Rule := ⟨(.bin .max (.bin .add (.wild 0) (.opt (.cst 2) 0)) (.select (.bin .lt (.cst 0) (.wild 0)) (.wild 1) (.cst 1))), [((.select (.bin .lt (.cst 0) (.wild 0)) (.bin .max (.wild 1) (.bin .add (.wild 0) (.cst 2))) (.cst 1)), some (.bin .le (.bin .add (.cst 0) (.cst 2)) (.cst 1)))], .none⟩
/-- simplify_rules.h:225 `apply(max(x + may_be<0>(c2), select(c0 < x, c1, y)), select(c0 < x, x, max(x, y - c2)) + c2, c1 <= c0 + c2)` -/
def max45 : Rule := ⟨(.bin .max (.bin .add (.wild 0) (.opt (.cst 2) 0)) (.select (.bin .lt (.cst 0) (.wild 0)) (.cst 1) (.wild 1))), [((.bin .add (.select (.bin .lt (.cst 0) (.wild 0)) (.wild 0) (.bin .max (.wild 0) (.bin .sub (.wild 1) (.cst 2)))) (.cst 2)), some (.bin .le (.cst 1) (.bin .add (.cst 0) (.cst 2))))], .none⟩
/-- simplify_rules.h:226 `apply(max(x + may_be<0>(c2), select(x < c0, y, c1)), select(x < c0, max(x, y - c2), x) + c2, c1 <= c0 + c2)` -/
def max46 : Rule := ⟨(.bin .max (.bin .add (.wild 0) (.opt (.cst 2) 0)) (.select (.bin .lt (.wild 0) (.cst 0)) (.wild 1) (.cst 1))), [((.bin .add (.select (.bin .lt (.wild 0) (.cst 0)) (.bin .max (.wild 0) (.bin .sub (.wild 1) (.cst 2))) (.wild 0)) (.cst 2)), some (.bin .le (.cst 1) (.bin .add (.cst 0) (.cst 2))))], .none⟩
/-- simplify_rules.h:227 `apply(max(x + may_be<0>(c2), select(x < c0, c1, y)), select(x < c0, c1, max(y, x + c2)), c1 >= c0 + c2)` -/
def max47 : Rule := ⟨(.bin .max (.bin .add (.wild 0) (.opt (.cst 2) 0)) (.select (.bin .lt (.wild 0) (.cst 0)) (.cst 1) (.wild 1))), [((.select (.bin .lt (.wild 0) (.cst 0)) (.cst 1) (.bin .max (.wild 1) (.bin .add (.wild 0) (.cst 2)))), some (.bin .le (.bin .add (.cst 0) (.cst 2)) (.cst 1)))], .none⟩
/-- simplify_rules.h:230 `apply(max(max(x, c0), c1), max(x, eval(max(c0, c1))))` -/
def max48 : Rule := ⟨(.bin .max (.bin .max (.wild 0) (.cst 0)) (.cst 1)), [((.bin .max (.wild 0) (.eval (.bin .max (.cst 0) (.cst 1)))), none)], .none⟩
/-- simplify_rules.h:231 `apply(max(x, max(y, c0)), max(max(x, y), c0))` -/
def max49 : Rule := ⟨(.bin .max (.wild 0) (.bin .max (.wild 1) (.cst 0))), [((.bin .max (.bin .max (.wild 0) (.wild 1)) (.cst 0)), none)], .none⟩
/-- simplify_rules.h:232 `apply(max(x + c0, (y + c1)/c2), max(x, (y + eval(c1 - c0*c2))/c2) + c0, c2 != 0)` -/
def max50 : Rule := ⟨(.bin .max (.bin .add (.wild 0) (.cst 0)) (.bin .div (.bin .add (.wild 1) (.cst 1)) (.cst 2))), [((.bin .add (.bin .max (.wild 0) (.bin .div (.bin .add (.wild 1) (.eval (.bin .sub (.cst 1) (.bin .mul (.cst 0) (.cst 2))))) (.cst 2))) (.cst 0)), some (.bin .ne (.cst 2) (.lit 0)))], .none⟩
/-- simplify_rules.h:233 `apply(max(x + c0, y + c1), max(x, y + eval(c1 - c0)) + c0, c0 >= c1, max(y, x + eval(c0 - c1)) + c1)` -/
def max51 : Rule := ⟨(.bin .max (.bin .add (.wild 0) (.cst 0)) (.bin .add (.wild 1) (.cst 1))), [((.bin .add (.bin .max (.wild 0) (.bin .add (.wild 1) (.eval (.bin .sub (.cst 1) (.cst 0))))) (.cst 0)), some (.bin .le (.cst 1) (.cst 0))), ((.bin .add (.bin .max (.wild 1) (.bin .add (.wild 0) (.eval (.bin .sub (.cst 0) (.cst 1))))) (.cst 1)), none)], .none⟩
/-- simplify_rules.h:236 `apply(max(x + c0, c1 - may_be<0>(y)), max(x, eval(c1 - c0)) + c0, is_zero(y), c1 - min(y, eval(c1 - c0) - x))` -/
def max52 : Rule := ⟨(.bin .max (.bin .add (.wild 0) (.cst 0)) (.bin .sub (.cst 1) (.opt (.wild 1) 0))), [((.bin .add (.bin .max (.wild 0) (.eval (.bin .sub (.cst 1) (.cst 0)))) (.cst 0)), some (.pred .isZero 1)), ((.bin .sub (.cst 1) (.bin .min (.wild 1) (.bin .sub (.eval (.bin .sub (.cst 1) (.cst 0))) (.wild 0)))), none)], .none⟩
/-- simplify_rules.h:239 `apply(max(c0 - x, c1 - may_be<0>(y)), c0 - min(x, y + eval(c0 - c1)))` -/
def max53 : Rule := ⟨(.bin .max (.bin .sub (.cst 0) (.wild 0)) (.bin .sub (.cst 1) (.opt (.wild 1) 0))), [((.bin .sub (.cst 0) (.bin .min (.wild 0) (.bin .add (.wild 1) (.eval (.bin .sub (.cst 0) (.cst 1)))))), none)], .none⟩
/-- simplify_rules.h:240 `apply(max(max(x, c0) + may_be<0>(c1), max(y, c2)), max(max(y, x + c1), eval(max(c0 + c1, c2))))` -/
def max54 : Rule := ⟨(.bin .max (.bin .add (.bin .max (.wild 0) (.cst 0)) (.opt (.cst 1) 0)) (.bin .max (.wild 1) (.cst 2))), [((.bin .max (.bin .max (.wild 1) (.bin .add (.wild 0) (.cst 1))) (.eval (.bin .max (.bin .add (.cst 0) (.cst 1)) (.cst 2)))), none)], .none⟩
/-- simplify_rules.h:241 `apply(max(min(x, c0) + may_be<0>(c1), min(y, c2)), min(max(y, min(x, c0) + c1), c2), c2 > c0 + c1, min(max(x + c1, min(y, c2)), eval(c0 + c1)) )` -/
def max55 : Rule := ⟨(.bin .max (.bin .add (.bin .min (.wild 0) (.cst 0)) (.opt (.cst 1) 0)) (.bin .min (.wild 1) (.cst 2))), [((.bin .min (.bin .max (.wild 1) (.bin .add (.bin .min (.wild 0) (.cst 0)) (.cst 1))) (.cst 2)), some (.bin .lt (.bin .add (.cst 0) (.cst 1)) (.cst 2))), ((.bin .min (.bin .max (.bin .add (.wild 0) (.cst 1)) (.bin .min (.wild 1) (.cst 2))) (.eval (.bin .add (.cst 0) (.cst 1)))), none)], .none⟩
/-- simplify_rules.h:244 `apply(max(x + c0, select(y, may_be<0>(z) + c1, may_be<0>(w) + c2)), max(x, select(y, z + eval(c1 - c0), w + eval(c2 - c0))) + c0)` -/
def max56 : Rule := ⟨(.bin .max (.bin .add (.wild 0) (.cst 0)) (.select (.wild 1) (.bin .add (.opt (.wild 2) 0) (.cst 1)) (.bin .add (.opt (.wild 3) 0) (.cst 2)))), [((.bin .add (.bin .max (.wild 0) (.select (.wild 1) (.bin .add (.wild 2) (.eval (.bin .sub (.cst 1) (.cst 0)))) (.bin .add (.wild 3) (.eval (.bin .sub (.cst 2) (.cst 0)))))) (.cst 0)), none)], .none⟩
/-- simplify_rules.h:245 `apply(max(select(y, c1, c2), c0), select(y, eval(max(c0, c1)), eval(max(c0, c2))))` -/
def max57 : Rule := ⟨(.bin .max (.select (.wild 1) (.cst 1) (.cst 2)) (.cst 0)), [((.select (.wild 1) (.eval (.bin .max (.cst 0) (.cst 1))) (.eval (.bin .max (.cst 0) (.cst 2)))), none)], .none⟩
/-- simplify_rules.h:248 `apply(max(x*c0, c1), max(x, eval(c1/c0))*c0, c0 > 0 && c1%c0 == 0, min(x, eval(c1/c0))*c0, c0 < 0 && c1%c0 == 0)` -/
def max58 : Rule := ⟨(.bin .max (.bin .mul (.wild 0) (.cst 0)) (.cst 1)), [((.bin .mul (.bin .max (.wild 0) (.eval (.bin .div (.cst 1) (.cst 0)))) (.cst 0)), some (.bin .and (.bin .lt (.lit 0) (.cst 0)) (.bin .eq (.bin .mod (.cst 1) (.cst 0)) (.lit 0)))), ((.bin .mul (.bin .min (.wild 0) (.eval (.bin .div (.cst 1) (.cst 0)))) (.cst 0)), some (.bin .and (.bin .lt (.cst 0) (.lit 0)) (.bin .eq (.bin .mod (.cst 1) (.cst 0)) (.lit 0))))], .none⟩
/-- simplify_rules.h:252 `apply(max(x*c0, y*c1), max(x, y*eval(c1/c0))*c0, c0 > 0 && c1%c0 == 0, min(x, y*eval(c1/c0))*c0, c0 < 0 && c1%c0 == 0, max(y, x*eval(c0/c1))*c1, c1 > 0 && c0%c1 == 0, min(y, x*eval(c0/c1))*c1, c1 < 0 && c0%c1 == 0)` -/
def max59 : Rule := ⟨(.bin .max (.bin .mul (.wild 0) (.cst 0)) (.bin .mul (.wild 1) (.cst 1))), [((.bin .mul (.bin .max (.wild 0) (.bin .mul (.wild 1) (.eval (.bin .div (.cst 1) (.cst 0))))) (.cst 0)), some (.bin .and (.bin .lt (.lit 0) (.cst 0)) (.bin .eq (.bin .mod (.cst 1) (.cst 0)) (.lit 0)))), ((.bin .mul (.bin .min (.wild 0) (.bin .mul (.wild 1) (.eval (.bin .div (.cst 1) (.cst 0))))) (.cst 0)), some (.bin .and (.bin .lt (.cst 0) (.lit 0)) (.bin .eq (.bin .mod (.cst 1) (.cst 0)) (.lit 0)))), ((.bin .mul (.bin .max (.wild 1) (.bin .mul (.wild 0) (.eval (.bin .div (.cst 0) (.cst 1))))) (.cst 1)), some (.bin .and (.bin .lt (.lit 0) (.cst 1)) (.bin .eq (.bin .mod (.cst 0) (.cst 1)) (.lit 0)))), ((.bin .mul (.bin .min (.wild 1) (.bin .mul (.wild 0) (.eval (.bin .div (.cst 0) (.cst 1))))) (.cst 1)), some (.bin .and (.bin .lt (.cst 1) (.lit 0)) (.bin .eq (.bin .mod (.cst 0) (.cst 1)) (.lit 0))))], .none⟩
/-- simplify_rules.h:257 `apply(max(y*c0 + c1, x*c0), max(x, y + eval(c1/c0))*c0, c0 > 0 && c1%c0 == 0, min(x, y + eval(c1/c0))*c0, c0 < 0 && c1%c0 == 0)` -/
def max60 : Rule := ⟨(.bin .max (.bin .add (.bin .mul (.wild 1) (.cst 0)) (.cst 1)) (.bin .mul (.wild 0) (.cst 0))), [((.bin .mul (.bin .max (.wild 0) (.bin .add (.wild 1) (.eval (.bin .div (.cst 1) (.cst 0))))) (.cst 0)), some (.bin .and (.bin .lt (.lit 0) (.cst 0)) (.bin .eq (.bin .mod (.cst 1) (.cst 0)) (.lit 0)))), ((.bin .mul (.bin .min (.wild 0) (.bin .add (.wild 1) (.eval (.bin .div (.cst 1) (.cst 0))))) (.cst 0)), some (.bin .and (.bin .lt (.cst 0) (.lit 0)) (.bin .eq (.bin .mod (.cst 1) (.cst 0)) (.lit 0))))], .none⟩
/-- simplify_rules.h:261 `apply(max(y/c0 + may_be<0>(c1), x/c0), max(x, y + eval(c1*c0))/c0, c0 > 0, min(x, y + eval(c1*c0))/c0, c0 < 0)` -/
def max61 : Rule := ⟨(.bin .max (.bin .add (.bin .div (.wild 1) (.cst 0)) (.opt (.cst 1) 0)) (.bin .div (.wild 0) (.cst 0))), [((.bin .div (.bin .max (.wild 0) (.bin .add (.wild 1) (.eval (.bin .mul (.cst 1) (.cst 0))))) (.cst 0)), some (.bin .lt (.lit 0) (.cst 0))), ((.bin .div (.bin .min (.wild 0) (.bin .add (.wild 1) (.eval (.bin .mul (.cst 1) (.cst 0))))) (.cst 0)), some (.bin .lt (.cst 0) (.lit 0)))], .none⟩
/-- simplify_rules.h:265 `apply(max(x/c0, c1), max(x, eval(c1*c0))/c0, c0 > 0, min(x, eval(c1*c0))/c0, c0 < 0)` -/
def max62 : Rule := ⟨(.bin .max (.bin .div (.wild 0) (.cst 0)) (.cst 1)), [((.bin .div (.bin .max (.wild 0) (.eval (.bin .mul (.cst 1) (.cst 0)))) (.cst 0)), some (.bin .lt (.lit 0) (.cst 0))), ((.bin .div (.bin .min (.wild 0) (.eval (.bin .mul (.cst 1) (.cst 0)))) (.cst 0)), some (.bin .lt (.cst 0) (.lit 0)))], .none⟩
/-- simplify_rules.h:269 `apply(max(staircase(x, c0, c1, c2), staircase(x, c3, c4, c5) + may_be<0>(c6)), staircase(x, c0, c1, c2), 0 >= staircase_sum_max(c0, c1, -c2, c3, c4, c5) + c6, staircase(x, c3, c4, c5) + c6, 0 <= staircase_sum_min(c0, c1, -c2, c3, c4, c5) + c6)` -/
def max63 : Rule := ⟨(.bin .max (.stair (.wild 0) (.cst 0) (.cst 1) (.cst 2)) (.bin .add (.stair (.wild 0) (.cst 3) (.cst 4) (.cst 5)) (.opt (.cst 6) 0))), [((.stair (.wild 0) (.cst 0) (.cst 1) (.cst 2)), some (.bin .le (.bin .add (.stairMax (.cst 0) (.cst 1) (.bin .sub (.lit 0) (.cst 2)) (.cst 3) (.cst 4) (.cst 5)) (.cst 6)) (.lit 0))), ((.bin .add (.stair (.wild 0) (.cst 3) (.cst 4) (.cst 5)) (.cst 6)), some (.bin .le (.lit 0) (.bin .add (.stairMin (.cst 0) (.cst 1) (.bin .sub (.lit 0) (.cst 2)) (.cst 3) (.cst 4) (.cst 5)) (.cst 6))))], .fit32⟩
/-- simplify_rules.h:273 `apply(max(x, abs(x)), abs(x))` -/
def max64 : Rule := ⟨(.bin .max (.wild 0) (.call1 .abs (.wild 0))), [((.call1 .abs (.wild 0)), none)], .none⟩

/-- simplify_rules.h:160 `apply_max_rules` -/
def maxRules : List Rule := [max0, max1, max2, max3, max4, max5, max6, max7, max8, max9, max10, max11, max12, max13, max14, max15, max16, max17, max18, max19, max20, max21, max22, max23, max24, max25, max26, max27, max28, max29, max30, max31, max32, max33, max34, max35, max36, max37, max38, max39, max40, max41, max42, max43, max44, max45, max46, max47, max48, max49, max50, max51, max52, max53, max54, max55, max56, max57, max58, max59, max60, max61, max62, max63, max64]

/-- simplify_rules.h:281 `apply(x + rewrite::positive_infinity(), rewrite::positive_infinity(), is_finite(x))` -/
def add0 : Rule := ⟨(.bin .add (.wild 0) (.call0 .posInf)), [((.call0 .posInf), some (.pred .isFinite 0))], .none⟩
/-- simplify_rules.h:282 `apply(x + rewrite::negative_infinity(), rewrite::negative_infinity(), is_finite(x))` -/
def add1 : Rule := ⟨(.bin .add (.wild 0) (.call0 .negInf)), [((.call0 .negInf), some (.pred .isFinite 0))], .none⟩
/-- simplify_rules.h:283 `apply(x*may_be<1>(c0) + x*may_be<1>(c1), x*eval(c0 + c1))` -/
def add2 : Rule := ⟨(.bin .add (.bin .mul (.wild 0) (.opt (.cst 0) 1)) (.bin .mul (.wild 0) (.opt (.cst 1) 1))), [((.bin .mul (.wild 0) (.eval (.bin .add (.cst 0) (.cst 1)))), none)], .none⟩
/-- simplify_rules.h:284 `apply(x + 0, x)` -/
def add3 : Rule := ⟨(.bin .add (.wild 0) (.lit 0)), [((.wild 0), none)], .none⟩
/-- simplify_rules.h:285 `apply(x + (x - y), x*2 - y)` -/
def add4 : Rule := ⟨(.bin .add (.wild 0) (.bin .sub (.wild 0) (.wild 1))), [((.bin .sub (.bin .mul (.wild 0) (.lit 2)) (.wild 1)), none)], .none⟩
/-- simplify_rules.h:286 `apply(x + (y - x), y)` -/
def add5 : Rule := ⟨(.bin .add (.wild 0) (.bin .sub (.wild 1) (.wild 0))), [((.wild 1), none)], .none⟩
/-- simplify_rules.h:287 `apply(x + x*y, x*(y + 1), !is_constant(x))` -/
def add6 : Rule := ⟨(.bin .add (.wild 0) (.bin .mul (.wild 0) (.wild 1))), [((.bin .mul (.wild 0) (.bin .add (.wild 1) (.lit 1))), some (.not (.pred .isConstant 0)))], .none⟩
/-- simplify_rules.h:288 `apply(x*y + x*z, x*(y + z))` -/
def add7 : Rule := ⟨(.bin .add (.bin .mul (.wild 0) (.wild 1)) (.bin .mul (.wild 0) (.wild 2))), [((.bin .mul (.wild 0) (.bin .add (.wild 1) (.wild 2))), none)], .none⟩
/-- simplify_rules.h:289 `apply((x + may_be<0>(y)) + (x + may_be<0>(z)), (y + z) + x*2)` -/
def add8 : Rule := ⟨(.bin .add (.bin .add (.wild 0) (.opt (.wild 1) 0)) (.bin .add (.wild 0) (.opt (.wild 2) 0))), [((.bin .add (.bin .add (.wild 1) (.wild 2)) (.bin .mul (.wild 0) (.lit 2))), none)], .none⟩
/-- simplify_rules.h:290 `apply((x + y) + (x - z), (y - z) + x*2)` -/
def add9 : Rule := ⟨(.bin .add (.bin .add (.wild 0) (.wild 1)) (.bin .sub (.wild 0) (.wild 2))), [((.bin .add (.bin .sub (.wild 1) (.wild 2)) (.bin .mul (.wild 0) (.lit 2))), none)], .none⟩
/-- simplify_rules.h:291 `apply((x + y) + (z - x), y + z)` -/
def add10 : Rule := ⟨(.bin .add (.bin .add (.wild 0) (.wild 1)) (.bin .sub (.wild 2) (.wild 0))), [((.bin .add (.wild 1) (.wild 2)), none)], .none⟩
/-- simplify_rules.h:292 `apply((x - y) + (z - x), z - y)` -/
def add11 : Rule := ⟨(.bin .add (.bin .sub (.wild 0) (.wild 1)) (.bin .sub (.wild 2) (.wild 0))), [((.bin .sub (.wild 2) (.wild 1)), none)], .none⟩
/-- simplify_rules.h:293 `apply((x - y) + (x - z), x*2 - (y + z))` -/
def add12 : Rule := ⟨(.bin .add (.bin .sub (.wild 0) (.wild 1)) (.bin .sub (.wild 0) (.wild 2))), [((.bin .sub (.bin .mul (.wild 0) (.lit 2)) (.bin .add (.wild 1) (.wild 2))), none)], .none⟩
/-- simplify_rules.h:294 `apply((y - x) + (z - x), (y + z) + x*-2)` -/
def add13 : Rule := ⟨(.bin .add (.bin .sub (.wild 1) (.wild 0)) (.bin .sub (.wild 2) (.wild 0))), [((.bin .add (.bin .add (.wild 1) (.wild 2)) (.bin .mul (.wild 0) (.lit (-2)))), none)], .none⟩
/-- simplify_rules.h:296 `apply(x + (c0 - y), (x - y) + c0)` -/
def add14 : Rule := ⟨(.bin .add (.wild 0) (.bin .sub (.cst 0) (.wild 1))), [((.bin .add (.bin .sub (.wild 0) (.wild 1)) (.cst 0)), none)], .none⟩
/-- simplify_rules.h:297 `apply((x + may_be<0>(c0)) + (y + may_be<0>(c1)), (x + y) + eval(c0 + c1), c0 != 0 || c1 != 0)` -/
def add15 : Rule := ⟨(.bin .add (.bin .add (.wild 0) (.opt (.cst 0) 0)) (.bin .add (.wild 1) (.opt (.cst 1) 0))), [((.bin .add (.bin .add (.wild 0) (.wild 1)) (.eval (.bin .add (.cst 0) (.cst 1)))), some (.bin .or (.bin .ne (.cst 0) (.lit 0)) (.bin .ne (.cst 1) (.lit 0))))], .none⟩
/-- simplify_rules.h:299 `apply(staircase(x, c0, c1, c2) + c3, ((x + eval((c3/c2)*c1 + c0))/c1)*c2, c0 != 0 && c1 != 0 && c2 != 0 && c3%c2 == 0)` -/
def add16 : Rule := ⟨(.bin .add (.stair (.wild 0) (.cst 0) (.cst 1) (.cst 2)) (.cst 3)), [((.bin .mul (.bin .div (.bin .add (.wild 0) (.eval (.bin .add (.bin .mul (.bin .div (.cst 3) (.cst 2)) (.cst 1)) (.cst 0)))) (.cst 1)) (.cst 2)), some (.bin .and (.bin .and (.bin .and (.bin .ne (.cst 0) (.lit 0)) (.bin .ne (.cst 1) (.lit 0))) (.bin .ne (.cst 2) (.lit 0))) (.bin .eq (.bin .mod (.cst 3) (.cst 2)) (.lit 0))))], .none⟩
/-- simplify_rules.h:300 `apply(staircase(x, 0, c0, c0) + x%c0, x, c0 != 0)` -/
def add17 : Rule := ⟨(.bin .add (.stair (.wild 0) (.lit 0) (.cst 0) (.cst 0)) (.bin .mod (.wild 0) (.cst 0))), [((.wild 0), some (.bin .ne (.cst 0) (.lit 0)))], .none⟩
/-- simplify_rules.h:302 `apply(min(x, y + c1) + c2, min(y, x + c2), c1 == -c2)` -/
def add18 : Rule := ⟨(.bin .add (.bin .min (.wild 0) (.bin .add (.wild 1) (.cst 1))) (.cst 2)), [((.bin .min (.wild 1) (.bin .add (.wild 0) (.cst 2))), some (.bin .eq (.cst 1) (.bin .sub (.lit 0) (.cst 2))))], .none⟩
/-- simplify_rules.h:303 `apply(max(x, y + c1) + c2, max(y, x + c2), c1 == -c2)` -/
def add19 : Rule := ⟨(.bin .add (.bin .max (.wild 0) (.bin .add (.wild 1) (.cst 1))) (.cst 2)), [((.bin .max (.wild 1) (.bin .add (.wild 0) (.cst 2))), some (.bin .eq (.cst 1) (.bin .sub (.lit 0) (.cst 2))))], .none⟩
/-- simplify_rules.h:304 `apply(z + min(x, y - (z + may_be<0>(w))), min(x + z, y - w))` -/
def add20 : Rule := ⟨(.bin .add (.wild 2) (.bin .min (.wild 0) (.bin .sub (.wild 1) (.bin .add (.wild 2) (.opt (.wild 3) 0))))), [((.bin .min (.bin .add (.wild 0) (.wild 2)) (.bin .sub (.wild 1) (.wild 3))), none)], .none⟩
/-- simplify_rules.h:305 `apply(z + max(x, y - (z + may_be<0>(w))), max(x + z, y - w))` -/
def add21 : Rule := ⟨(.bin .add (.wild 2) (.bin .max (.wild 0) (.bin .sub (.wild 1) (.bin .add (.wild 2) (.opt (.wild 3) 0))))), [((.bin .max (.bin .add (.wild 0) (.wild 2)) (.bin .sub (.wild 1) (.wild 3))), none)], .none⟩
/-- simplify_rules.h:306 `apply(z + min(x, y - (z - w)), min(x + z, y + w))` -/
def add22 : Rule := ⟨(.bin .add (.wild 2) (.bin .min (.wild 0) (.bin .sub (.wild 1) (.bin .sub (.wild 2) (.wild 3))))), [((.bin .min (.bin .add (.wild 0) (.wild 2)) (.bin .add (.wild 1) (.wild 3))), none)], .none⟩
/-- simplify_rules.h:307 `apply(z + max(x, y - (z - w)), max(x + z, y + w))` -/
def add23 : Rule := ⟨(.bin .add (.wild 2) (.bin .max (.wild 0) (.bin .sub (.wild 1) (.bin .sub (.wild 2) (.wild 3))))), [((.bin .max (.bin .add (.wild 0) (.wild 2)) (.bin .add (.wild 1) (.wild 3))), none)], .none⟩
/-- simplify_rules.h:309 `apply(w + select(x, y, z - w), select(x, y + w, z))` -/
def add24 : Rule := ⟨(.bin .add (.wild 3) (.select (.wild 0) (.wild 1) (.bin .sub (.wild 2) (.wild 3)))), [((.select (.wild 0) (.bin .add (.wild 1) (.wild 3)) (.wild 2)), none)], .none⟩
/-- simplify_rules.h:310 `apply(w + select(x, y - w, z), select(x, y, z + w))` -/
def add25 : Rule := ⟨(.bin .add (.wild 3) (.select (.wild 0) (.bin .sub (.wild 1) (.wild 3)) (.wild 2))), [((.select (.wild 0) (.wild 1) (.bin .add (.wild 2) (.wild 3))), none)], .none⟩

/-- simplify_rules.h:279 `apply_add_rules` -/
def addRules : List Rule := [add0, add1, add2, add3, add4, add5, add6, add7, add8, add9, add10, add11, add12, add13, add14, add15, add16, add17, add18, add19, add20, add21, add22, add23, add24, add25]

/-- simplify_rules.h:318 `apply(x - rewrite::positive_infinity(), rewrite::negative_infinity(), is_finite(x))` -/
def sub0 : Rule := ⟨(.bin .sub (.wild 0) (.call0 .posInf)), [((.call0 .negInf), some (.pred .isFinite 0))], .none⟩
/-- simplify_rules.h:319 `apply(x - rewrite::negative_infinity(), rewrite::positive_infinity(), is_finite(x))` -/
def sub1 : Rule := ⟨(.bin .sub (.wild 0) (.call0 .negInf)), [((.call0 .posInf), some (.pred .isFinite 0))], .none⟩
/-- simplify_rules.h:320 `apply(x - 0, x)` -/
def sub2 : Rule := ⟨(.bin .sub (.wild 0) (.lit 0)), [((.wild 0), none)], .none⟩
/-- simplify_rules.h:321 `apply(x*may_be<1>(c0) - x*may_be<1>(c1), x*eval(c0 - c1))` -/
def sub3 : Rule := ⟨(.bin .sub (.bin .mul (.wild 0) (.opt (.cst 0) 1)) (.bin .mul (.wild 0) (.opt (.cst 1) 1))), [((.bin .mul (.wild 0) (.eval (.bin .sub (.cst 0) (.cst 1)))), none)], .none⟩
/-- simplify_rules.h:322 `apply(x - y*c0, x + y*eval(-c0))` -/
def sub4 : Rule := ⟨(.bin .sub (.wild 0) (.bin .mul (.wild 1) (.cst 0))), [((.bin .add (.wild 0) (.bin .mul (.wild 1) (.eval (.bin .sub (.lit 0) (.cst 0))))), none)], .none⟩
/-- simplify_rules.h:323 `apply(x - y/c0, x + y/eval(-c0), c0 <= 0)` -/
def sub5 : Rule := ⟨(.bin .sub (.wild 0) (.bin .div (.wild 1) (.cst 0))), [((.bin .add (.wild 0) (.bin .div (.wild 1) (.eval (.bin .sub (.lit 0) (.cst 0))))), some (.bin .le (.cst 0) (.lit 0)))], .none⟩
/-- simplify_rules.h:324 `apply(x - (c0 - y), (x + y) + eval(-c0))` -/
def sub6 : Rule := ⟨(.bin .sub (.wild 0) (.bin .sub (.cst 0) (.wild 1))), [((.bin .add (.bin .add (.wild 0) (.wild 1)) (.eval (.bin .sub (.lit 0) (.cst 0)))), none)], .none⟩
/-- simplify_rules.h:325 `apply(c0 - (x - y), (y - x) + c0)` -/
def sub7 : Rule := ⟨(.bin .sub (.cst 0) (.bin .sub (.wild 0) (.wild 1))), [((.bin .add (.bin .sub (.wild 1) (.wild 0)) (.cst 0)), none)], .none⟩
/-- simplify_rules.h:326 `apply((c0 - x) - (y - z), ((z - x) - y) + c0)` -/
def sub8 : Rule := ⟨(.bin .sub (.bin .sub (.cst 0) (.wild 0)) (.bin .sub (.wild 1) (.wild 2))), [((.bin .add (.bin .sub (.bin .sub (.wild 2) (.wild 0)) (.wild 1)) (.cst 0)), none)], .none⟩
/-- simplify_rules.h:327 `apply((c0 - x) - y, c0 - (x + y))` -/
def sub9 : Rule := ⟨(.bin .sub (.bin .sub (.cst 0) (.wild 0)) (.wild 1)), [((.bin .sub (.cst 0) (.bin .add (.wild 0) (.wild 1))), none)], .none⟩
/-- simplify_rules.h:328 `apply((x + may_be<0>(y)) - x, y)` -/
def sub10 : Rule := ⟨(.bin .sub (.bin .add (.wild 0) (.opt (.wild 1) 0)) (.wild 0)), [((.wild 1), none)], .none⟩
/-- simplify_rules.h:329 `apply((x + may_be<0>(y)) - (x + z), y - z)` -/
def sub11 : Rule := ⟨(.bin .sub (.bin .add (.wild 0) (.opt (.wild 1) 0)) (.bin .add (.wild 0) (.wild 2))), [((.bin .sub (.wild 1) (.wild 2)), none)], .none⟩
/-- simplify_rules.h:330 `apply((x - y) - (z - y), x - z)` -/
def sub12 : Rule := ⟨(.bin .sub (.bin .sub (.wild 0) (.wild 1)) (.bin .sub (.wild 2) (.wild 1))), [((.bin .sub (.wild 0) (.wild 2)), none)], .none⟩
/-- simplify_rules.h:331 `apply((x - y) - (x - may_be<0>(z)), z - y)` -/
def sub13 : Rule := ⟨(.bin .sub (.bin .sub (.wild 0) (.wild 1)) (.bin .sub (.wild 0) (.opt (.wild 2) 0))), [((.bin .sub (.wild 2) (.wild 1)), none)], .none⟩
/-- simplify_rules.h:332 `apply((x + may_be<0>(c0)) - (y + may_be<0>(c1)), (x - y) + eval(c0 - c1), c0 != 0 || c1 != 0)` -/
def sub14 : Rule := ⟨(.bin .sub (.bin .add (.wild 0) (.opt (.cst 0) 0)) (.bin .add (.wild 1) (.opt (.cst 1) 0))), [((.bin .add (.bin .sub (.wild 0) (.wild 1)) (.eval (.bin .sub (.cst 0) (.cst 1)))), some (.bin .or (.bin .ne (.cst 0) (.lit 0)) (.bin .ne (.cst 1) (.lit 0))))], .none⟩
/-- simplify_rules.h:336 `apply((x + y)/c0 - (x + may_be<0>(c1))/c0, ((y - c1) + ((x + eval(c1%c0))%c0))/c0, c0 > 0)` -/
def sub15 : Rule := ⟨(.bin .sub (.bin .div (.bin .add (.wild 0) (.wild 1)) (.cst 0)) (.bin .div (.bin .add (.wild 0) (.opt (.cst 1) 0)) (.cst 0))), [((.bin .div (.bin .add (.bin .sub (.wild 1) (.cst 1)) (.bin .mod (.bin .add (.wild 0) (.eval (.bin .mod (.cst 1) (.cst 0)))) (.cst 0))) (.cst 0)), some (.bin .lt (.lit 0) (.cst 0)))], .none⟩
/-- simplify_rules.h:337 `apply((x + may_be<0>(c1))/c0 - (x + y)/c0, ((eval(c0 + c1 - 1) - y) - ((x + eval(c1%c0))%c0))/c0, c0 > 0)` -/
def sub16 : Rule := ⟨(.bin .sub (.bin .div (.bin .add (.wild 0) (.opt (.cst 1) 0)) (.cst 0)) (.bin .div (.bin .add (.wild 0) (.wild 1)) (.cst 0))), [((.bin .div (.bin .sub (.bin .sub (.eval (.bin .sub (.bin .add (.cst 0) (.cst 1)) (.lit 1))) (.wild 1)) (.bin .mod (.bin .add (.wild 0) (.eval (.bin .mod (.cst 1) (.cst 0)))) (.cst 0))) (.cst 0)), some (.bin .lt (.lit 0) (.cst 0)))], .none⟩
/-- simplify_rules.h:338 `apply((x - y)/c0 - (x + may_be<0>(c1))/c0, (((x + eval(c1%c0))%c0) - y - c1)/c0, c0 > 0)` -/
def sub17 : Rule := ⟨(.bin .sub (.bin .div (.bin .sub (.wild 0) (.wild 1)) (.cst 0)) (.bin .div (.bin .add (.wild 0) (.opt (.cst 1) 0)) (.cst 0))), [((.bin .div (.bin .sub (.bin .sub (.bin .mod (.bin .add (.wild 0) (.eval (.bin .mod (.cst 1) (.cst 0)))) (.cst 0)) (.wild 1)) (.cst 1)) (.cst 0)), some (.bin .lt (.lit 0) (.cst 0)))], .none⟩
/-- simplify_rules.h:339 `apply((x + may_be<0>(c1))/c0 - (x - y)/c0, ((y + eval(c0 + c1 - 1)) - ((x + eval(c1%c0))%c0))/c0, c0 > 0)` -/
def sub18 : Rule := ⟨(.bin .sub (.bin .div (.bin .add (.wild 0) (.opt (.cst 1) 0)) (.cst 0)) (.bin .div (.bin .sub (.wild 0) (.wild 1)) (.cst 0))), [((.bin .div (.bin .sub (.bin .add (.wild 1) (.eval (.bin .sub (.bin .add (.cst 0) (.cst 1)) (.lit 1)))) (.bin .mod (.bin .add (.wild 0) (.eval (.bin .mod (.cst 1) (.cst 0)))) (.cst 0))) (.cst 0)), some (.bin .lt (.lit 0) (.cst 0)))], .none⟩
/-- simplify_rules.h:340 `apply(x - (x/c0)*c0, x%c0, c0 > 0)` -/
def sub19 : Rule := ⟨(.bin .sub (.wild 0) (.bin .mul (.bin .div (.wild 0) (.cst 0)) (.cst 0))), [((.bin .mod (.wild 0) (.cst 0)), some (.bin .lt (.lit 0) (.cst 0)))], .none⟩
/-- simplify_rules.h:341 `apply((x/c0)*c0 - x, -(x%c0), c0 > 0)` -/
def sub20 : Rule := ⟨(.bin .sub (.bin .mul (.bin .div (.wild 0) (.cst 0)) (.cst 0)) (.wild 0)), [((.bin .sub (.lit 0) (.bin .mod (.wild 0) (.cst 0))), some (.bin .lt (.lit 0) (.cst 0)))], .none⟩
/-- simplify_rules.h:343 `apply(c2 - min(x + c0, y + c1), max(eval(c2 - c0) - x, eval(c2 - c1) - y))` -/
def sub21 : Rule := ⟨(.bin .sub (.cst 2) (.bin .min (.bin .add (.wild 0) (.cst 0)) (.bin .add (.wild 1) (.cst 1)))), [((.bin .max (.bin .sub (.eval (.bin .sub (.cst 2) (.cst 0))) (.wild 0)) (.bin .sub (.eval (.bin .sub (.cst 2) (.cst 1))) (.wild 1))), none)], .none⟩
/-- simplify_rules.h:344 `apply(c2 - max(x + c0, y + c1), min(eval(c2 - c0) - x, eval(c2 - c1) - y))` -/
def sub22 : Rule := ⟨(.bin .sub (.cst 2) (.bin .max (.bin .add (.wild 0) (.cst 0)) (.bin .add (.wild 1) (.cst 1)))), [((.bin .min (.bin .sub (.eval (.bin .sub (.cst 2) (.cst 0))) (.wild 0)) (.bin .sub (.eval (.bin .sub (.cst 2) (.cst 1))) (.wild 1))), none)], .none⟩
/-- simplify_rules.h:345 `apply(c2 - min(x + c0, c1 - y), max(y + eval(c2 - c1), eval(c2 - c0) - x))` -/
def sub23 : Rule := ⟨(.bin .sub (.cst 2) (.bin .min (.bin .add (.wild 0) (.cst 0)) (.bin .sub (.cst 1) (.wild 1)))), [((.bin .max (.bin .add (.wild 1) (.eval (.bin .sub (.cst 2) (.cst 1)))) (.bin .sub (.eval (.bin .sub (.cst 2) (.cst 0))) (.wild 0))), none)], .none⟩
/-- simplify_rules.h:346 `apply(c2 - max(x + c0, c1 - y), min(y + eval(c2 - c1), eval(c2 - c0) - x))` -/
def sub24 : Rule := ⟨(.bin .sub (.cst 2) (.bin .max (.bin .add (.wild 0) (.cst 0)) (.bin .sub (.cst 1) (.wild 1)))), [((.bin .min (.bin .add (.wild 1) (.eval (.bin .sub (.cst 2) (.cst 1)))) (.bin .sub (.eval (.bin .sub (.cst 2) (.cst 0))) (.wild 0))), none)], .none⟩
/-- simplify_rules.h:347 `apply(z - min(x, z - y), max(y, z - x))` -/
def sub25 : Rule := ⟨(.bin .sub (.wild 2) (.bin .min (.wild 0) (.bin .sub (.wild 2) (.wild 1)))), [((.bin .max (.wild 1) (.bin .sub (.wild 2) (.wild 0))), none)], .none⟩
/-- simplify_rules.h:348 `apply(z - max(x, z - y), min(y, z - x))` -/
def sub26 : Rule := ⟨(.bin .sub (.wild 2) (.bin .max (.wild 0) (.bin .sub (.wild 2) (.wild 1)))), [((.bin .min (.wild 1) (.bin .sub (.wild 2) (.wild 0))), none)], .none⟩
/-- simplify_rules.h:350 `apply(min(x, y + z) - z, min(y, x - z))` -/
def sub27 : Rule := ⟨(.bin .sub (.bin .min (.wild 0) (.bin .add (.wild 1) (.wild 2))) (.wild 2)), [((.bin .min (.wild 1) (.bin .sub (.wild 0) (.wild 2))), none)], .none⟩
/-- simplify_rules.h:351 `apply(max(x, y + z) - z, max(y, x - z))` -/
def sub28 : Rule := ⟨(.bin .sub (.bin .max (.wild 0) (.bin .add (.wild 1) (.wild 2))) (.wild 2)), [((.bin .max (.wild 1) (.bin .sub (.wild 0) (.wild 2))), none)], .none⟩
/-- simplify_rules.h:352 `apply(min(x, y) - x, min(y - x, 0), !is_constant(x))` -/
def sub29 : Rule := ⟨(.bin .sub (.bin .min (.wild 0) (.wild 1)) (.wild 0)), [((.bin .min (.bin .sub (.wild 1) (.wild 0)) (.lit 0)), some (.not (.pred .isConstant 0)))], .none⟩
/-- simplify_rules.h:353 `apply(max(x, y) - x, max(y - x, 0), !is_constant(x))` -/
def sub30 : Rule := ⟨(.bin .sub (.bin .max (.wild 0) (.wild 1)) (.wild 0)), [((.bin .max (.bin .sub (.wild 1) (.wild 0)) (.lit 0)), some (.not (.pred .isConstant 0)))], .none⟩
/-- simplify_rules.h:354 `apply(x - min(x, y), max(x - y, 0), !is_constant(x))` -/
def sub31 : Rule := ⟨(.bin .sub (.wild 0) (.bin .min (.wild 0) (.wild 1))), [((.bin .max (.bin .sub (.wild 0) (.wild 1)) (.lit 0)), some (.not (.pred .isConstant 0)))], .none⟩
/-- simplify_rules.h:355 `apply(x - max(x, y), min(x - y, 0), !is_constant(x))` -/
def sub32 : Rule := ⟨(.bin .sub (.wild 0) (.bin .max (.wild 0) (.wild 1))), [((.bin .min (.bin .sub (.wild 0) (.wild 1)) (.lit 0)), some (.not (.pred .isConstant 0)))], .none⟩
/-- simplify_rules.h:357 `apply(c2 - select(x, may_be<0>(y) + c0, may_be<0>(z) + c1), select(x, eval(c2 - c0) - y, eval(c2 - c1) - z))` -/
def sub33 : Rule := ⟨(.bin .sub (.cst 2) (.select (.wild 0) (.bin .add (.opt (.wild 1) 0) (.cst 0)) (.bin .add (.opt (.wild 2) 0) (.cst 1)))), [((.select (.wild 0) (.bin .sub (.eval (.bin .sub (.cst 2) (.cst 0))) (.wild 1)) (.bin .sub (.eval (.bin .sub (.cst 2) (.cst 1))) (.wild 2))), none)], .none⟩
/-- simplify_rules.h:358 `apply(c2 - select(x, may_be<0>(y) + c0, c1 - z), select(x, eval(c2 - c0) - y, z + eval(c2 - c1)))` -/
def sub34 : Rule := ⟨(.bin .sub (.cst 2) (.select (.wild 0) (.bin .add (.opt (.wild 1) 0) (.cst 0)) (.bin .sub (.cst 1) (.wild 2)))), [((.select (.wild 0) (.bin .sub (.eval (.bin .sub (.cst 2) (.cst 0))) (.wild 1)) (.bin .add (.wild 2) (.eval (.bin .sub (.cst 2) (.cst 1))))), none)], .none⟩
/-- simplify_rules.h:359 `apply(c2 - select(x, c0 - y, may_be<0>(z) + c1), select(x, y + eval(c2 - c0), eval(c2 - c1) - z))` -/
def sub35 : Rule := ⟨(.bin .sub (.cst 2) (.select (.wild 0) (.bin .sub (.cst 0) (.wild 1)) (.bin .add (.opt (.wild 2) 0) (.cst 1)))), [((.select (.wild 0) (.bin .add (.wild 1) (.eval (.bin .sub (.cst 2) (.cst 0)))) (.bin .sub (.eval (.bin .sub (.cst 2) (.cst 1))) (.wild 2))), none)], .none⟩
/-- simplify_rules.h:360 `apply(c2 - select(x, c0 - y, c1 - z), select(x, y + eval(c2 - c0), z + eval(c2 - c1)))` -/
def sub36 : Rule := ⟨(.bin .sub (.cst 2) (.select (.wild 0) (.bin .sub (.cst 0) (.wild 1)) (.bin .sub (.cst 1) (.wild 2)))), [((.select (.wild 0) (.bin .add (.wild 1) (.eval (.bin .sub (.cst 2) (.cst 0)))) (.bin .add (.wild 2) (.eval (.bin .sub (.cst 2) (.cst 1))))), none)], .none⟩
/-- simplify_rules.h:362 `apply(max(x, y)/c0 - min(x, y)/c0, abs(x/c0 - y/c0), c0 > 0)` -/
def sub37 : Rule := ⟨(.bin .sub (.bin .div (.bin .max (.wild 0) (.wild 1)) (.cst 0)) (.bin .div (.bin .min (.wild 0) (.wild 1)) (.cst 0))), [((.call1 .abs (.bin .sub (.bin .div (.wild 0) (.cst 0)) (.bin .div (.wild 1) (.cst 0)))), some (.bin .lt (.lit 0) (.cst 0)))], .none⟩
/-- simplify_rules.h:363 `apply(min(x, y)/c0 - max(x, y)/c0, -abs(x/c0 - y/c0), c0 > 0)` -/
def sub38 : Rule := ⟨(.bin .sub (.bin .div (.bin .min (.wild 0) (.wild 1)) (.cst 0)) (.bin .div (.bin .max (.wild 0) (.wild 1)) (.cst 0))), [((.bin .sub (.lit 0) (.call1 .abs (.bin .sub (.bin .div (.wild 0) (.cst 0)) (.bin .div (.wild 1) (.cst 0))))), some (.bin .lt (.lit 0) (.cst 0)))], .none⟩
/-- simplify_rules.h:364 `apply(max(x, y) - min(x, y), abs(x - y))` -/
def sub39 : Rule := ⟨(.bin .sub (.bin .max (.wild 0) (.wild 1)) (.bin .min (.wild 0) (.wild 1))), [((.call1 .abs (.bin .sub (.wild 0) (.wild 1))), none)], .none⟩
/-- simplify_rules.h:365 `apply(min(x, y) - max(x, y), -abs(x - y))` -/
def sub40 : Rule := ⟨(.bin .sub (.bin .min (.wild 0) (.wild 1)) (.bin .max (.wild 0) (.wild 1))), [((.bin .sub (.lit 0) (.call1 .abs (.bin .sub (.wild 0) (.wild 1)))), none)], .none⟩
/-- simplify_rules.h:366 `apply(select(x, y, z) - select(x, w, u), select(x, y - w, z - u))` -/
def sub41 : Rule := ⟨(.bin .sub (.select (.wild 0) (.wild 1) (.wild 2)) (.select (.wild 0) (.wild 3) (.wild 4))), [((.select (.wild 0) (.bin .sub (.wild 1) (.wild 3)) (.bin .sub (.wild 2) (.wild 4))), none)], .none⟩
/-- simplify_rules.h:368 `apply(select(x, y, may_be<0>(z) + w) - w, select(x, y - w, z))` -/
def sub42 : Rule := ⟨(.bin .sub (.select (.wild 0) (.wild 1) (.bin .add (.opt (.wild 2) 0) (.wild 3))) (.wild 3)), [((.select (.wild 0) (.bin .sub (.wild 1) (.wild 3)) (.wild 2)), none)], .none⟩
/-- simplify_rules.h:369 `apply(select(x, may_be<0>(y) + w, z) - w, select(x, y, z - w))` -/
def sub43 : Rule := ⟨(.bin .sub (.select (.wild 0) (.bin .add (.opt (.wild 1) 0) (.wild 3)) (.wild 2)) (.wild 3)), [((.select (.wild 0) (.wild 1) (.bin .sub (.wild 2) (.wild 3))), none)], .none⟩
/-- simplify_rules.h:370 `apply(select(x, y, w - z) - w, select(x, y - w, -z))` -/
def sub44 : Rule := ⟨(.bin .sub (.select (.wild 0) (.wild 1) (.bin .sub (.wild 3) (.wild 2))) (.wild 3)), [((.select (.wild 0) (.bin .sub (.wild 1) (.wild 3)) (.bin .sub (.lit 0) (.wild 2))), none)], .none⟩
/-- simplify_rules.h:371 `apply(select(x, w - y, z) - w, select(x, -y, z - w))` -/
def sub45 : Rule := ⟨(.bin .sub (.select (.wild 0) (.bin .sub (.wild 3) (.wild 1)) (.wild 2)) (.wild 3)), [((.select (.wild 0) (.bin .sub (.lit 0) (.wild 1)) (.bin .sub (.wild 2) (.wild 3))), none)], .none⟩
/-- simplify_rules.h:372 `apply(w - select(x, y, may_be<0>(z) + w), select(x, w - y, -z))` -/
def sub46 : Rule := ⟨(.bin .sub (.wild 3) (.select (.wild 0) (.wild 1) (.bin .add (.opt (.wild 2) 0) (.wild 3)))), [((.select (.wild 0) (.bin .sub (.wild 3) (.wild 1)) (.bin .sub (.lit 0) (.wild 2))), none)], .none⟩
/-- simplify_rules.h:373 `apply(w - select(x, may_be<0>(y) + w, z), select(x, -y, w - z))` -/
def sub47 : Rule := ⟨(.bin .sub (.wild 3) (.select (.wild 0) (.bin .add (.opt (.wild 1) 0) (.wild 3)) (.wild 2))), [((.select (.wild 0) (.bin .sub (.lit 0) (.wild 1)) (.bin .sub (.wild 3) (.wild 2))), none)], .none⟩
/-- simplify_rules.h:374 `apply(w - select(x, y, w - z), select(x, w - y, z))` -/
def sub48 : Rule := ⟨(.bin .sub (.wild 3) (.select (.wild 0) (.wild 1) (.bin .sub (.wild 3) (.wild 2)))), [((.select (.wild 0) (.bin .sub (.wild 3) (.wild 1)) (.wild 2)), none)], .none⟩
/-- simplify_rules.h:375 `apply(w - select(x, w - y, z), select(x, y, w - z))` -/
def sub49 : Rule := ⟨(.bin .sub (.wild 3) (.select (.wild 0) (.bin .sub (.wild 3) (.wild 1)) (.wild 2))), [((.select (.wild 0) (.wild 1) (.bin .sub (.wild 3) (.wild 2))), none)], .none⟩

/-- simplify_rules.h:316 `apply_sub_rules` -/
def subRules : List Rule := [sub0, sub1, sub2, sub3, sub4, sub5, sub6, sub7, sub8, sub9, sub10, sub11, sub12, sub13, sub14, sub15, sub16, sub17, sub18, sub19, sub20, sub21, sub22, sub23, sub24, sub25, sub26, sub27, sub28, sub29, sub30, sub31, sub32, sub33, sub34, sub35, sub36, sub37, sub38, sub39, sub40, sub41, sub42, sub43, sub44, sub45, sub46, sub47, sub48, sub49]

/-- simplify_rules.h:383 `apply(rewrite::positive_infinity()*c0, rewrite::positive_infinity(), c0 > 0, rewrite::negative_infinity(), c0 < 0)` -/
def mul0 : Rule := ⟨(.bin .mul (.call0 .posInf) (.cst 0)), [((.call0 .posInf), some (.bin .lt (.lit 0) (.cst 0))), ((.call0 .negInf), some (.bin .lt (.cst 0) (.lit 0)))], .none⟩
/-- simplify_rules.h:386 `apply(rewrite::negative_infinity()*c0, rewrite::negative_infinity(), c0 > 0, rewrite::positive_infinity(), c0 < 0)` -/
def mul1 : Rule := ⟨(.bin .mul (.call0 .negInf) (.cst 0)), [((.call0 .negInf), some (.bin .lt (.lit 0) (.cst 0))), ((.call0 .posInf), some (.bin .lt (.cst 0) (.lit 0)))], .none⟩
/-- simplify_rules.h:389 `apply(x*0, 0)` -/
def mul2 : Rule := ⟨(.bin .mul (.wild 0) (.lit 0)), [((.lit 0), none)], .none⟩
/-- simplify_rules.h:390 `apply(x*1, x)` -/
def mul3 : Rule := ⟨(.bin .mul (.wild 0) (.lit 1)), [((.wild 0), none)], .none⟩
/-- simplify_rules.h:391 `apply((x*c0)*c1, x*eval(c0*c1))` -/
def mul4 : Rule := ⟨(.bin .mul (.bin .mul (.wild 0) (.cst 0)) (.cst 1)), [((.bin .mul (.wild 0) (.eval (.bin .mul (.cst 0) (.cst 1)))), none)], .none⟩
/-- simplify_rules.h:392 `apply((x + c0)*c1, x*c1 + eval(c0*c1))` -/
def mul5 : Rule := ⟨(.bin .mul (.bin .add (.wild 0) (.cst 0)) (.cst 1)), [((.bin .add (.bin .mul (.wild 0) (.cst 1)) (.eval (.bin .mul (.cst 0) (.cst 1)))), none)], .none⟩
/-- simplify_rules.h:393 `apply((c0 - x)*c1, x*eval(-c1) + eval(c0*c1))` -/
def mul6 : Rule := ⟨(.bin .mul (.bin .sub (.cst 0) (.wild 0)) (.cst 1)), [((.bin .add (.bin .mul (.wild 0) (.eval (.bin .sub (.lit 0) (.cst 1)))) (.eval (.bin .mul (.cst 0) (.cst 1)))), none)], .none⟩
/-- simplify_rules.h:394 `apply(y*(x*c0), (x*y)*c0)` -/
def mul7 : Rule := ⟨(.bin .mul (.wild 1) (.bin .mul (.wild 0) (.cst 0))), [((.bin .mul (.bin .mul (.wild 0) (.wild 1)) (.cst 0)), none)], .none⟩
/-- simplify_rules.h:396 `apply(select(x, c0, c1)*c2, select(x, eval(c0*c2), eval(c1*c2)))` -/
def mul8 : Rule := ⟨(.bin .mul (.select (.wild 0) (.cst 0) (.cst 1)) (.cst 2)), [((.select (.wild 0) (.eval (.bin .mul (.cst 0) (.cst 2))) (.eval (.bin .mul (.cst 1) (.cst 2)))), none)], .none⟩
/-- simplify_rules.h:397 `apply(select(x, y, c1)*c2, select(x, y*c2, eval(c1*c2)))` -/
def mul9 : Rule := ⟨(.bin .mul (.select (.wild 0) (.wild 1) (.cst 1)) (.cst 2)), [((.select (.wild 0) (.bin .mul (.wild 1) (.cst 2)) (.eval (.bin .mul (.cst 1) (.cst 2)))), none)], .none⟩
/-- simplify_rules.h:398 `apply(select(x, c0, y)*c2, select(x, eval(c0*c2), y*c2))` -/
def mul10 : Rule := ⟨(.bin .mul (.select (.wild 0) (.cst 0) (.wild 1)) (.cst 2)), [((.select (.wild 0) (.eval (.bin .mul (.cst 0) (.cst 2))) (.bin .mul (.wild 1) (.cst 2))), none)], .none⟩

/-- simplify_rules.h:381 `apply_mul_rules` -/
def mulRules : List Rule := [mul0, mul1, mul2, mul3, mul4, mul5, mul6, mul7, mul8, mul9, mul10]

/-- simplify_rules.h:405 `apply(x/rewrite::positive_infinity(), 0, is_finite(x))` -/
def div0 : Rule := ⟨(.bin .div (.wild 0) (.call0 .posInf)), [((.lit 0), some (.pred .isFinite 0))], .none⟩
/-- simplify_rules.h:406 `apply(x/rewrite::negative_infinity(), 0, is_finite(x))` -/
def div1 : Rule := ⟨(.bin .div (.wild 0) (.call0 .negInf)), [((.lit 0), some (.pred .isFinite 0))], .none⟩
/-- simplify_rules.h:407 `apply(rewrite::positive_infinity()/c0, rewrite::positive_infinity(), c0 > 0, rewrite::negative_infinity(), c0 < 0)` -/
def div2 : Rule := ⟨(.bin .div (.call0 .posInf) (.cst 0)), [((.call0 .posInf), some (.bin .lt (.lit 0) (.cst 0))), ((.call0 .negInf), some (.bin .lt (.cst 0) (.lit 0)))], .none⟩
/-- simplify_rules.h:410 `apply(rewrite::negative_infinity()/c0, rewrite::negative_infinity(), c0 > 0, rewrite::positive_infinity(), c0 < 0)` -/
def div3 : Rule := ⟨(.bin .div (.call0 .negInf) (.cst 0)), [((.call0 .negInf), some (.bin .lt (.lit 0) (.cst 0))), ((.call0 .posInf), some (.bin .lt (.cst 0) (.lit 0)))], .none⟩
/-- simplify_rules.h:413 `apply(x/0, 0)` -/
def div4 : Rule := ⟨(.bin .div (.wild 0) (.lit 0)), [((.lit 0), none)], .none⟩
/-- simplify_rules.h:414 `apply(0/x, 0)` -/
def div5 : Rule := ⟨(.bin .div (.lit 0) (.wild 0)), [((.lit 0), none)], .none⟩
/-- simplify_rules.h:415 `apply(x/1, x)` -/
def div6 : Rule := ⟨(.bin .div (.wild 0) (.lit 1)), [((.wild 0), none)], .none⟩
/-- simplify_rules.h:416 `apply(x/ -1, -x)` -/
def div7 : Rule := ⟨(.bin .div (.wild 0) (.lit (-1))), [((.bin .sub (.lit 0) (.wild 0)), none)], .none⟩
/-- simplify_rules.h:417 `apply(x/x, x != 0)` -/
def div8 : Rule := ⟨(.bin .div (.wild 0) (.wild 0)), [((.bin .ne (.wild 0) (.lit 0)), none)], .none⟩
/-- simplify_rules.h:419 `apply((y + x/c0)/c1, (x + y*c0)/eval(c0*c1), c0 > 0)` -/
def div9 : Rule := ⟨(.bin .div (.bin .add (.wild 1) (.bin .div (.wild 0) (.cst 0))) (.cst 1)), [((.bin .div (.bin .add (.wild 0) (.bin .mul (.wild 1) (.cst 0))) (.eval (.bin .mul (.cst 0) (.cst 1)))), some (.bin .lt (.lit 0) (.cst 0)))], .none⟩
/-- simplify_rules.h:420 `apply((y - x/c0)/c1, (y*c0 - x + eval(c0 - 1))/eval(c0*c1), c0 > 0)` -/
def div10 : Rule := ⟨(.bin .div (.bin .sub (.wild 1) (.bin .div (.wild 0) (.cst 0))) (.cst 1)), [((.bin .div (.bin .add (.bin .sub (.bin .mul (.wild 1) (.cst 0)) (.wild 0)) (.eval (.bin .sub (.cst 0) (.lit 1)))) (.eval (.bin .mul (.cst 0) (.cst 1)))), some (.bin .lt (.lit 0) (.cst 0)))], .none⟩
/-- simplify_rules.h:421 `apply((x*c0)/(y*c1), (x*eval(c0/c1))/y, c1 > 0 && c0%c1 == 0)` -/
def div11 : Rule := ⟨(.bin .div (.bin .mul (.wild 0) (.cst 0)) (.bin .mul (.wild 1) (.cst 1))), [((.bin .div (.bin .mul (.wild 0) (.eval (.bin .div (.cst 0) (.cst 1)))) (.wild 1)), some (.bin .and (.bin .lt (.lit 0) (.cst 1)) (.bin .eq (.bin .mod (.cst 0) (.cst 1)) (.lit 0))))], .none⟩
/-- simplify_rules.h:422 `apply((x*c0)/(y*c1), x/(y*eval(c1/c0)), c0 > 0 && c1%c0 == 0)` -/
def div12 : Rule := ⟨(.bin .div (.bin .mul (.wild 0) (.cst 0)) (.bin .mul (.wild 1) (.cst 1))), [((.bin .div (.wild 0) (.bin .mul (.wild 1) (.eval (.bin .div (.cst 1) (.cst 0))))), some (.bin .and (.bin .lt (.lit 0) (.cst 0)) (.bin .eq (.bin .mod (.cst 1) (.cst 0)) (.lit 0))))], .none⟩
/-- simplify_rules.h:423 `apply((x*c0)/c1, x*eval(c0/c1), c0%c1 == 0)` -/
def div13 : Rule := ⟨(.bin .div (.bin .mul (.wild 0) (.cst 0)) (.cst 1)), [((.bin .mul (.wild 0) (.eval (.bin .div (.cst 0) (.cst 1)))), some (.bin .eq (.bin .mod (.cst 0) (.cst 1)) (.lit 0)))], .none⟩
/-- simplify_rules.h:424 `apply((x*c0)/c1, x/eval(c1/c0), c0 > 0 && c1%c0 == 0)` -/
def div14 : Rule := ⟨(.bin .div (.bin .mul (.wild 0) (.cst 0)) (.cst 1)), [((.bin .div (.wild 0) (.eval (.bin .div (.cst 1) (.cst 0)))), some (.bin .and (.bin .lt (.lit 0) (.cst 0)) (.bin .eq (.bin .mod (.cst 1) (.cst 0)) (.lit 0))))], .none⟩
/-- simplify_rules.h:425 `apply(c0/(y*c1), eval(c0/c1)/y, c1 > 0 && c0%c1 == 0)` -/
def div15 : Rule := ⟨(.bin .div (.cst 0) (.bin .mul (.wild 1) (.cst 1))), [((.bin .div (.eval (.bin .div (.cst 0) (.cst 1))) (.wild 1)), some (.bin .and (.bin .lt (.lit 0) (.cst 1)) (.bin .eq (.bin .mod (.cst 0) (.cst 1)) (.lit 0))))], .none⟩
/-- simplify_rules.h:426 `apply((x/c0)/c1, x/eval(c0*c1), c0 > 0)` -/
def div16 : Rule := ⟨(.bin .div (.bin .div (.wild 0) (.cst 0)) (.cst 1)), [((.bin .div (.wild 0) (.eval (.bin .mul (.cst 0) (.cst 1)))), some (.bin .lt (.lit 0) (.cst 0)))], .none⟩
/-- simplify_rules.h:427 `apply((x*y)/x, y*(x != 0))` -/
def div17 : Rule := ⟨(.bin .div (.bin .mul (.wild 0) (.wild 1)) (.wild 0)), [((.bin .mul (.wild 1) (.bin .ne (.wild 0) (.lit 0))), none)], .none⟩
/-- simplify_rules.h:429 `apply((x + may_be<1>(y)*c0)/c1, y*eval(c0/c1) + x/c1, c0%c1 == 0)` -/
def div18 : Rule := ⟨(.bin .div (.bin .add (.wild 0) (.bin .mul (.opt (.wild 1) 1) (.cst 0))) (.cst 1)), [((.bin .add (.bin .mul (.wild 1) (.eval (.bin .div (.cst 0) (.cst 1)))) (.bin .div (.wild 0) (.cst 1))), some (.bin .eq (.bin .mod (.cst 0) (.cst 1)) (.lit 0)))], .none⟩
/-- simplify_rules.h:430 `apply((may_be<1>(y)*c0 - x)/c1, y*eval(c0/c1) + (-x)/c1, c0%c1 == 0 && c0 != 0)` -/
def div19 : Rule := ⟨(.bin .div (.bin .sub (.bin .mul (.opt (.wild 1) 1) (.cst 0)) (.wild 0)) (.cst 1)), [((.bin .add (.bin .mul (.wild 1) (.eval (.bin .div (.cst 0) (.cst 1)))) (.bin .div (.bin .sub (.lit 0) (.wild 0)) (.cst 1))), some (.bin .and (.bin .eq (.bin .mod (.cst 0) (.cst 1)) (.lit 0)) (.bin .ne (.cst 0) (.lit 0))))], .none⟩
/-- simplify_rules.h:432 `apply(min(y, may_be<0>(z) + x*c0)/c1, min(x*eval(c0/c1) + z/c1, y/c1), c1 > 0 && c0%c1 == 0)` -/
def div20 : Rule := ⟨(.bin .div (.bin .min (.wild 1) (.bin .add (.opt (.wild 2) 0) (.bin .mul (.wild 0) (.cst 0)))) (.cst 1)), [((.bin .min (.bin .add (.bin .mul (.wild 0) (.eval (.bin .div (.cst 0) (.cst 1)))) (.bin .div (.wild 2) (.cst 1))) (.bin .div (.wild 1) (.cst 1))), some (.bin .and (.bin .lt (.lit 0) (.cst 1)) (.bin .eq (.bin .mod (.cst 0) (.cst 1)) (.lit 0))))], .none⟩
/-- simplify_rules.h:433 `apply(max(y, may_be<0>(z) + x*c0)/c1, max(x*eval(c0/c1) + z/c1, y/c1), c1 > 0 && c0%c1 == 0)` -/
def div21 : Rule := ⟨(.bin .div (.bin .max (.wild 1) (.bin .add (.opt (.wild 2) 0) (.bin .mul (.wild 0) (.cst 0)))) (.cst 1)), [((.bin .max (.bin .add (.bin .mul (.wild 0) (.eval (.bin .div (.cst 0) (.cst 1)))) (.bin .div (.wild 2) (.cst 1))) (.bin .div (.wild 1) (.cst 1))), some (.bin .and (.bin .lt (.lit 0) (.cst 1)) (.bin .eq (.bin .mod (.cst 0) (.cst 1)) (.lit 0))))], .none⟩
/-- simplify_rules.h:434 `apply(min(y, x*c0 - z)/c1, min(x*eval(c0/c1) + (-z)/c1, y/c1), c1 > 0 && c0%c1 == 0)` -/
def div22 : Rule := ⟨(.bin .div (.bin .min (.wild 1) (.bin .sub (.bin .mul (.wild 0) (.cst 0)) (.wild 2))) (.cst 1)), [((.bin .min (.bin .add (.bin .mul (.wild 0) (.eval (.bin .div (.cst 0) (.cst 1)))) (.bin .div (.bin .sub (.lit 0) (.wild 2)) (.cst 1))) (.bin .div (.wild 1) (.cst 1))), some (.bin .and (.bin .lt (.lit 0) (.cst 1)) (.bin .eq (.bin .mod (.cst 0) (.cst 1)) (.lit 0))))], .none⟩
/-- simplify_rules.h:435 `apply(max(y, x*c0 - z)/c1, max(x*eval(c0/c1) + (-z)/c1, y/c1), c1 > 0 && c0%c1 == 0)` -/
def div23 : Rule := ⟨(.bin .div (.bin .max (.wild 1) (.bin .sub (.bin .mul (.wild 0) (.cst 0)) (.wild 2))) (.cst 1)), [((.bin .max (.bin .add (.bin .mul (.wild 0) (.eval (.bin .div (.cst 0) (.cst 1)))) (.bin .div (.bin .sub (.lit 0) (.wild 2)) (.cst 1))) (.bin .div (.wild 1) (.cst 1))), some (.bin .and (.bin .lt (.lit 0) (.cst 1)) (.bin .eq (.bin .mod (.cst 0) (.cst 1)) (.lit 0))))], .none⟩
/-- simplify_rules.h:437 `apply(select(x, c0, c1)/c2, select(x, eval(c0/c2), eval(c1/c2)))` -/
def div24 : Rule := ⟨(.bin .div (.select (.wild 0) (.cst 0) (.cst 1)) (.cst 2)), [((.select (.wild 0) (.eval (.bin .div (.cst 0) (.cst 2))) (.eval (.bin .div (.cst 1) (.cst 2)))), none)], .none⟩
/-- simplify_rules.h:438 `apply(select(x, y, c1)/c2, select(x, y/c2, eval(c1/c2)))` -/
def div25 : Rule := ⟨(.bin .div (.select (.wild 0) (.wild 1) (.cst 1)) (.cst 2)), [((.select (.wild 0) (.bin .div (.wild 1) (.cst 2)) (.eval (.bin .div (.cst 1) (.cst 2)))), none)], .none⟩
/-- simplify_rules.h:439 `apply(select(x, c0, y)/c2, select(x, eval(c0/c2), y/c2))` -/
def div26 : Rule := ⟨(.bin .div (.select (.wild 0) (.cst 0) (.wild 1)) (.cst 2)), [((.select (.wild 0) (.eval (.bin .div (.cst 0) (.cst 2))) (.bin .div (.wild 1) (.cst 2))), none)], .none⟩
/-- simplify_rules.h:442 `apply(((x%2) + c0)/2, x%2 + eval(c0/2), c0%2 == 1)` -/
def div27 : Rule := ⟨(.bin .div (.bin .add (.bin .mod (.wild 0) (.lit 2)) (.cst 0)) (.lit 2)), [((.bin .add (.bin .mod (.wild 0) (.lit 2)) (.eval (.bin .div (.cst 0) (.lit 2)))), some (.bin .eq (.bin .mod (.cst 0) (.lit 2)) (.lit 1)))], .none⟩

/-- simplify_rules.h:403 `apply_div_rules` -/
def divRules : List Rule := [div0, div1, div2, div3, div4, div5, div6, div7, div8, div9, div10, div11, div12, div13, div14, div15, div16, div17, div18, div19, div20, div21, div22, div23, div24, div25, div26, div27]

/-- simplify_rules.h:450 `apply(x%1, 0)` -/
def mod0 : Rule := ⟨(.bin .mod (.wild 0) (.lit 1)), [((.lit 0), none)], .none⟩
/-- simplify_rules.h:451 `apply(x%0, 0)` -/
def mod1 : Rule := ⟨(.bin .mod (.wild 0) (.lit 0)), [((.lit 0), none)], .none⟩
/-- simplify_rules.h:452 `apply(x%x, 0)` -/
def mod2 : Rule := ⟨(.bin .mod (.wild 0) (.wild 0)), [((.lit 0), none)], .none⟩
/-- simplify_rules.h:454 `apply((x + c0)%c1, (x + eval(c0%c1))%c1, c0%c1 != c0)` -/
def mod3 : Rule := ⟨(.bin .mod (.bin .add (.wild 0) (.cst 0)) (.cst 1)), [((.bin .mod (.bin .add (.wild 0) (.eval (.bin .mod (.cst 0) (.cst 1)))) (.cst 1)), some (.bin .ne (.bin .mod (.cst 0) (.cst 1)) (.cst 0)))], .none⟩
/-- simplify_rules.h:456 `apply(select(x, c0, c1)%c2, select(x, eval(c0%c2), eval(c1%c2)))` -/
def mod4 : Rule := ⟨(.bin .mod (.select (.wild 0) (.cst 0) (.cst 1)) (.cst 2)), [((.select (.wild 0) (.eval (.bin .mod (.cst 0) (.cst 2))) (.eval (.bin .mod (.cst 1) (.cst 2)))), none)], .none⟩
/-- simplify_rules.h:457 `apply(select(x, y, c1)%c2, select(x, y%c2, eval(c1%c2)))` -/
def mod5 : Rule := ⟨(.bin .mod (.select (.wild 0) (.wild 1) (.cst 1)) (.cst 2)), [((.select (.wild 0) (.bin .mod (.wild 1) (.cst 2)) (.eval (.bin .mod (.cst 1) (.cst 2)))), none)], .none⟩
/-- simplify_rules.h:458 `apply(select(x, c0, y)%c2, select(x, eval(c0%c2), y%c2))` -/
def mod6 : Rule := ⟨(.bin .mod (.select (.wild 0) (.cst 0) (.wild 1)) (.cst 2)), [((.select (.wild 0) (.eval (.bin .mod (.cst 0) (.cst 2))) (.bin .mod (.wild 1) (.cst 2))), none)], .none⟩

/-- simplify_rules.h:448 `apply_mod_rules` -/
def modRules : List Rule := [mod0, mod1, mod2, mod3, mod4, mod5, mod6]

/-- simplify_rules.h:465 `apply(rewrite::positive_infinity() < x, false, is_finite(x))` -/
def less0 : Rule := ⟨(.bin .lt (.call0 .posInf) (.wild 0)), [((.lit 0), some (.pred .isFinite 0))], .none⟩
/-- simplify_rules.h:466 `apply(rewrite::negative_infinity() < x, true, is_finite(x))` -/
def less1 : Rule := ⟨(.bin .lt (.call0 .negInf) (.wild 0)), [((.lit 1), some (.pred .isFinite 0))], .none⟩
/-- simplify_rules.h:467 `apply(x < rewrite::positive_infinity(), true, is_finite(x))` -/
def less2 : Rule := ⟨(.bin .lt (.wild 0) (.call0 .posInf)), [((.lit 1), some (.pred .isFinite 0))], .none⟩
/-- simplify_rules.h:468 `apply(x < rewrite::negative_infinity(), false, is_finite(x))` -/
def less3 : Rule := ⟨(.bin .lt (.wild 0) (.call0 .negInf)), [((.lit 0), some (.pred .isFinite 0))], .none⟩
/-- simplify_rules.h:469 `apply(x < x, false)` -/
def less4 : Rule := ⟨(.bin .lt (.wild 0) (.wild 0)), [((.lit 0), none)], .none⟩
/-- simplify_rules.h:470 `apply(x < y + 1, x <= y)` -/
def less5 : Rule := ⟨(.bin .lt (.wild 0) (.bin .add (.wild 1) (.lit 1))), [((.bin .le (.wild 0) (.wild 1)), none)], .none⟩
/-- simplify_rules.h:471 `apply(x + -1 < y, x <= y)` -/
def less6 : Rule := ⟨(.bin .lt (.bin .add (.wild 0) (.lit (-1))) (.wild 1)), [((.bin .le (.wild 0) (.wild 1)), none)], .none⟩
/-- simplify_rules.h:478 `apply(may_be<0>(u) + (may_be<0>(z) + (x - y)) < w, x + (z + u) < w + y)` -/
def less7 : Rule := ⟨(.bin .lt (.bin .add (.opt (.wild 4) 0) (.bin .add (.opt (.wild 2) 0) (.bin .sub (.wild 0) (.wild 1)))) (.wild 3)), [((.bin .lt (.bin .add (.wild 0) (.bin .add (.wild 2) (.wild 4))) (.bin .add (.wild 3) (.wild 1))), none)], .none⟩
/-- simplify_rules.h:479 `apply(w < may_be<0>(u) + (may_be<0>(z) + (x - y)), w + y < x + (z + u))` -/
def less8 : Rule := ⟨(.bin .lt (.wild 3) (.bin .add (.opt (.wild 4) 0) (.bin .add (.opt (.wild 2) 0) (.bin .sub (.wild 0) (.wild 1))))), [((.bin .lt (.bin .add (.wild 3) (.wild 1)) (.bin .add (.wild 0) (.bin .add (.wild 2) (.wild 4)))), none)], .none⟩
/-- simplify_rules.h:482 `apply(may_be<0>(w) + (x + may_be<0>(y)) < may_be<0>(u) + (x + may_be<0>(z)), y + w < z + u)` -/
def less9 : Rule := ⟨(.bin .lt (.bin .add (.opt (.wild 3) 0) (.bin .add (.wild 0) (.opt (.wild 1) 0))) (.bin .add (.opt (.wild 4) 0) (.bin .add (.wild 0) (.opt (.wild 2) 0)))), [((.bin .lt (.bin .add (.wild 1) (.wild 3)) (.bin .add (.wild 2) (.wild 4))), none)], .none⟩
/-- simplify_rules.h:484 `apply(x + c0 < may_be<0>(y) + c1, x < y + eval(c1 - c0))` -/
def less10 : Rule := ⟨(.bin .lt (.bin .add (.wild 0) (.cst 0)) (.bin .add (.opt (.wild 1) 0) (.cst 1))), [((.bin .lt (.wild 0) (.bin .add (.wild 1) (.eval (.bin .sub (.cst 1) (.cst 0))))), none)], .none⟩
/-- simplify_rules.h:485 `apply(x + c0 < y, x < y + eval(-c0))` -/
def less11 : Rule := ⟨(.bin .lt (.bin .add (.wild 0) (.cst 0)) (.wild 1)), [((.bin .lt (.wild 0) (.bin .add (.wild 1) (.eval (.bin .sub (.lit 0) (.cst 0))))), none)], .none⟩
/-- simplify_rules.h:486 `apply(c0 < x + c1, eval(c0 - c1) < x)` -/
def less12 : Rule := ⟨(.bin .lt (.cst 0) (.bin .add (.wild 0) (.cst 1))), [((.bin .lt (.eval (.bin .sub (.cst 0) (.cst 1))) (.wild 0)), none)], .none⟩
/-- simplify_rules.h:490 `apply(may_be<0>(w) + staircase(x, c0, c1, c1) < x + may_be<0>(z), w + c0 < z + (x + c0)%c1, c1 > 1)` -/
def less13 : Rule := ⟨(.bin .lt (.bin .add (.opt (.wild 3) 0) (.stair (.wild 0) (.cst 0) (.cst 1) (.cst 1))) (.bin .add (.wild 0) (.opt (.wild 2) 0))), [((.bin .lt (.bin .add (.wild 3) (.cst 0)) (.bin .add (.wild 2) (.bin .mod (.bin .add (.wild 0) (.cst 0)) (.cst 1)))), some (.bin .lt (.lit 1) (.cst 1)))], .none⟩
/-- simplify_rules.h:491 `apply(x + may_be<0>(z) < may_be<0>(w) + staircase(x, c0, c1, c1), z + (x + c0)%c1 < w + c0, c1 > 1)` -/
def less14 : Rule := ⟨(.bin .lt (.bin .add (.wild 0) (.opt (.wild 2) 0)) (.bin .add (.opt (.wild 3) 0) (.stair (.wild 0) (.cst 0) (.cst 1) (.cst 1)))), [((.bin .lt (.bin .add (.wild 2) (.bin .mod (.bin .add (.wild 0) (.cst 0)) (.cst 1))) (.bin .add (.wild 3) (.cst 0))), some (.bin .lt (.lit 1) (.cst 1)))], .none⟩
/-- simplify_rules.h:492 `apply(staircase(x, c0, c1, c1) < x, c0 < (x + c0)%c1, c1 > 1 && c0 != 0, x%c1 != 0, c1 > 0 && c0 == 0)` -/
def less15 : Rule := ⟨(.bin .lt (.stair (.wild 0) (.cst 0) (.cst 1) (.cst 1)) (.wild 0)), [((.bin .lt (.cst 0) (.bin .mod (.bin .add (.wild 0) (.cst 0)) (.cst 1))), some (.bin .and (.bin .lt (.lit 1) (.cst 1)) (.bin .ne (.cst 0) (.lit 0)))), ((.bin .ne (.bin .mod (.wild 0) (.cst 1)) (.lit 0)), some (.bin .and (.bin .lt (.lit 0) (.cst 1)) (.bin .eq (.cst 0) (.lit 0))))], .none⟩
/-- simplify_rules.h:495 `apply(x < staircase(x, c0, c1, c1), (x + c0)%c1 < c0, c1 > 1 && c0 != 0, false, c1 > 0 && c0 == 0)` -/
def less16 : Rule := ⟨(.bin .lt (.wild 0) (.stair (.wild 0) (.cst 0) (.cst 1) (.cst 1))), [((.bin .lt (.bin .mod (.bin .add (.wild 0) (.cst 0)) (.cst 1)) (.cst 0)), some (.bin .and (.bin .lt (.lit 1) (.cst 1)) (.bin .ne (.cst 0) (.lit 0)))), ((.lit 0), some (.bin .and (.bin .lt (.lit 0) (.cst 1)) (.bin .eq (.cst 0) (.lit 0))))], .none⟩
/-- simplify_rules.h:499 `apply(x%c0 < c1, true, c0 > 0 && c0 <= c1, false, c0 > 0 && c1 <= 0)` -/
def less17 : Rule := ⟨(.bin .lt (.bin .mod (.wild 0) (.cst 0)) (.cst 1)), [((.lit 1), some (.bin .and (.bin .lt (.lit 0) (.cst 0)) (.bin .le (.cst 0) (.cst 1)))), ((.lit 0), some (.bin .and (.bin .lt (.lit 0) (.cst 0)) (.bin .le (.cst 1) (.lit 0))))], .none⟩
/-- simplify_rules.h:502 `apply(c0 < x%c1, true, c1 > 0 && c0 < 0, false, c1 > 0 && c0 >= c1 - 1, boolean(x%c1), c1 > 0 && c0 == 0)` -/
def less18 : Rule := ⟨(.bin .lt (.cst 0) (.bin .mod (.wild 0) (.cst 1))), [((.lit 1), some (.bin .and (.bin .lt (.lit 0) (.cst 1)) (.bin .lt (.cst 0) (.lit 0)))), ((.lit 0), some (.bin .and (.bin .lt (.lit 0) (.cst 1)) (.bin .le (.bin .sub (.cst 1) (.lit 1)) (.cst 0)))), ((.boolean (.bin .mod (.wild 0) (.cst 1))), some (.bin .and (.bin .lt (.lit 0) (.cst 1)) (.bin .eq (.cst 0) (.lit 0))))], .none⟩
/-- simplify_rules.h:507 `apply(staircase(x, c0, c1, c2) < staircase(x, c3, c4, c5) + may_be<0>(c6), true, 0 < staircase_sum_min(c0, c1, -c2, c3, c4, c5) + c6, false, 0 >= staircase_sum_max(c0, c1, -c2, c3, c4, c5) + c6)` -/
def less19 : Rule := ⟨(.bin .lt (.stair (.wild 0) (.cst 0) (.cst 1) (.cst 2)) (.bin .add (.stair (.wild 0) (.cst 3) (.cst 4) (.cst 5)) (.opt (.cst 6) 0))), [((.lit 1), some (.bin .lt (.lit 0) (.bin .add (.stairMin (.cst 0) (.cst 1) (.bin .sub (.lit 0) (.cst 2)) (.cst 3) (.cst 4) (.cst 5)) (.cst 6)))), ((.lit 0), some (.bin .le (.bin .add (.stairMax (.cst 0) (.cst 1) (.bin .sub (.lit 0) (.cst 2)) (.cst 3) (.cst 4) (.cst 5)) (.cst 6)) (.lit 0)))], .fit32⟩
/-- simplify_rules.h:511 `apply(x*c0 < y*c0, x < y, c0 > 0, y < x, c0 < 0)` -/
def less20 : Rule := ⟨(.bin .lt (.bin .mul (.wild 0) (.cst 0)) (.bin .mul (.wild 1) (.cst 0))), [((.bin .lt (.wild 0) (.wild 1)), some (.bin .lt (.lit 0) (.cst 0))), ((.bin .lt (.wild 1) (.wild 0)), some (.bin .lt (.cst 0) (.lit 0)))], .none⟩
/-- simplify_rules.h:514 `apply(x/c0 < c1, x < c0*c1, c0 > 0, x >= c0*(c1 - 1), c0 < 0)` -/
def less21 : Rule := ⟨(.bin .lt (.bin .div (.wild 0) (.cst 0)) (.cst 1)), [((.bin .lt (.wild 0) (.bin .mul (.cst 0) (.cst 1))), some (.bin .lt (.lit 0) (.cst 0))), ((.bin .le (.bin .mul (.cst 0) (.bin .sub (.cst 1) (.lit 1))) (.wild 0)), some (.bin .lt (.cst 0) (.lit 0)))], .none⟩
/-- simplify_rules.h:517 `apply(c0 < x/c1, (c0 + 1)*c1 <= x, c1 > 0, c0*c1 > x, c1 < 0)` -/
def less22 : Rule := ⟨(.bin .lt (.cst 0) (.bin .div (.wild 0) (.cst 1))), [((.bin .le (.bin .mul (.bin .add (.cst 0) (.lit 1)) (.cst 1)) (.wild 0)), some (.bin .lt (.lit 0) (.cst 1))), ((.bin .lt (.wild 0) (.bin .mul (.cst 0) (.cst 1))), some (.bin .lt (.cst 1) (.lit 0)))], .none⟩
/-- simplify_rules.h:521 `apply((max(x, c0)/may_be<1>(c3)) < max(x, c1)/may_be<1>(c3) + c2, true, c2 > 0 && c3 > 0 && c1/c3 + c2 > c0/c3, false, c2 < 0 && c3 > 0 && c1/c3 + c2 <= c0/c3)` -/
def less23 : Rule := ⟨(.bin .lt (.bin .div (.bin .max (.wild 0) (.cst 0)) (.opt (.cst 3) 1)) (.bin .add (.bin .div (.bin .max (.wild 0) (.cst 1)) (.opt (.cst 3) 1)) (.cst 2))), [((.lit 1), some (.bin .and (.bin .and (.bin .lt (.lit 0) (.cst 2)) (.bin .lt (.lit 0) (.cst 3))) (.bin .lt (.bin .div (.cst 0) (.cst 3)) (.bin .add (.bin .div (.cst 1) (.cst 3)) (.cst 2))))), ((.lit 0), some (.bin .and (.bin .and (.bin .lt (.cst 2) (.lit 0)) (.bin .lt (.lit 0) (.cst 3))) (.bin .le (.bin .add (.bin .div (.cst 1) (.cst 3)) (.cst 2)) (.bin .div (.cst 0) (.cst 3)))))], .none⟩
/-- simplify_rules.h:524 `apply((min(x, c0)/may_be<1>(c3)) < min(x, c1)/may_be<1>(c3) + c2, true, c2 > 0 && c3 > 0 && c1/c3 + c2 > c0/c3, false, c2 < 0 && c3 > 0 && c1/c3 + c2 <= c0/c3)` -/
def less24 : Rule := ⟨(.bin .lt (.bin .div (.bin .min (.wild 0) (.cst 0)) (.opt (.cst 3) 1)) (.bin .add (.bin .div (.bin .min (.wild 0) (.cst 1)) (.opt (.cst 3) 1)) (.cst 2))), [((.lit 1), some (.bin .and (.bin .and (.bin .lt (.lit 0) (.cst 2)) (.bin .lt (.lit 0) (.cst 3))) (.bin .lt (.bin .div (.cst 0) (.cst 3)) (.bin .add (.bin .div (.cst 1) (.cst 3)) (.cst 2))))), ((.lit 0), some (.bin .and (.bin .and (.bin .lt (.cst 2) (.lit 0)) (.bin .lt (.lit 0) (.cst 3))) (.bin .le (.bin .add (.bin .div (.cst 1) (.cst 3)) (.cst 2)) (.bin .div (.cst 0) (.cst 3)))))], .none⟩
/-- simplify_rules.h:535 `apply(min(y, x + may_be<0>(c0)) < x + may_be<0>(c1), y < x + c1 || eval(c0 < c1))` -/
def less25 : Rule := ⟨(.bin .lt (.bin .min (.wild 1) (.bin .add (.wild 0) (.opt (.cst 0) 0))) (.bin .add (.wild 0) (.opt (.cst 1) 0))), [((.bin .or (.bin .lt (.wild 1) (.bin .add (.wild 0) (.cst 1))) (.eval (.bin .lt (.cst 0) (.cst 1)))), none)], .none⟩
/-- simplify_rules.h:536 `apply(max(y, x + may_be<0>(c0)) < x + may_be<0>(c1), y < x + c1 && eval(c0 < c1))` -/
def less26 : Rule := ⟨(.bin .lt (.bin .max (.wild 1) (.bin .add (.wild 0) (.opt (.cst 0) 0))) (.bin .add (.wild 0) (.opt (.cst 1) 0))), [((.bin .and (.bin .lt (.wild 1) (.bin .add (.wild 0) (.cst 1))) (.eval (.bin .lt (.cst 0) (.cst 1)))), none)], .none⟩
/-- simplify_rules.h:537 `apply(x < min(y, x + may_be<0>(c0)) + may_be<0>(c1), x < y + c1 && eval(0 < c0 + c1))` -/
def less27 : Rule := ⟨(.bin .lt (.wild 0) (.bin .add (.bin .min (.wild 1) (.bin .add (.wild 0) (.opt (.cst 0) 0))) (.opt (.cst 1) 0))), [((.bin .and (.bin .lt (.wild 0) (.bin .add (.wild 1) (.cst 1))) (.eval (.bin .lt (.lit 0) (.bin .add (.cst 0) (.cst 1))))), none)], .none⟩
/-- simplify_rules.h:538 `apply(x < max(y, x + may_be<0>(c0)) + may_be<0>(c1), x < y + c1 || eval(0 < c0 + c1))` -/
def less28 : Rule := ⟨(.bin .lt (.wild 0) (.bin .add (.bin .max (.wild 1) (.bin .add (.wild 0) (.opt (.cst 0) 0))) (.opt (.cst 1) 0))), [((.bin .or (.bin .lt (.wild 0) (.bin .add (.wild 1) (.cst 1))) (.eval (.bin .lt (.lit 0) (.bin .add (.cst 0) (.cst 1))))), none)], .none⟩
/-- simplify_rules.h:541 `apply(min(y, c0) < c1, y < c1 || eval(c0 < c1))` -/
def less29 : Rule := ⟨(.bin .lt (.bin .min (.wild 1) (.cst 0)) (.cst 1)), [((.bin .or (.bin .lt (.wild 1) (.cst 1)) (.eval (.bin .lt (.cst 0) (.cst 1)))), none)], .none⟩
/-- simplify_rules.h:542 `apply(max(y, c0) < c1, y < c1 && eval(c0 < c1))` -/
def less30 : Rule := ⟨(.bin .lt (.bin .max (.wild 1) (.cst 0)) (.cst 1)), [((.bin .and (.bin .lt (.wild 1) (.cst 1)) (.eval (.bin .lt (.cst 0) (.cst 1)))), none)], .none⟩
/-- simplify_rules.h:543 `apply(c1 < min(y, c0), c1 < y && eval(c1 < c0))` -/
def less31 : Rule := ⟨(.bin .lt (.cst 1) (.bin .min (.wild 1) (.cst 0))), [((.bin .and (.bin .lt (.cst 1) (.wild 1)) (.eval (.bin .lt (.cst 1) (.cst 0)))), none)], .none⟩
/-- simplify_rules.h:544 `apply(c1 < max(y, c0), c1 < y || eval(c1 < c0))` -/
def less32 : Rule := ⟨(.bin .lt (.cst 1) (.bin .max (.wild 1) (.cst 0))), [((.bin .or (.bin .lt (.cst 1) (.wild 1)) (.eval (.bin .lt (.cst 1) (.cst 0)))), none)], .none⟩
/-- simplify_rules.h:549 `apply(min(z, y) < min(x, y), z < min(x, y))` -/
def less33 : Rule := ⟨(.bin .lt (.bin .min (.wild 2) (.wild 1)) (.bin .min (.wild 0) (.wild 1))), [((.bin .lt (.wild 2) (.bin .min (.wild 0) (.wild 1))), none)], .none⟩
/-- simplify_rules.h:550 `apply(min(z, y) < min(x, y + c0), min(z, y) < x, c0 > 0)` -/
def less34 : Rule := ⟨(.bin .lt (.bin .min (.wild 2) (.wild 1)) (.bin .min (.wild 0) (.bin .add (.wild 1) (.cst 0)))), [((.bin .lt (.bin .min (.wild 2) (.wild 1)) (.wild 0)), some (.bin .lt (.lit 0) (.cst 0)))], .none⟩
/-- simplify_rules.h:551 `apply(min(z, y + c0) < min(x, y), min(z, y + c0) < x, c0 < 0)` -/
def less35 : Rule := ⟨(.bin .lt (.bin .min (.wild 2) (.bin .add (.wild 1) (.cst 0))) (.bin .min (.wild 0) (.wild 1))), [((.bin .lt (.bin .min (.wild 2) (.bin .add (.wild 1) (.cst 0))) (.wild 0)), some (.bin .lt (.cst 0) (.lit 0)))], .none⟩
/-- simplify_rules.h:554 `apply(max(z, y) < max(x, y), max(z, y) < x)` -/
def less36 : Rule := ⟨(.bin .lt (.bin .max (.wild 2) (.wild 1)) (.bin .max (.wild 0) (.wild 1))), [((.bin .lt (.bin .max (.wild 2) (.wild 1)) (.wild 0)), none)], .none⟩
/-- simplify_rules.h:555 `apply(max(z, y) < max(x, y + c0), max(z, y) < x, c0 < 0)` -/
def less37 : Rule := ⟨(.bin .lt (.bin .max (.wild 2) (.wild 1)) (.bin .max (.wild 0) (.bin .add (.wild 1) (.cst 0)))), [((.bin .lt (.bin .max (.wild 2) (.wild 1)) (.wild 0)), some (.bin .lt (.cst 0) (.lit 0)))], .none⟩
/-- simplify_rules.h:556 `apply(max(z, y + c0) < max(x, y), max(z, y + c0) < x, c0 > 0)` -/
def less38 : Rule := ⟨(.bin .lt (.bin .max (.wild 2) (.bin .add (.wild 1) (.cst 0))) (.bin .max (.wild 0) (.wild 1))), [((.bin .lt (.bin .max (.wild 2) (.bin .add (.wild 1) (.cst 0))) (.wild 0)), some (.bin .lt (.lit 0) (.cst 0)))], .none⟩
/-- simplify_rules.h:558 `apply(min(x, min(y, z)) < y, min(x, z) < y)` -/
def less39 : Rule := ⟨(.bin .lt (.bin .min (.wild 0) (.bin .min (.wild 1) (.wild 2))) (.wild 1)), [((.bin .lt (.bin .min (.wild 0) (.wild 2)) (.wild 1)), none)], .none⟩
/-- simplify_rules.h:559 `apply(min(x, y) < max(x, y), x != y)` -/
def less40 : Rule := ⟨(.bin .lt (.bin .min (.wild 0) (.wild 1)) (.bin .max (.wild 0) (.wild 1))), [((.bin .ne (.wild 0) (.wild 1)), none)], .none⟩
/-- simplify_rules.h:560 `apply(max(x, y) < min(x, y), false)` -/
def less41 : Rule := ⟨(.bin .lt (.bin .max (.wild 0) (.wild 1)) (.bin .min (.wild 0) (.wild 1))), [((.lit 0), none)], .none⟩
/-- simplify_rules.h:562 `apply(min(x, y + may_be<0>(c0)) < max(z, y + may_be<0>(c1)), true, c0 < c1)` -/
def less42 : Rule := ⟨(.bin .lt (.bin .min (.wild 0) (.bin .add (.wild 1) (.opt (.cst 0) 0))) (.bin .max (.wild 2) (.bin .add (.wild 1) (.opt (.cst 1) 0)))), [((.lit 1), some (.bin .lt (.cst 0) (.cst 1)))], .none⟩
/-- simplify_rules.h:566 `apply(may_be<0>(z) + min(y, x + may_be<0>(u)) < x + may_be<0>(w), min(y - x, u) + z < w, !is_constant(x))` -/
def less43 : Rule := ⟨(.bin .lt (.bin .add (.opt (.wild 2) 0) (.bin .min (.wild 1) (.bin .add (.wild 0) (.opt (.wild 4) 0)))) (.bin .add (.wild 0) (.opt (.wild 3) 0))), [((.bin .lt (.bin .add (.bin .min (.bin .sub (.wild 1) (.wild 0)) (.wild 4)) (.wild 2)) (.wild 3)), some (.not (.pred .isConstant 0)))], .none⟩
/-- simplify_rules.h:567 `apply(may_be<0>(z) + max(y, x + may_be<0>(u)) < x + may_be<0>(w), max(y - x, u) + z < w, !is_constant(x))` -/
def less44 : Rule := ⟨(.bin .lt (.bin .add (.opt (.wild 2) 0) (.bin .max (.wild 1) (.bin .add (.wild 0) (.opt (.wild 4) 0)))) (.bin .add (.wild 0) (.opt (.wild 3) 0))), [((.bin .lt (.bin .add (.bin .max (.bin .sub (.wild 1) (.wild 0)) (.wild 4)) (.wild 2)) (.wild 3)), some (.not (.pred .isConstant 0)))], .none⟩
/-- simplify_rules.h:568 `apply(may_be<0>(z) + min(y, x - u) < x + may_be<0>(w), z < w + max(x - y, u), !is_constant(x))` -/
def less45 : Rule := ⟨(.bin .lt (.bin .add (.opt (.wild 2) 0) (.bin .min (.wild 1) (.bin .sub (.wild 0) (.wild 4)))) (.bin .add (.wild 0) (.opt (.wild 3) 0))), [((.bin .lt (.wild 2) (.bin .add (.wild 3) (.bin .max (.bin .sub (.wild 0) (.wild 1)) (.wild 4)))), some (.not (.pred .isConstant 0)))], .none⟩
/-- simplify_rules.h:569 `apply(may_be<0>(z) + max(y, x - u) < x + may_be<0>(w), z < w + min(x - y, u), !is_constant(x))` -/
def less46 : Rule := ⟨(.bin .lt (.bin .add (.opt (.wild 2) 0) (.bin .max (.wild 1) (.bin .sub (.wild 0) (.wild 4)))) (.bin .add (.wild 0) (.opt (.wild 3) 0))), [((.bin .lt (.wild 2) (.bin .add (.wild 3) (.bin .min (.bin .sub (.wild 0) (.wild 1)) (.wild 4)))), some (.not (.pred .isConstant 0)))], .none⟩
/-- simplify_rules.h:571 `apply(x + may_be<0>(z) < may_be<0>(w) + min(y, x + may_be<0>(u)), z < min(y - x, u) + w, !is_constant(x))` -/
def less47 : Rule := ⟨(.bin .lt (.bin .add (.wild 0) (.opt (.wild 2) 0)) (.bin .add (.opt (.wild 3) 0) (.bin .min (.wild 1) (.bin .add (.wild 0) (.opt (.wild 4) 0))))), [((.bin .lt (.wild 2) (.bin .add (.bin .min (.bin .sub (.wild 1) (.wild 0)) (.wild 4)) (.wild 3))), some (.not (.pred .isConstant 0)))], .none⟩
/-- simplify_rules.h:572 `apply(x + may_be<0>(z) < may_be<0>(w) + max(y, x + may_be<0>(u)), z < max(y - x, u) + w, !is_constant(x))` -/
def less48 : Rule := ⟨(.bin .lt (.bin .add (.wild 0) (.opt (.wild 2) 0)) (.bin .add (.opt (.wild 3) 0) (.bin .max (.wild 1) (.bin .add (.wild 0) (.opt (.wild 4) 0))))), [((.bin .lt (.wild 2) (.bin .add (.bin .max (.bin .sub (.wild 1) (.wild 0)) (.wild 4)) (.wild 3))), some (.not (.pred .isConstant 0)))], .none⟩
/-- simplify_rules.h:573 `apply(x + may_be<0>(z) < may_be<0>(w) + min(y, x - u), z + max(x - y, u) < w, !is_constant(x))` -/
def less49 : Rule := ⟨(.bin .lt (.bin .add (.wild 0) (.opt (.wild 2) 0)) (.bin .add (.opt (.wild 3) 0) (.bin .min (.wild 1) (.bin .sub (.wild 0) (.wild 4))))), [((.bin .lt (.bin .add (.wild 2) (.bin .max (.bin .sub (.wild 0) (.wild 1)) (.wild 4))) (.wild 3)), some (.not (.pred .isConstant 0)))], .none⟩
/-- simplify_rules.h:574 `apply(x + may_be<0>(z) < may_be<0>(w) + max(y, x - u), z + min(x - y, u) < w, !is_constant(x))` -/
def less50 : Rule := ⟨(.bin .lt (.bin .add (.wild 0) (.opt (.wild 2) 0)) (.bin .add (.opt (.wild 3) 0) (.bin .max (.wild 1) (.bin .sub (.wild 0) (.wild 4))))), [((.bin .lt (.bin .add (.wild 2) (.bin .min (.bin .sub (.wild 0) (.wild 1)) (.wild 4))) (.wild 3)), some (.not (.pred .isConstant 0)))], .none⟩
/-- simplify_rules.h:577 `apply(select(x, c0, y) < c1, select(x, eval(c0 < c1), y < c1))` -/
def less51 : Rule := ⟨(.bin .lt (.select (.wild 0) (.cst 0) (.wild 1)) (.cst 1)), [((.select (.wild 0) (.eval (.bin .lt (.cst 0) (.cst 1))) (.bin .lt (.wild 1) (.cst 1))), none)], .none⟩
/-- simplify_rules.h:578 `apply(select(x, y, c0) < c1, select(x, y < c1, eval(c0 < c1)))` -/
def less52 : Rule := ⟨(.bin .lt (.select (.wild 0) (.wild 1) (.cst 0)) (.cst 1)), [((.select (.wild 0) (.bin .lt (.wild 1) (.cst 1)) (.eval (.bin .lt (.cst 0) (.cst 1)))), none)], .none⟩
/-- simplify_rules.h:579 `apply(c1 < select(x, c0, y), select(x, eval(c1 < c0), c1 < y))` -/
def less53 : Rule := ⟨(.bin .lt (.cst 1) (.select (.wild 0) (.cst 0) (.wild 1))), [((.select (.wild 0) (.eval (.bin .lt (.cst 1) (.cst 0))) (.bin .lt (.cst 1) (.wild 1))), none)], .none⟩
/-- simplify_rules.h:580 `apply(c1 < select(x, y, c0), select(x, c1 < y, eval(c1 < c0)))` -/
def less54 : Rule := ⟨(.bin .lt (.cst 1) (.select (.wild 0) (.wild 1) (.cst 0))), [((.select (.wild 0) (.bin .lt (.cst 1) (.wild 1)) (.eval (.bin .lt (.cst 1) (.cst 0)))), none)], .none⟩
/-- simplify_rules.h:582 `apply(select(x, y, z) < y, select(x, false, z < y))` -/
def less55 : Rule := ⟨(.bin .lt (.select (.wild 0) (.wild 1) (.wild 2)) (.wild 1)), [((.select (.wild 0) (.lit 0) (.bin .lt (.wild 2) (.wild 1))), none)], .none⟩
/-- simplify_rules.h:583 `apply(select(x, y, z) < z, select(x, y < z, false))` -/
def less56 : Rule := ⟨(.bin .lt (.select (.wild 0) (.wild 1) (.wild 2)) (.wild 2)), [((.select (.wild 0) (.bin .lt (.wild 1) (.wild 2)) (.lit 0)), none)], .none⟩
/-- simplify_rules.h:584 `apply(y < select(x, y, w), select(x, false, y < w))` -/
def less57 : Rule := ⟨(.bin .lt (.wild 1) (.select (.wild 0) (.wild 1) (.wild 3))), [((.select (.wild 0) (.lit 0) (.bin .lt (.wild 1) (.wild 3))), none)], .none⟩
/-- simplify_rules.h:585 `apply(w < select(x, y, w), select(x, w < y, false))` -/
def less58 : Rule := ⟨(.bin .lt (.wild 3) (.select (.wild 0) (.wild 1) (.wild 3))), [((.select (.wild 0) (.bin .lt (.wild 3) (.wild 1)) (.lit 0)), none)], .none⟩
/-- simplify_rules.h:586 `apply(may_be<0>(t) + select(x, y, z) < may_be<0>(v) + select(x, w, u), select(x, y + t < v + w, z + t < v + u))` -/
def less59 : Rule := ⟨(.bin .lt (.bin .add (.opt (.wild 6) 0) (.select (.wild 0) (.wild 1) (.wild 2))) (.bin .add (.opt (.wild 5) 0) (.select (.wild 0) (.wild 3) (.wild 4)))), [((.select (.wild 0) (.bin .lt (.bin .add (.wild 1) (.wild 6)) (.bin .add (.wild 5) (.wild 3))) (.bin .lt (.bin .add (.wild 2) (.wild 6)) (.bin .add (.wild 5) (.wild 4)))), none)], .none⟩
/-- simplify_rules.h:589 `apply(x < y, y && !x, is_boolean(x) && is_boolean(y))` -/
def less60 : Rule := ⟨(.bin .lt (.wild 0) (.wild 1)), [((.bin .and (.wild 1) (.not (.wild 0))), some (.bin .and (.pred .isBoolean 0) (.pred .isBoolean 1)))], .none⟩
/-- simplify_rules.h:590 `apply(x < 1, !x, is_boolean(x))` -/
def less61 : Rule := ⟨(.bin .lt (.wild 0) (.lit 1)), [((.not (.wild 0)), some (.pred .isBoolean 0))], .none⟩
/-- simplify_rules.h:591 `apply(0 < x, boolean(x), is_boolean(x))` -/
def less62 : Rule := ⟨(.bin .lt (.lit 0) (.wild 0)), [((.boolean (.wild 0)), some (.pred .isBoolean 0))], .none⟩

/-- simplify_rules.h:463 `apply_less_rules` -/
def lessRules : List Rule := [less0, less1, less2, less3, less4, less5, less6, less7, less8, less9, less10, less11, less12, less13, less14, less15, less16, less17, less18, less19, less20, less21, less22, less23, less24, less25, less26, less27, less28, less29, less30, less31, less32, less33, less34, less35, less36, less37, less38, less39, less40, less41, less42, less43, less44, less45, less46, less47, less48, less49, less50, less51, less52, less53, less54, less55, less56, less57, less58, less59, less60, less61, less62]

/-- simplify_rules.h:599 `apply(x == x, true)` -/
def equal0 : Rule := ⟨(.bin .eq (.wild 0) (.wild 0)), [((.lit 1), none)], .none⟩
/-- simplify_rules.h:600 `apply(x*y == x*z, y == z || x == 0)` -/
def equal1 : Rule := ⟨(.bin .eq (.bin .mul (.wild 0) (.wild 1)) (.bin .mul (.wild 0) (.wild 2))), [((.bin .or (.bin .eq (.wild 1) (.wild 2)) (.bin .eq (.wild 0) (.lit 0))), none)], .none⟩
/-- simplify_rules.h:601 `apply(x == x*y, y == 1 || x == 0)` -/
def equal2 : Rule := ⟨(.bin .eq (.wild 0) (.bin .mul (.wild 0) (.wild 1))), [((.bin .or (.bin .eq (.wild 1) (.lit 1)) (.bin .eq (.wild 0) (.lit 0))), none)], .none⟩
/-- simplify_rules.h:604 `apply(w == may_be<0>(u) + (may_be<0>(z) + (x - y)), w + y == x + (z + u))` -/
def equal3 : Rule := ⟨(.bin .eq (.wild 3) (.bin .add (.opt (.wild 4) 0) (.bin .add (.opt (.wild 2) 0) (.bin .sub (.wild 0) (.wild 1))))), [((.bin .eq (.bin .add (.wild 3) (.wild 1)) (.bin .add (.wild 0) (.bin .add (.wild 2) (.wild 4)))), none)], .none⟩
/-- simplify_rules.h:607 `apply(may_be<0>(w) + (x + may_be<0>(y)) == may_be<0>(u) + (x + may_be<0>(z)), y + w == z + u)` -/
def equal4 : Rule := ⟨(.bin .eq (.bin .add (.opt (.wild 3) 0) (.bin .add (.wild 0) (.opt (.wild 1) 0))) (.bin .add (.opt (.wild 4) 0) (.bin .add (.wild 0) (.opt (.wild 2) 0)))), [((.bin .eq (.bin .add (.wild 1) (.wild 3)) (.bin .add (.wild 2) (.wild 4))), none)], .none⟩
/-- simplify_rules.h:609 `apply(x*c0 == y*c1, x == y*eval(c1/c0), c0 != 0 && c1%c0 == 0, y == x*eval(c0/c1), c1 != 0 && c0%c1 == 0)` -/
def equal5 : Rule := ⟨(.bin .eq (.bin .mul (.wild 0) (.cst 0)) (.bin .mul (.wild 1) (.cst 1))), [((.bin .eq (.wild 0) (.bin .mul (.wild 1) (.eval (.bin .div (.cst 1) (.cst 0))))), some (.bin .and (.bin .ne (.cst 0) (.lit 0)) (.bin .eq (.bin .mod (.cst 1) (.cst 0)) (.lit 0)))), ((.bin .eq (.wild 1) (.bin .mul (.wild 0) (.eval (.bin .div (.cst 0) (.cst 1))))), some (.bin .and (.bin .ne (.cst 1) (.lit 0)) (.bin .eq (.bin .mod (.cst 0) (.cst 1)) (.lit 0))))], .none⟩
/-- simplify_rules.h:612 `apply(x*c0 == c1, x == eval(c1/c0), c0 != 0 && c1%c0 == 0)` -/
def equal6 : Rule := ⟨(.bin .eq (.bin .mul (.wild 0) (.cst 0)) (.cst 1)), [((.bin .eq (.wild 0) (.eval (.bin .div (.cst 1) (.cst 0)))), some (.bin .and (.bin .ne (.cst 0) (.lit 0)) (.bin .eq (.bin .mod (.cst 1) (.cst 0)) (.lit 0))))], .none⟩
/-- simplify_rules.h:613 `apply(x + c0 == may_be<0>(y) + c1, x == y + eval(c1 - c0))` -/
def equal7 : Rule := ⟨(.bin .eq (.bin .add (.wild 0) (.cst 0)) (.bin .add (.opt (.wild 1) 0) (.cst 1))), [((.bin .eq (.wild 0) (.bin .add (.wild 1) (.eval (.bin .sub (.cst 1) (.cst 0))))), none)], .none⟩
/-- simplify_rules.h:614 `apply(may_be<0>(x) + c0 == c1 - y, x + y == eval(c1 - c0))` -/
def equal8 : Rule := ⟨(.bin .eq (.bin .add (.opt (.wild 0) 0) (.cst 0)) (.bin .sub (.cst 1) (.wild 1))), [((.bin .eq (.bin .add (.wild 0) (.wild 1)) (.eval (.bin .sub (.cst 1) (.cst 0)))), none)], .none⟩
/-- simplify_rules.h:615 `apply(x == 0, !x, is_boolean(x))` -/
def equal9 : Rule := ⟨(.bin .eq (.wild 0) (.lit 0)), [((.not (.wild 0)), some (.pred .isBoolean 0))], .none⟩
/-- simplify_rules.h:616 `apply(x == 1, boolean(x), is_boolean(x))` -/
def equal10 : Rule := ⟨(.bin .eq (.wild 0) (.lit 1)), [((.boolean (.wild 0)), some (.pred .isBoolean 0))], .none⟩
/-- simplify_rules.h:618 `apply(x + may_be<0>(y) == may_be<0>(z) + (x/c0)*c0, z == y + x%c0, c0 > 0)` -/
def equal11 : Rule := ⟨(.bin .eq (.bin .add (.wild 0) (.opt (.wild 1) 0)) (.bin .add (.opt (.wild 2) 0) (.bin .mul (.bin .div (.wild 0) (.cst 0)) (.cst 0)))), [((.bin .eq (.wild 2) (.bin .add (.wild 1) (.bin .mod (.wild 0) (.cst 0)))), some (.bin .lt (.lit 0) (.cst 0)))], .none⟩
/-- simplify_rules.h:620 `apply(x%c0 == c1, false, c0 > 0 && (c1 >= c0 || c1 < 0))` -/
def equal12 : Rule := ⟨(.bin .eq (.bin .mod (.wild 0) (.cst 0)) (.cst 1)), [((.lit 0), some (.bin .and (.bin .lt (.lit 0) (.cst 0)) (.bin .or (.bin .le (.cst 0) (.cst 1)) (.bin .lt (.cst 1) (.lit 0)))))], .none⟩
/-- simplify_rules.h:622 `apply(may_be<0>(v) + select(x, y, z) == select(x, w, u), select(x, w == v + y, u == v + z))` -/
def equal13 : Rule := ⟨(.bin .eq (.bin .add (.opt (.wild 5) 0) (.select (.wild 0) (.wild 1) (.wild 2))) (.select (.wild 0) (.wild 3) (.wild 4))), [((.select (.wild 0) (.bin .eq (.wild 3) (.bin .add (.wild 5) (.wild 1))) (.bin .eq (.wild 4) (.bin .add (.wild 5) (.wild 2)))), none)], .none⟩
/-- simplify_rules.h:623 `apply(select(x, c0, y) == c1, select(x, eval(c0 == c1), y == c1))` -/
def equal14 : Rule := ⟨(.bin .eq (.select (.wild 0) (.cst 0) (.wild 1)) (.cst 1)), [((.select (.wild 0) (.eval (.bin .eq (.cst 0) (.cst 1))) (.bin .eq (.wild 1) (.cst 1))), none)], .none⟩
/-- simplify_rules.h:624 `apply(select(x, y, c0) == c1, select(x, y == c1, eval(c0 == c1)))` -/
def equal15 : Rule := ⟨(.bin .eq (.select (.wild 0) (.wild 1) (.cst 0)) (.cst 1)), [((.select (.wild 0) (.bin .eq (.wild 1) (.cst 1)) (.eval (.bin .eq (.cst 0) (.cst 1)))), none)], .none⟩
/-- simplify_rules.h:625 `apply(y == select(x == y, x, z), x == y || y == z)` -/
def equal16 : Rule := ⟨(.bin .eq (.wild 1) (.select (.bin .eq (.wild 0) (.wild 1)) (.wild 0) (.wild 2))), [((.bin .or (.bin .eq (.wild 0) (.wild 1)) (.bin .eq (.wild 1) (.wild 2))), none)], .none⟩
/-- simplify_rules.h:626 `apply(y == select(x == y, z, x), x == y && y == z)` -/
def equal17 : Rule := ⟨(.bin .eq (.wild 1) (.select (.bin .eq (.wild 0) (.wild 1)) (.wild 2) (.wild 0))), [((.bin .and (.bin .eq (.wild 0) (.wild 1)) (.bin .eq (.wild 1) (.wild 2))), none)], .none⟩
/-- simplify_rules.h:627 `apply(y == select(x, y, z), select(x, true, y == z))` -/
def equal18 : Rule := ⟨(.bin .eq (.wild 1) (.select (.wild 0) (.wild 1) (.wild 2))), [((.select (.wild 0) (.lit 1) (.bin .eq (.wild 1) (.wild 2))), none)], .none⟩
/-- simplify_rules.h:628 `apply(z == select(x, y, z), select(x, z == y, true))` -/
def equal19 : Rule := ⟨(.bin .eq (.wild 2) (.select (.wild 0) (.wild 1) (.wild 2))), [((.select (.wild 0) (.bin .eq (.wild 2) (.wild 1)) (.lit 1)), none)], .none⟩
/-- simplify_rules.h:630 `apply(y == max(x, y), x <= y)` -/
def equal20 : Rule := ⟨(.bin .eq (.wild 1) (.bin .max (.wild 0) (.wild 1))), [((.bin .le (.wild 0) (.wild 1)), none)], .none⟩
/-- simplify_rules.h:631 `apply(y == min(x, y), y <= x)` -/
def equal21 : Rule := ⟨(.bin .eq (.wild 1) (.bin .min (.wild 0) (.wild 1))), [((.bin .le (.wild 1) (.wild 0)), none)], .none⟩
/-- simplify_rules.h:633 `apply(max(x, c0)/c1 == c2, x/c1 == c2, c1 > 0 && c0/c1 < c2, x < (c2 + 1)*c1, c1 > 0 && c0/c1 == c2, false, c1 > 0)` -/
def equal22 : Rule := ⟨(.bin .eq (.bin .div (.bin .max (.wild 0) (.cst 0)) (.cst 1)) (.cst 2)), [((.bin .eq (.bin .div (.wild 0) (.cst 1)) (.cst 2)), some (.bin .and (.bin .lt (.lit 0) (.cst 1)) (.bin .lt (.bin .div (.cst 0) (.cst 1)) (.cst 2)))), ((.bin .lt (.wild 0) (.bin .mul (.bin .add (.cst 2) (.lit 1)) (.cst 1))), some (.bin .and (.bin .lt (.lit 0) (.cst 1)) (.bin .eq (.bin .div (.cst 0) (.cst 1)) (.cst 2)))), ((.lit 0), some (.bin .lt (.lit 0) (.cst 1)))], .exact⟩
/-- simplify_rules.h:637 `apply(min(x, c0)/c1 == c2, x/c1 == c2, c1 > 0 && c0/c1 > c2, x >= c2*c1, c1 > 0 && c0/c1 == c2, false, c1 > 0)` -/
def equal23 : Rule := ⟨(.bin .eq (.bin .div (.bin .min (.wild 0) (.cst 0)) (.cst 1)) (.cst 2)), [((.bin .eq (.bin .div (.wild 0) (.cst 1)) (.cst 2)), some (.bin .and (.bin .lt (.lit 0) (.cst 1)) (.bin .lt (.cst 2) (.bin .div (.cst 0) (.cst 1))))), ((.bin .le (.bin .mul (.cst 2) (.cst 1)) (.wild 0)), some (.bin .and (.bin .lt (.lit 0) (.cst 1)) (.bin .eq (.bin .div (.cst 0) (.cst 1)) (.cst 2)))), ((.lit 0), some (.bin .lt (.lit 0) (.cst 1)))], .exact⟩
/-- simplify_rules.h:642 `apply(max(x, c0) == max(x, c1), x >= eval(max(c0, c1)), c0 != c1)` -/
def equal24 : Rule := ⟨(.bin .eq (.bin .max (.wild 0) (.cst 0)) (.bin .max (.wild 0) (.cst 1))), [((.bin .le (.eval (.bin .max (.cst 0) (.cst 1))) (.wild 0)), some (.bin .ne (.cst 0) (.cst 1)))], .none⟩
/-- simplify_rules.h:643 `apply(min(x, c0) == min(x, c1), x <= eval(min(c0, c1)), c0 != c1)` -/
def equal25 : Rule := ⟨(.bin .eq (.bin .min (.wild 0) (.cst 0)) (.bin .min (.wild 0) (.cst 1))), [((.bin .le (.wild 0) (.eval (.bin .min (.cst 0) (.cst 1)))), some (.bin .ne (.cst 0) (.cst 1)))], .none⟩
/-- simplify_rules.h:645 `apply(max(x, c0) == c1, false, c0 > c1, x == c1, c0 < c1)` -/
def equal26 : Rule := ⟨(.bin .eq (.bin .max (.wild 0) (.cst 0)) (.cst 1)), [((.lit 0), some (.bin .lt (.cst 1) (.cst 0))), ((.bin .eq (.wild 0) (.cst 1)), some (.bin .lt (.cst 0) (.cst 1)))], .none⟩
/-- simplify_rules.h:648 `apply(min(x, c0) == c1, false, c0 < c1, x == c1, c0 > c1)` -/
def equal27 : Rule := ⟨(.bin .eq (.bin .min (.wild 0) (.cst 0)) (.cst 1)), [((.lit 0), some (.bin .lt (.cst 0) (.cst 1))), ((.bin .eq (.wild 0) (.cst 1)), some (.bin .lt (.cst 1) (.cst 0)))], .none⟩

/-- simplify_rules.h:597 `apply_equal_rules` -/
def equalRules : List Rule := [equal0, equal1, equal2, equal3, equal4, equal5, equal6, equal7, equal8, equal9, equal10, equal11, equal12, equal13, equal14, equal15, equal16, equal17, equal18, equal19, equal20, equal21, equal22, equal23, equal24, equal25, equal26, equal27]

/-- simplify_rules.h:658 `apply(x && c0, boolean(x), c0 != 0, false)` -/
def and0 : Rule := ⟨(.bin .and (.wild 0) (.cst 0)), [((.boolean (.wild 0)), some (.bin .ne (.cst 0) (.lit 0))), ((.lit 0), none)], .none⟩
/-- simplify_rules.h:661 `apply(x && x, boolean(x))` -/
def and1 : Rule := ⟨(.bin .and (.wild 0) (.wild 0)), [((.boolean (.wild 0)), none)], .none⟩
/-- simplify_rules.h:664 `apply((x && y) && (z && w), x && (y && (z && w)))` -/
def and2 : Rule := ⟨(.bin .and (.bin .and (.wild 0) (.wild 1)) (.bin .and (.wild 2) (.wild 3))), [((.bin .and (.wild 0) (.bin .and (.wild 1) (.bin .and (.wild 2) (.wild 3)))), none)], .none⟩
/-- simplify_rules.h:665 `apply(x && (may_be<true>(y) && (may_be<true>(z) && (may_be<true>(w) && x))), x && (y && (z && w)))` -/
def and3 : Rule := ⟨(.bin .and (.wild 0) (.bin .and (.opt (.wild 1) 1) (.bin .and (.opt (.wild 2) 1) (.bin .and (.opt (.wild 3) 1) (.wild 0))))), [((.bin .and (.wild 0) (.bin .and (.wild 1) (.bin .and (.wild 2) (.wild 3)))), none)], .none⟩
/-- simplify_rules.h:667 `apply(x && (x || y), boolean(x))` -/
def and4 : Rule := ⟨(.bin .and (.wild 0) (.bin .or (.wild 0) (.wild 1))), [((.boolean (.wild 0)), none)], .none⟩
/-- simplify_rules.h:668 `apply(x && (y || (x && z)), x && (y || z))` -/
def and5 : Rule := ⟨(.bin .and (.wild 0) (.bin .or (.wild 1) (.bin .and (.wild 0) (.wild 2)))), [((.bin .and (.wild 0) (.bin .or (.wild 1) (.wild 2))), none)], .none⟩
/-- simplify_rules.h:669 `apply(x && (y && (x || z)), x && y)` -/
def and6 : Rule := ⟨(.bin .and (.wild 0) (.bin .and (.wild 1) (.bin .or (.wild 0) (.wild 2)))), [((.bin .and (.wild 0) (.wild 1)), none)], .none⟩
/-- simplify_rules.h:670 `apply((x || y) && (x || z), x || (y && z))` -/
def and7 : Rule := ⟨(.bin .and (.bin .or (.wild 0) (.wild 1)) (.bin .or (.wild 0) (.wild 2))), [((.bin .or (.wild 0) (.bin .and (.wild 1) (.wild 2))), none)], .none⟩
/-- simplify_rules.h:672 `apply(x && !x, false)` -/
def and8 : Rule := ⟨(.bin .and (.wild 0) (.not (.wild 0))), [((.lit 0), none)], .none⟩
/-- simplify_rules.h:673 `apply(x == y && x != y, false)` -/
def and9 : Rule := ⟨(.bin .and (.bin .eq (.wild 0) (.wild 1)) (.bin .ne (.wild 0) (.wild 1))), [((.lit 0), none)], .none⟩
/-- simplify_rules.h:674 `apply(x == y && x < y, false)` -/
def and10 : Rule := ⟨(.bin .and (.bin .eq (.wild 0) (.wild 1)) (.bin .lt (.wild 0) (.wild 1))), [((.lit 0), none)], .none⟩
/-- simplify_rules.h:675 `apply(x == y && x <= y, x == y)` -/
def and11 : Rule := ⟨(.bin .and (.bin .eq (.wild 0) (.wild 1)) (.bin .le (.wild 0) (.wild 1))), [((.bin .eq (.wild 0) (.wild 1)), none)], .none⟩
/-- simplify_rules.h:676 `apply(x == y && (z && x != y), false)` -/
def and12 : Rule := ⟨(.bin .and (.bin .eq (.wild 0) (.wild 1)) (.bin .and (.wild 2) (.bin .ne (.wild 0) (.wild 1)))), [((.lit 0), none)], .none⟩
/-- simplify_rules.h:677 `apply(x != y && x < y, x < y)` -/
def and13 : Rule := ⟨(.bin .and (.bin .ne (.wild 0) (.wild 1)) (.bin .lt (.wild 0) (.wild 1))), [((.bin .lt (.wild 0) (.wild 1)), none)], .none⟩
/-- simplify_rules.h:678 `apply(x != y && x <= y, x < y)` -/
def and14 : Rule := ⟨(.bin .and (.bin .ne (.wild 0) (.wild 1)) (.bin .le (.wild 0) (.wild 1))), [((.bin .lt (.wild 0) (.wild 1)), none)], .none⟩
/-- simplify_rules.h:679 `apply(x != y && (z && x == y), false)` -/
def and15 : Rule := ⟨(.bin .and (.bin .ne (.wild 0) (.wild 1)) (.bin .and (.wild 2) (.bin .eq (.wild 0) (.wild 1)))), [((.lit 0), none)], .none⟩
/-- simplify_rules.h:680 `apply(x == c1 && x != c0, x == c1, c0 != c1)` -/
def and16 : Rule := ⟨(.bin .and (.bin .eq (.wild 0) (.cst 1)) (.bin .ne (.wild 0) (.cst 0))), [((.bin .eq (.wild 0) (.cst 1)), some (.bin .ne (.cst 0) (.cst 1)))], .none⟩
/-- simplify_rules.h:681 `apply(x == c0 && x == c1, false, c0 != c1)` -/
def and17 : Rule := ⟨(.bin .and (.bin .eq (.wild 0) (.cst 0)) (.bin .eq (.wild 0) (.cst 1))), [((.lit 0), some (.bin .ne (.cst 0) (.cst 1)))], .none⟩
/-- simplify_rules.h:685 `apply(c0 <= x && x <= c1, false, c1 < c0)` -/
def and18 : Rule := ⟨(.bin .and (.bin .le (.cst 0) (.wild 0)) (.bin .le (.wild 0) (.cst 1))), [((.lit 0), some (.bin .lt (.cst 1) (.cst 0)))], .none⟩
/-- simplify_rules.h:686 `apply(c0 <= x && c1 <= x, eval(max(c0, c1)) <= x)` -/
def and19 : Rule := ⟨(.bin .and (.bin .le (.cst 0) (.wild 0)) (.bin .le (.cst 1) (.wild 0))), [((.bin .le (.eval (.bin .max (.cst 0) (.cst 1))) (.wild 0)), none)], .none⟩
/-- simplify_rules.h:687 `apply(c0 < x && x < c1, false, c1 <= c0 + 1)` -/
def and20 : Rule := ⟨(.bin .and (.bin .lt (.cst 0) (.wild 0)) (.bin .lt (.wild 0) (.cst 1))), [((.lit 0), some (.bin .le (.cst 1) (.bin .add (.cst 0) (.lit 1))))], .none⟩
/-- simplify_rules.h:688 `apply(c0 < x && x <= c1, false, c1 <= c0)` -/
def and21 : Rule := ⟨(.bin .and (.bin .lt (.cst 0) (.wild 0)) (.bin .le (.wild 0) (.cst 1))), [((.lit 0), some (.bin .le (.cst 1) (.cst 0)))], .none⟩
/-- simplify_rules.h:689 `apply(c0 < x && c1 < x, eval(max(c0, c1)) < x)` -/
def and22 : Rule := ⟨(.bin .and (.bin .lt (.cst 0) (.wild 0)) (.bin .lt (.cst 1) (.wild 0))), [((.bin .lt (.eval (.bin .max (.cst 0) (.cst 1))) (.wild 0)), none)], .none⟩
/-- simplify_rules.h:690 `apply(x < c1 && c0 <= x, false, c1 <= c0)` -/
def and23 : Rule := ⟨(.bin .and (.bin .lt (.wild 0) (.cst 1)) (.bin .le (.cst 0) (.wild 0))), [((.lit 0), some (.bin .le (.cst 1) (.cst 0)))], .none⟩
/-- simplify_rules.h:691 `apply(x < c0 && x < c1, x < eval(min(c0, c1)))` -/
def and24 : Rule := ⟨(.bin .and (.bin .lt (.wild 0) (.cst 0)) (.bin .lt (.wild 0) (.cst 1))), [((.bin .lt (.wild 0) (.eval (.bin .min (.cst 0) (.cst 1)))), none)], .none⟩
/-- simplify_rules.h:692 `apply(x <= c0 && x <= c1, x <= eval(min(c0, c1)))` -/
def and25 : Rule := ⟨(.bin .and (.bin .le (.wild 0) (.cst 0)) (.bin .le (.wild 0) (.cst 1))), [((.bin .le (.wild 0) (.eval (.bin .min (.cst 0) (.cst 1)))), none)], .none⟩
/-- simplify_rules.h:695 `apply(x <= y && y <= x, x == y)` -/
def and26 : Rule := ⟨(.bin .and (.bin .le (.wild 0) (.wild 1)) (.bin .le (.wild 1) (.wild 0))), [((.bin .eq (.wild 0) (.wild 1)), none)], .none⟩
/-- simplify_rules.h:696 `apply(x + may_be<0>(c0) <= y && y + may_be<0>(c1) <= x, false, -c1 < c0)` -/
def and27 : Rule := ⟨(.bin .and (.bin .le (.bin .add (.wild 0) (.opt (.cst 0) 0)) (.wild 1)) (.bin .le (.bin .add (.wild 1) (.opt (.cst 1) 0)) (.wild 0))), [((.lit 0), some (.bin .lt (.bin .sub (.lit 0) (.cst 1)) (.cst 0)))], .none⟩
/-- simplify_rules.h:697 `apply(x < y + may_be<0>(c0) && y + may_be<0>(c1) <= x, false, c0 < c1 + 1)` -/
def and28 : Rule := ⟨(.bin .and (.bin .lt (.wild 0) (.bin .add (.wild 1) (.opt (.cst 0) 0))) (.bin .le (.bin .add (.wild 1) (.opt (.cst 1) 0)) (.wild 0))), [((.lit 0), some (.bin .lt (.cst 0) (.bin .add (.cst 1) (.lit 1))))], .none⟩
/-- simplify_rules.h:698 `apply(x < y + may_be<0>(c0) && y < x + may_be<0>(c1), false, c1 + c0 < 2)` -/
def and29 : Rule := ⟨(.bin .and (.bin .lt (.wild 0) (.bin .add (.wild 1) (.opt (.cst 0) 0))) (.bin .lt (.wild 1) (.bin .add (.wild 0) (.opt (.cst 1) 0)))), [((.lit 0), some (.bin .lt (.bin .add (.cst 1) (.cst 0)) (.lit 2)))], .none⟩
/-- simplify_rules.h:701 `apply(x != c0 && x <= c1, x <= c1, c0 > c1)` -/
def and30 : Rule := ⟨(.bin .and (.bin .ne (.wild 0) (.cst 0)) (.bin .le (.wild 0) (.cst 1))), [((.bin .le (.wild 0) (.cst 1)), some (.bin .lt (.cst 1) (.cst 0)))], .none⟩
/-- simplify_rules.h:702 `apply(x != c0 && x < c1, x < c1, c0 > c1)` -/
def and31 : Rule := ⟨(.bin .and (.bin .ne (.wild 0) (.cst 0)) (.bin .lt (.wild 0) (.cst 1))), [((.bin .lt (.wild 0) (.cst 1)), some (.bin .lt (.cst 1) (.cst 0)))], .none⟩
/-- simplify_rules.h:703 `apply(x == c0 && x <= c1, x == c0, c0 <= c1, false )` -/
def and32 : Rule := ⟨(.bin .and (.bin .eq (.wild 0) (.cst 0)) (.bin .le (.wild 0) (.cst 1))), [((.bin .eq (.wild 0) (.cst 0)), some (.bin .le (.cst 0) (.cst 1))), ((.lit 0), none)], .none⟩
/-- simplify_rules.h:706 `apply(x == c0 && x < c1, x == c0, c0 < c1, false )` -/
def and33 : Rule := ⟨(.bin .and (.bin .eq (.wild 0) (.cst 0)) (.bin .lt (.wild 0) (.cst 1))), [((.bin .eq (.wild 0) (.cst 0)), some (.bin .lt (.cst 0) (.cst 1))), ((.lit 0), none)], .none⟩
/-- simplify_rules.h:710 `apply(x != c0 && c1 <= x, c1 <= x, c0 < c1)` -/
def and34 : Rule := ⟨(.bin .and (.bin .ne (.wild 0) (.cst 0)) (.bin .le (.cst 1) (.wild 0))), [((.bin .le (.cst 1) (.wild 0)), some (.bin .lt (.cst 0) (.cst 1)))], .none⟩
/-- simplify_rules.h:711 `apply(x != c0 && c1 < x, c1 < x, c0 < c1)` -/
def and35 : Rule := ⟨(.bin .and (.bin .ne (.wild 0) (.cst 0)) (.bin .lt (.cst 1) (.wild 0))), [((.bin .lt (.cst 1) (.wild 0)), some (.bin .lt (.cst 0) (.cst 1)))], .none⟩
/-- simplify_rules.h:712 `apply(x == c0 && c1 <= x, x == c0, c0 >= c1, false )` -/
def and36 : Rule := ⟨(.bin .and (.bin .eq (.wild 0) (.cst 0)) (.bin .le (.cst 1) (.wild 0))), [((.bin .eq (.wild 0) (.cst 0)), some (.bin .le (.cst 1) (.cst 0))), ((.lit 0), none)], .none⟩
/-- simplify_rules.h:715 `apply(x == c0 && c1 < x, x == c0, c0 > c1, false )` -/
def and37 : Rule := ⟨(.bin .and (.bin .eq (.wild 0) (.cst 0)) (.bin .lt (.cst 1) (.wild 0))), [((.bin .eq (.wild 0) (.cst 0)), some (.bin .lt (.cst 1) (.cst 0))), ((.lit 0), none)], .none⟩

/-- simplify_rules.h:656 `apply_logical_and_rules` -/
def andRules : List Rule := [and0, and1, and2, and3, and4, and5, and6, and7, and8, and9, and10, and11, and12, and13, and14, and15, and16, and17, and18, and19, and20, and21, and22, and23, and24, and25, and26, and27, and28, and29, and30, and31, and32, and33, and34, and35, and36, and37]

/-- simplify_rules.h:726 `apply(x || c0, boolean(x), c0 == 0, true)` -/
def or0 : Rule := ⟨(.bin .or (.wild 0) (.cst 0)), [((.boolean (.wild 0)), some (.bin .eq (.cst 0) (.lit 0))), ((.lit 1), none)], .none⟩
/-- simplify_rules.h:729 `apply(x || x, boolean(x))` -/
def or1 : Rule := ⟨(.bin .or (.wild 0) (.wild 0)), [((.boolean (.wild 0)), none)], .none⟩
/-- simplify_rules.h:732 `apply((x || y) || (z || w), x || (y || (z || w)))` -/
def or2 : Rule := ⟨(.bin .or (.bin .or (.wild 0) (.wild 1)) (.bin .or (.wild 2) (.wild 3))), [((.bin .or (.wild 0) (.bin .or (.wild 1) (.bin .or (.wild 2) (.wild 3)))), none)], .none⟩
/-- simplify_rules.h:733 `apply(x || (may_be<false>(y) || (may_be<false>(z) || (may_be<false>(w) || x))), x || (y || (z || w)))` -/
def or3 : Rule := ⟨(.bin .or (.wild 0) (.bin .or (.opt (.wild 1) 0) (.bin .or (.opt (.wild 2) 0) (.bin .or (.opt (.wild 3) 0) (.wild 0))))), [((.bin .or (.wild 0) (.bin .or (.wild 1) (.bin .or (.wild 2) (.wild 3)))), none)], .none⟩
/-- simplify_rules.h:735 `apply(x || (x && y), boolean(x))` -/
def or4 : Rule := ⟨(.bin .or (.wild 0) (.bin .and (.wild 0) (.wild 1))), [((.boolean (.wild 0)), none)], .none⟩
/-- simplify_rules.h:736 `apply(x || (y && (x || z)), x || (y && z))` -/
def or5 : Rule := ⟨(.bin .or (.wild 0) (.bin .and (.wild 1) (.bin .or (.wild 0) (.wild 2)))), [((.bin .or (.wild 0) (.bin .and (.wild 1) (.wild 2))), none)], .none⟩
/-- simplify_rules.h:737 `apply(x || (y || (x && z)), x || y)` -/
def or6 : Rule := ⟨(.bin .or (.wild 0) (.bin .or (.wild 1) (.bin .and (.wild 0) (.wild 2)))), [((.bin .or (.wild 0) (.wild 1)), none)], .none⟩
/-- simplify_rules.h:738 `apply((x && y) || (x && z), x && (y || z))` -/
def or7 : Rule := ⟨(.bin .or (.bin .and (.wild 0) (.wild 1)) (.bin .and (.wild 0) (.wild 2))), [((.bin .and (.wild 0) (.bin .or (.wild 1) (.wild 2))), none)], .none⟩
/-- simplify_rules.h:742 `apply(x || !x, true)` -/
def or8 : Rule := ⟨(.bin .or (.wild 0) (.not (.wild 0))), [((.lit 1), none)], .none⟩
/-- simplify_rules.h:743 `apply(x == y || x != y, true)` -/
def or9 : Rule := ⟨(.bin .or (.bin .eq (.wild 0) (.wild 1)) (.bin .ne (.wild 0) (.wild 1))), [((.lit 1), none)], .none⟩
/-- simplify_rules.h:744 `apply(x == y || x < y, x <= y)` -/
def or10 : Rule := ⟨(.bin .or (.bin .eq (.wild 0) (.wild 1)) (.bin .lt (.wild 0) (.wild 1))), [((.bin .le (.wild 0) (.wild 1)), none)], .none⟩
/-- simplify_rules.h:745 `apply(x == y || x <= y, x <= y)` -/
def or11 : Rule := ⟨(.bin .or (.bin .eq (.wild 0) (.wild 1)) (.bin .le (.wild 0) (.wild 1))), [((.bin .le (.wild 0) (.wild 1)), none)], .none⟩
/-- simplify_rules.h:746 `apply(x == y || (z || x != y), true)` -/
def or12 : Rule := ⟨(.bin .or (.bin .eq (.wild 0) (.wild 1)) (.bin .or (.wild 2) (.bin .ne (.wild 0) (.wild 1)))), [((.lit 1), none)], .none⟩
/-- simplify_rules.h:747 `apply(x != y || (z || x == y), true)` -/
def or13 : Rule := ⟨(.bin .or (.bin .ne (.wild 0) (.wild 1)) (.bin .or (.wild 2) (.bin .eq (.wild 0) (.wild 1)))), [((.lit 1), none)], .none⟩
/-- simplify_rules.h:748 `apply(x == c1 || x != c0, x != c0, c0 != c1)` -/
def or14 : Rule := ⟨(.bin .or (.bin .eq (.wild 0) (.cst 1)) (.bin .ne (.wild 0) (.cst 0))), [((.bin .ne (.wild 0) (.cst 0)), some (.bin .ne (.cst 0) (.cst 1)))], .none⟩
/-- simplify_rules.h:750 `apply(x <= c0 || c1 <= x, true, c1 <= c0 + 1)` -/
def or15 : Rule := ⟨(.bin .or (.bin .le (.wild 0) (.cst 0)) (.bin .le (.cst 1) (.wild 0))), [((.lit 1), some (.bin .le (.cst 1) (.bin .add (.cst 0) (.lit 1))))], .none⟩
/-- simplify_rules.h:751 `apply(x <= c0 || x <= c1, x <= eval(max(c0, c1)))` -/
def or16 : Rule := ⟨(.bin .or (.bin .le (.wild 0) (.cst 0)) (.bin .le (.wild 0) (.cst 1))), [((.bin .le (.wild 0) (.eval (.bin .max (.cst 0) (.cst 1)))), none)], .none⟩
/-- simplify_rules.h:752 `apply(x < c0 || x < c1, x < eval(max(c0, c1)))` -/
def or17 : Rule := ⟨(.bin .or (.bin .lt (.wild 0) (.cst 0)) (.bin .lt (.wild 0) (.cst 1))), [((.bin .lt (.wild 0) (.eval (.bin .max (.cst 0) (.cst 1)))), none)], .none⟩
/-- simplify_rules.h:753 `apply(x < c0 || c1 <= x, true, c1 <= c0)` -/
def or18 : Rule := ⟨(.bin .or (.bin .lt (.wild 0) (.cst 0)) (.bin .le (.cst 1) (.wild 0))), [((.lit 1), some (.bin .le (.cst 1) (.cst 0)))], .none⟩
/-- simplify_rules.h:754 `apply(x < c0 || c1 < x, true, c1 < c0)` -/
def or19 : Rule := ⟨(.bin .or (.bin .lt (.wild 0) (.cst 0)) (.bin .lt (.cst 1) (.wild 0))), [((.lit 1), some (.bin .lt (.cst 1) (.cst 0)))], .none⟩
/-- simplify_rules.h:755 `apply(c0 < x || c1 < x, eval(min(c0, c1)) < x)` -/
def or20 : Rule := ⟨(.bin .or (.bin .lt (.cst 0) (.wild 0)) (.bin .lt (.cst 1) (.wild 0))), [((.bin .lt (.eval (.bin .min (.cst 0) (.cst 1))) (.wild 0)), none)], .none⟩
/-- simplify_rules.h:756 `apply(c0 <= x || c1 <= x, eval(min(c0, c1)) <= x)` -/
def or21 : Rule := ⟨(.bin .or (.bin .le (.cst 0) (.wild 0)) (.bin .le (.cst 1) (.wild 0))), [((.bin .le (.eval (.bin .min (.cst 0) (.cst 1))) (.wild 0)), none)], .none⟩
/-- simplify_rules.h:757 `apply(c1 < x || x <= c0, true, c1 <= c0)` -/
def or22 : Rule := ⟨(.bin .or (.bin .lt (.cst 1) (.wild 0)) (.bin .le (.wild 0) (.cst 0))), [((.lit 1), some (.bin .le (.cst 1) (.cst 0)))], .none⟩
/-- simplify_rules.h:760 `apply(x + may_be<0>(c0) <= y || y + may_be<0>(c1) <= x, true, c0 + c1 < 1)` -/
def or23 : Rule := ⟨(.bin .or (.bin .le (.bin .add (.wild 0) (.opt (.cst 0) 0)) (.wild 1)) (.bin .le (.bin .add (.wild 1) (.opt (.cst 1) 0)) (.wild 0))), [((.lit 1), some (.bin .lt (.bin .add (.cst 0) (.cst 1)) (.lit 1)))], .none⟩
/-- simplify_rules.h:761 `apply(x < y + may_be<0>(c0) || y + may_be<0>(c1) <= x, true, c1 < c0)` -/
def or24 : Rule := ⟨(.bin .or (.bin .lt (.wild 0) (.bin .add (.wild 1) (.opt (.cst 0) 0))) (.bin .le (.bin .add (.wild 1) (.opt (.cst 1) 0)) (.wild 0))), [((.lit 1), some (.bin .lt (.cst 1) (.cst 0)))], .none⟩
/-- simplify_rules.h:762 `apply(x < y + may_be<0>(c0) || y < x + may_be<0>(c1), true, 1 < c1 + c0)` -/
def or25 : Rule := ⟨(.bin .or (.bin .lt (.wild 0) (.bin .add (.wild 1) (.opt (.cst 0) 0))) (.bin .lt (.wild 1) (.bin .add (.wild 0) (.opt (.cst 1) 0)))), [((.lit 1), some (.bin .lt (.lit 1) (.bin .add (.cst 1) (.cst 0))))], .none⟩
/-- simplify_rules.h:763 `apply(x < y || y < x, x != y)` -/
def or26 : Rule := ⟨(.bin .or (.bin .lt (.wild 0) (.wild 1)) (.bin .lt (.wild 1) (.wild 0))), [((.bin .ne (.wild 0) (.wild 1)), none)], .none⟩
/-- simplify_rules.h:766 `apply(x != c0 || x <= c1, true, c0 <= c1, x != c0 )` -/
def or27 : Rule := ⟨(.bin .or (.bin .ne (.wild 0) (.cst 0)) (.bin .le (.wild 0) (.cst 1))), [((.lit 1), some (.bin .le (.cst 0) (.cst 1))), ((.bin .ne (.wild 0) (.cst 0)), none)], .none⟩
/-- simplify_rules.h:769 `apply(x != c0 || x < c1, true, c0 < c1, x != c0 )` -/
def or28 : Rule := ⟨(.bin .or (.bin .ne (.wild 0) (.cst 0)) (.bin .lt (.wild 0) (.cst 1))), [((.lit 1), some (.bin .lt (.cst 0) (.cst 1))), ((.bin .ne (.wild 0) (.cst 0)), none)], .none⟩
/-- simplify_rules.h:772 `apply(x == c0 || x <= c1, x <= c1, c0 <= c1)` -/
def or29 : Rule := ⟨(.bin .or (.bin .eq (.wild 0) (.cst 0)) (.bin .le (.wild 0) (.cst 1))), [((.bin .le (.wild 0) (.cst 1)), some (.bin .le (.cst 0) (.cst 1)))], .none⟩
/-- simplify_rules.h:773 `apply(x == c0 || x < c1, x < c1, c0 < c1)` -/
def or30 : Rule := ⟨(.bin .or (.bin .eq (.wild 0) (.cst 0)) (.bin .lt (.wild 0) (.cst 1))), [((.bin .lt (.wild 0) (.cst 1)), some (.bin .lt (.cst 0) (.cst 1)))], .none⟩
/-- simplify_rules.h:775 `apply(x != c0 || c1 <= x, true, c0 >= c1, x != c0 )` -/
def or31 : Rule := ⟨(.bin .or (.bin .ne (.wild 0) (.cst 0)) (.bin .le (.cst 1) (.wild 0))), [((.lit 1), some (.bin .le (.cst 1) (.cst 0))), ((.bin .ne (.wild 0) (.cst 0)), none)], .none⟩
/-- simplify_rules.h:778 `apply(x != c0 || c1 < x, true, c0 > c1, x != c0 )` -/
def or32 : Rule := ⟨(.bin .or (.bin .ne (.wild 0) (.cst 0)) (.bin .lt (.cst 1) (.wild 0))), [((.lit 1), some (.bin .lt (.cst 1) (.cst 0))), ((.bin .ne (.wild 0) (.cst 0)), none)], .none⟩
/-- simplify_rules.h:781 `apply(x == c0 || c1 <= x, c1 <= x, c0 >= c1)` -/
def or33 : Rule := ⟨(.bin .or (.bin .eq (.wild 0) (.cst 0)) (.bin .le (.cst 1) (.wild 0))), [((.bin .le (.cst 1) (.wild 0)), some (.bin .le (.cst 1) (.cst 0)))], .none⟩
/-- simplify_rules.h:782 `apply(x == c0 || c1 < x, c1 < x, c0 > c1)` -/
def or34 : Rule := ⟨(.bin .or (.bin .eq (.wild 0) (.cst 0)) (.bin .lt (.cst 1) (.wild 0))), [((.bin .lt (.cst 1) (.wild 0)), some (.bin .lt (.cst 1) (.cst 0)))], .none⟩
/-- simplify_rules.h:786 `apply(y || x < y, y || x < 0, is_boolean(y))` -/
def or35 : Rule := ⟨(.bin .or (.wild 1) (.bin .lt (.wild 0) (.wild 1))), [((.bin .or (.wild 1) (.bin .lt (.wild 0) (.lit 0))), some (.pred .isBoolean 1))], .none⟩
/-- simplify_rules.h:787 `apply(y || y < x, y || 0 < x, is_boolean(y))` -/
def or36 : Rule := ⟨(.bin .or (.wild 1) (.bin .lt (.wild 1) (.wild 0))), [((.bin .or (.wild 1) (.bin .lt (.lit 0) (.wild 0))), some (.pred .isBoolean 1))], .none⟩

/-- simplify_rules.h:724 `apply_logical_or_rules` -/
def orRules : List Rule := [or0, or1, or2, or3, or4, or5, or6, or7, or8, or9, or10, or11, or12, or13, or14, or15, or16, or17, or18, or19, or20, or21, or22, or23, or24, or25, or26, or27, or28, or29, or30, or31, or32, or33, or34, or35, or36]

/-- simplify_rules.h:795 `apply(!!x, boolean(x))` -/
def not0 : Rule := ⟨(.not (.not (.wild 0))), [((.boolean (.wild 0)), none)], .none⟩
/-- simplify_rules.h:796 `apply(!(x == y), x != y)` -/
def not1 : Rule := ⟨(.not (.bin .eq (.wild 0) (.wild 1))), [((.bin .ne (.wild 0) (.wild 1)), none)], .none⟩
/-- simplify_rules.h:797 `apply(!(x != y), x == y)` -/
def not2 : Rule := ⟨(.not (.bin .ne (.wild 0) (.wild 1))), [((.bin .eq (.wild 0) (.wild 1)), none)], .none⟩
/-- simplify_rules.h:798 `apply(!(x < y), y <= x)` -/
def not3 : Rule := ⟨(.not (.bin .lt (.wild 0) (.wild 1))), [((.bin .le (.wild 1) (.wild 0)), none)], .none⟩
/-- simplify_rules.h:799 `apply(!(x <= y), y < x)` -/
def not4 : Rule := ⟨(.not (.bin .le (.wild 0) (.wild 1))), [((.bin .lt (.wild 1) (.wild 0)), none)], .none⟩
/-- simplify_rules.h:801 `apply(!(x && !y), y || !x)` -/
def not5 : Rule := ⟨(.not (.bin .and (.wild 0) (.not (.wild 1)))), [((.bin .or (.wild 1) (.not (.wild 0))), none)], .none⟩
/-- simplify_rules.h:802 `apply(!(x || !y), y && !x)` -/
def not6 : Rule := ⟨(.not (.bin .or (.wild 0) (.not (.wild 1)))), [((.bin .and (.wild 1) (.not (.wild 0))), none)], .none⟩
/-- simplify_rules.h:803 `apply(!select(x, y, c0), select(x, !y, eval(!c0)))` -/
def not7 : Rule := ⟨(.not (.select (.wild 0) (.wild 1) (.cst 0))), [((.select (.wild 0) (.not (.wild 1)) (.eval (.not (.cst 0)))), none)], .none⟩
/-- simplify_rules.h:804 `apply(!select(x, c0, z), select(x, eval(!c0), !z))` -/
def not8 : Rule := ⟨(.not (.select (.wild 0) (.cst 0) (.wild 2))), [((.select (.wild 0) (.eval (.not (.cst 0))) (.not (.wild 2))), none)], .none⟩

/-- simplify_rules.h:793 `apply_logical_not_rules` -/
def notRules : List Rule := [not0, not1, not2, not3, not4, not5, not6, not7, not8]

/-- simplify_rules.h:811 `apply(select(x, y, y), y)` -/
def select0 : Rule := ⟨(.select (.wild 0) (.wild 1) (.wild 1)), [((.wild 1), none)], .none⟩
/-- simplify_rules.h:812 `apply(select(!x, y, z), select(x, z, y))` -/
def select1 : Rule := ⟨(.select (.not (.wild 0)) (.wild 1) (.wild 2)), [((.select (.wild 0) (.wild 2) (.wild 1)), none)], .none⟩
/-- simplify_rules.h:815 `apply(select(x, y + may_be<0>(z), y + may_be<0>(w)), y + select(x, z, w))` -/
def select2 : Rule := ⟨(.select (.wild 0) (.bin .add (.wild 1) (.opt (.wild 2) 0)) (.bin .add (.wild 1) (.opt (.wild 3) 0))), [((.bin .add (.wild 1) (.select (.wild 0) (.wild 2) (.wild 3))), none)], .none⟩
/-- simplify_rules.h:816 `apply(select(x, z - y, w - y), select(x, z, w) - y)` -/
def select3 : Rule := ⟨(.select (.wild 0) (.bin .sub (.wild 2) (.wild 1)) (.bin .sub (.wild 3) (.wild 1))), [((.bin .sub (.select (.wild 0) (.wild 2) (.wild 3)) (.wild 1)), none)], .none⟩
/-- simplify_rules.h:817 `apply(select(x, w - y, w - z), w - select(x, y, z))` -/
def select4 : Rule := ⟨(.select (.wild 0) (.bin .sub (.wild 3) (.wild 1)) (.bin .sub (.wild 3) (.wild 2))), [((.bin .sub (.wild 3) (.select (.wild 0) (.wild 1) (.wild 2))), none)], .none⟩
/-- simplify_rules.h:818 `apply(select(x, max(y, w), max(z, w)), max(w, select(x, y, z)))` -/
def select5 : Rule := ⟨(.select (.wild 0) (.bin .max (.wild 1) (.wild 3)) (.bin .max (.wild 2) (.wild 3))), [((.bin .max (.wild 3) (.select (.wild 0) (.wild 1) (.wild 2))), none)], .none⟩
/-- simplify_rules.h:819 `apply(select(x, min(y, w), min(z, w)), min(w, select(x, y, z)))` -/
def select6 : Rule := ⟨(.select (.wild 0) (.bin .min (.wild 1) (.wild 3)) (.bin .min (.wild 2) (.wild 3))), [((.bin .min (.wild 3) (.select (.wild 0) (.wild 1) (.wild 2))), none)], .none⟩
/-- simplify_rules.h:820 `apply(select(x, y + c0, c1), select(x, y, eval(c1 - c0)) + c0)` -/
def select7 : Rule := ⟨(.select (.wild 0) (.bin .add (.wild 1) (.cst 0)) (.cst 1)), [((.bin .add (.select (.wild 0) (.wild 1) (.eval (.bin .sub (.cst 1) (.cst 0)))) (.cst 0)), none)], .none⟩
/-- simplify_rules.h:821 `apply(select(x, c0, y + c1), select(x, eval(c0 - c1), y) + c1)` -/
def select8 : Rule := ⟨(.select (.wild 0) (.cst 0) (.bin .add (.wild 1) (.cst 1))), [((.bin .add (.select (.wild 0) (.eval (.bin .sub (.cst 0) (.cst 1))) (.wild 1)) (.cst 1)), none)], .none⟩
/-- simplify_rules.h:823 `apply(select(x, select(y, z, w), select(y, u, w + may_be<0>(c0)) + may_be<0>(c1)), select(y, select(x, z, u + c1), w), c0 + c1 == 0)` -/
def select9 : Rule := ⟨(.select (.wild 0) (.select (.wild 1) (.wild 2) (.wild 3)) (.bin .add (.select (.wild 1) (.wild 4) (.bin .add (.wild 3) (.opt (.cst 0) 0))) (.opt (.cst 1) 0))), [((.select (.wild 1) (.select (.wild 0) (.wild 2) (.bin .add (.wild 4) (.cst 1))) (.wild 3)), some (.bin .eq (.bin .add (.cst 0) (.cst 1)) (.lit 0)))], .none⟩
/-- simplify_rules.h:824 `apply(select(x, select(y, z, w), select(y, z + may_be<0>(c0), u) + may_be<0>(c1)), select(y, z, select(x, w, u + c1)), c0 + c1 == 0)` -/
def select10 : Rule := ⟨(.select (.wild 0) (.select (.wild 1) (.wild 2) (.wild 3)) (.bin .add (.select (.wild 1) (.bin .add (.wild 2) (.opt (.cst 0) 0)) (.wild 4)) (.opt (.cst 1) 0))), [((.select (.wild 1) (.wild 2) (.select (.wild 0) (.wild 3) (.bin .add (.wild 4) (.cst 1)))), some (.bin .eq (.bin .add (.cst 0) (.cst 1)) (.lit 0)))], .none⟩
/-- simplify_rules.h:825 `apply(select(x, select(y, z, w + may_be<0>(c0)) + may_be<0>(c1), select(y, u, w)), select(y, select(x, z + c1, u), w), c0 + c1 == 0)` -/
def select11 : Rule := ⟨(.select (.wild 0) (.bin .add (.select (.wild 1) (.wild 2) (.bin .add (.wild 3) (.opt (.cst 0) 0))) (.opt (.cst 1) 0)) (.select (.wild 1) (.wild 4) (.wild 3))), [((.select (.wild 1) (.select (.wild 0) (.bin .add (.wild 2) (.cst 1)) (.wild 4)) (.wild 3)), some (.bin .eq (.bin .add (.cst 0) (.cst 1)) (.lit 0)))], .none⟩
/-- simplify_rules.h:826 `apply(select(x, select(y, z + may_be<0>(c0), w) + may_be<0>(c1), select(y, z, u)), select(y, z, select(x, w + c1, u)), c0 + c1 == 0)` -/
def select12 : Rule := ⟨(.select (.wild 0) (.bin .add (.select (.wild 1) (.bin .add (.wild 2) (.opt (.cst 0) 0)) (.wild 3)) (.opt (.cst 1) 0)) (.select (.wild 1) (.wild 2) (.wild 4))), [((.select (.wild 1) (.wild 2) (.select (.wild 0) (.bin .add (.wild 3) (.cst 1)) (.wild 4))), some (.bin .eq (.bin .add (.cst 0) (.cst 1)) (.lit 0)))], .none⟩
/-- simplify_rules.h:827 `apply(select(x, select(y, z, w), w), select(x && y, z, w))` -/
def select13 : Rule := ⟨(.select (.wild 0) (.select (.wild 1) (.wild 2) (.wild 3)) (.wild 3)), [((.select (.bin .and (.wild 0) (.wild 1)) (.wild 2) (.wild 3)), none)], .none⟩
/-- simplify_rules.h:828 `apply(select(x, select(y, z, w), z), select(x && !y, w, z))` -/
def select14 : Rule := ⟨(.select (.wild 0) (.select (.wild 1) (.wild 2) (.wild 3)) (.wild 2)), [((.select (.bin .and (.wild 0) (.not (.wild 1))) (.wild 3) (.wild 2)), none)], .none⟩
/-- simplify_rules.h:829 `apply(select(x, z, select(y, z, w)), select(x || y, z, w))` -/
def select15 : Rule := ⟨(.select (.wild 0) (.wild 2) (.select (.wild 1) (.wild 2) (.wild 3))), [((.select (.bin .or (.wild 0) (.wild 1)) (.wild 2) (.wild 3)), none)], .none⟩
/-- simplify_rules.h:830 `apply(select(x, w, select(y, z, w)), select(y && !x, z, w))` -/
def select16 : Rule := ⟨(.select (.wild 0) (.wild 3) (.select (.wild 1) (.wild 2) (.wild 3))), [((.select (.bin .and (.wild 1) (.not (.wild 0))) (.wild 2) (.wild 3)), none)], .none⟩
/-- simplify_rules.h:831 `apply(select(x, false, true), !x)` -/
def select17 : Rule := ⟨(.select (.wild 0) (.lit 0) (.lit 1)), [((.not (.wild 0)), none)], .none⟩
/-- simplify_rules.h:832 `apply(select(x, true, false), boolean(x))` -/
def select18 : Rule := ⟨(.select (.wild 0) (.lit 1) (.lit 0)), [((.boolean (.wild 0)), none)], .none⟩
/-- simplify_rules.h:833 `apply(select(x, y, true), y || !x, is_boolean(y))` -/
def select19 : Rule := ⟨(.select (.wild 0) (.wild 1) (.lit 1)), [((.bin .or (.wild 1) (.not (.wild 0))), some (.pred .isBoolean 1))], .none⟩
/-- simplify_rules.h:834 `apply(select(x, y, false), x && y, is_boolean(y))` -/
def select20 : Rule := ⟨(.select (.wild 0) (.wild 1) (.lit 0)), [((.bin .and (.wild 0) (.wild 1)), some (.pred .isBoolean 1))], .none⟩
/-- simplify_rules.h:835 `apply(select(x, true, y), x || y, is_boolean(y))` -/
def select21 : Rule := ⟨(.select (.wild 0) (.lit 1) (.wild 1)), [((.bin .or (.wild 0) (.wild 1)), some (.pred .isBoolean 1))], .none⟩
/-- simplify_rules.h:836 `apply(select(x, false, y), y && !x, is_boolean(y))` -/
def select22 : Rule := ⟨(.select (.wild 0) (.lit 0) (.wild 1)), [((.bin .and (.wild 1) (.not (.wild 0))), some (.pred .isBoolean 1))], .none⟩
/-- simplify_rules.h:839 `apply(select(x < y, min(x, y), z), select(x < y, x, z))` -/
def select23 : Rule := ⟨(.select (.bin .lt (.wild 0) (.wild 1)) (.bin .min (.wild 0) (.wild 1)) (.wild 2)), [((.select (.bin .lt (.wild 0) (.wild 1)) (.wild 0) (.wild 2)), none)], .none⟩
/-- simplify_rules.h:840 `apply(select(x < y, max(x, y), z), select(x < y, y, z))` -/
def select24 : Rule := ⟨(.select (.bin .lt (.wild 0) (.wild 1)) (.bin .max (.wild 0) (.wild 1)) (.wild 2)), [((.select (.bin .lt (.wild 0) (.wild 1)) (.wild 1) (.wild 2)), none)], .none⟩
/-- simplify_rules.h:841 `apply(select(x < y, z, min(x, y)), select(x < y, z, y))` -/
def select25 : Rule := ⟨(.select (.bin .lt (.wild 0) (.wild 1)) (.wild 2) (.bin .min (.wild 0) (.wild 1))), [((.select (.bin .lt (.wild 0) (.wild 1)) (.wild 2) (.wild 1)), none)], .none⟩
/-- simplify_rules.h:842 `apply(select(x < y, z, max(x, y)), select(x < y, z, x))` -/
def select26 : Rule := ⟨(.select (.bin .lt (.wild 0) (.wild 1)) (.wild 2) (.bin .max (.wild 0) (.wild 1))), [((.select (.bin .lt (.wild 0) (.wild 1)) (.wild 2) (.wild 0)), none)], .none⟩
/-- simplify_rules.h:843 `apply(select(x <= y, min(x, y), z), select(x <= y, x, z))` -/
def select27 : Rule := ⟨(.select (.bin .le (.wild 0) (.wild 1)) (.bin .min (.wild 0) (.wild 1)) (.wild 2)), [((.select (.bin .le (.wild 0) (.wild 1)) (.wild 0) (.wild 2)), none)], .none⟩
/-- simplify_rules.h:844 `apply(select(x <= y, max(x, y), z), select(x <= y, y, z))` -/
def select28 : Rule := ⟨(.select (.bin .le (.wild 0) (.wild 1)) (.bin .max (.wild 0) (.wild 1)) (.wild 2)), [((.select (.bin .le (.wild 0) (.wild 1)) (.wild 1) (.wild 2)), none)], .none⟩
/-- simplify_rules.h:845 `apply(select(x <= y, z, min(x, y)), select(x <= y, z, y))` -/
def select29 : Rule := ⟨(.select (.bin .le (.wild 0) (.wild 1)) (.wild 2) (.bin .min (.wild 0) (.wild 1))), [((.select (.bin .le (.wild 0) (.wild 1)) (.wild 2) (.wild 1)), none)], .none⟩
/-- simplify_rules.h:846 `apply(select(x <= y, z, max(x, y)), select(x <= y, z, x))` -/
def select30 : Rule := ⟨(.select (.bin .le (.wild 0) (.wild 1)) (.wild 2) (.bin .max (.wild 0) (.wild 1))), [((.select (.bin .le (.wild 0) (.wild 1)) (.wild 2) (.wild 0)), none)], .none⟩
/-- simplify_rules.h:849 `apply(select(x <= y, x, y), min(x, y))` -/
def select31 : Rule := ⟨(.select (.bin .le (.wild 0) (.wild 1)) (.wild 0) (.wild 1)), [((.bin .min (.wild 0) (.wild 1)), none)], .none⟩
/-- simplify_rules.h:850 `apply(select(x <= y, y, x), max(x, y))` -/
def select32 : Rule := ⟨(.select (.bin .le (.wild 0) (.wild 1)) (.wild 1) (.wild 0)), [((.bin .max (.wild 0) (.wild 1)), none)], .none⟩
/-- simplify_rules.h:851 `apply(select(x < y, x, y), min(x, y))` -/
def select33 : Rule := ⟨(.select (.bin .lt (.wild 0) (.wild 1)) (.wild 0) (.wild 1)), [((.bin .min (.wild 0) (.wild 1)), none)], .none⟩
/-- simplify_rules.h:852 `apply(select(x < y, y, x), max(x, y))` -/
def select34 : Rule := ⟨(.select (.bin .lt (.wild 0) (.wild 1)) (.wild 1) (.wild 0)), [((.bin .max (.wild 0) (.wild 1)), none)], .none⟩
/-- simplify_rules.h:853 `apply(select(x < c0, c1, x), max(x, c1), c0 == c1 + 1)` -/
def select35 : Rule := ⟨(.select (.bin .lt (.wild 0) (.cst 0)) (.cst 1) (.wild 0)), [((.bin .max (.wild 0) (.cst 1)), some (.bin .eq (.cst 0) (.bin .add (.cst 1) (.lit 1))))], .none⟩
/-- simplify_rules.h:854 `apply(select(x < c0, x, c1), min(x, c1), c0 == c1 + 1)` -/
def select36 : Rule := ⟨(.select (.bin .lt (.wild 0) (.cst 0)) (.wild 0) (.cst 1)), [((.bin .min (.wild 0) (.cst 1)), some (.bin .eq (.cst 0) (.bin .add (.cst 1) (.lit 1))))], .none⟩
/-- simplify_rules.h:855 `apply(select(c0 < x, x, c1), max(x, c1), c0 + 1 == c1)` -/
def select37 : Rule := ⟨(.select (.bin .lt (.cst 0) (.wild 0)) (.wild 0) (.cst 1)), [((.bin .max (.wild 0) (.cst 1)), some (.bin .eq (.bin .add (.cst 0) (.lit 1)) (.cst 1)))], .none⟩
/-- simplify_rules.h:856 `apply(select(c0 < x, c1, x), min(x, c1), c0 + 1 == c1)` -/
def select38 : Rule := ⟨(.select (.bin .lt (.cst 0) (.wild 0)) (.cst 1) (.wild 0)), [((.bin .min (.wild 0) (.cst 1)), some (.bin .eq (.bin .add (.cst 0) (.lit 1)) (.cst 1)))], .none⟩

/-- simplify_rules.h:809 `apply_select_rules` -/
def selectRules : List Rule := [select0, select1, select2, select3, select4, select5, select6, select7, select8, select9, select10, select11, select12, select13, select14, select15, select16, select17, select18, select19, select20, select21, select22, select23, select24, select25, select26, select27, select28, select29, select30, select31, select32, select33, select34, select35, select36, select37, select38]

/-- simplify_rules.h:864 `apply(and_then(x, c0), boolean(x), c0 != 0)` -/
def call0 : Rule := ⟨(.call2 .andThen (.wild 0) (.cst 0)), [((.boolean (.wild 0)), some (.bin .ne (.cst 0) (.lit 0)))], .none⟩
/-- simplify_rules.h:865 `apply(and_then(c0, x), boolean(x), c0 != 0)` -/
def call1 : Rule := ⟨(.call2 .andThen (.cst 0) (.wild 0)), [((.boolean (.wild 0)), some (.bin .ne (.cst 0) (.lit 0)))], .none⟩
/-- simplify_rules.h:866 `apply(and_then(false, x), false)` -/
def call2 : Rule := ⟨(.call2 .andThen (.lit 0) (.wild 0)), [((.lit 0), none)], .none⟩
/-- simplify_rules.h:867 `apply(or_else(x, false), boolean(x))` -/
def call3 : Rule := ⟨(.call2 .orElse (.wild 0) (.lit 0)), [((.boolean (.wild 0)), none)], .none⟩
/-- simplify_rules.h:868 `apply(or_else(c0, x), true, c0 != 0)` -/
def call4 : Rule := ⟨(.call2 .orElse (.cst 0) (.wild 0)), [((.lit 1), some (.bin .ne (.cst 0) (.lit 0)))], .none⟩
/-- simplify_rules.h:869 `apply(or_else(false, x), boolean(x))` -/
def call5 : Rule := ⟨(.call2 .orElse (.lit 0) (.wild 0)), [((.boolean (.wild 0)), none)], .none⟩
/-- simplify_rules.h:871 `apply(abs(x*c0), abs(x)*c0, c0 > 0)` -/
def call6 : Rule := ⟨(.call1 .abs (.bin .mul (.wild 0) (.cst 0))), [((.bin .mul (.call1 .abs (.wild 0)) (.cst 0)), some (.bin .lt (.lit 0) (.cst 0)))], .none⟩
/-- simplify_rules.h:872 `apply(abs(x*c0), abs(x)*eval(-c0), c0 < 0)` -/
def call7 : Rule := ⟨(.call1 .abs (.bin .mul (.wild 0) (.cst 0))), [((.bin .mul (.call1 .abs (.wild 0)) (.eval (.bin .sub (.lit 0) (.cst 0)))), some (.bin .lt (.cst 0) (.lit 0)))], .none⟩
/-- simplify_rules.h:873 `apply(abs(c0 - x), abs(x + eval(-c0)))` -/
def call8 : Rule := ⟨(.call1 .abs (.bin .sub (.cst 0) (.wild 0))), [((.call1 .abs (.bin .add (.wild 0) (.eval (.bin .sub (.lit 0) (.cst 0))))), none)], .none⟩
/-- simplify_rules.h:875 `apply(abs(select(x, y, c1)), select(x, abs(y), abs(c1)))` -/
def call9 : Rule := ⟨(.call1 .abs (.select (.wild 0) (.wild 1) (.cst 1))), [((.select (.wild 0) (.call1 .abs (.wild 1)) (.call1 .abs (.cst 1))), none)], .none⟩
/-- simplify_rules.h:876 `apply(abs(select(x, c0, y)), select(x, abs(c0), abs(y)))` -/
def call10 : Rule := ⟨(.call1 .abs (.select (.wild 0) (.cst 0) (.wild 1))), [((.select (.wild 0) (.call1 .abs (.cst 0)) (.call1 .abs (.wild 1))), none)], .none⟩

/-- simplify_rules.h:862 `apply_call_rules` -/
def callRules : List Rule := [call0, call1, call2, call3, call4, call5, call6, call7, call8, call9, call10]

end Slinky.Rules
