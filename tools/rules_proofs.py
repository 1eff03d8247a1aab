#!/usr/bin/env python3
"""Write the proof modules of the rule tables. usage: rules_proofs.py simplify_rules.h OUTDIR [overrides.py]"""
import sys, os
sys.path.insert(0, os.path.dirname(os.path.abspath(__file__)))
import rules2lean as R
from rules_overrides import OV, DYN

def preds(pat, alts):
    s = set()
    for r, p in alts:
        for q in (list(R.walk(p)) if p else []):
            if q[0] == 'pred': s.add((q[1], q[2]))
    return sorted(s)
FIELD = {'isBoolean': 'bool', 'isZero': 'zero', 'isNonNegative': 'nonneg', 'isNonPositive': 'nonpos'}

def main():
    tables = R.parse_file(sys.argv[1]); out = sys.argv[2]
    for name, line, rules in tables:
        nm = R.NAMES[name]
        M = nm.capitalize()
        L = ["import Verif.RuleTac", "import Verif.RuleLemmas", "", "/-!", f"# The rules of `apply_{name}_rules` are identities (C12)",
             "Generated by tools/rules_proofs.py (statements) with proofs from tools/rules_overrides.py.", "-/", "",
             "namespace Slinky.Rules", "open Slinky", ""]
        ths = []
        for k, (ln, src, pat, alts, sd) in enumerate(rules):
            rn = f"{nm}{k}"; ths.append(f"{rn}_sound")
            L.append(f"theorem {rn}_sound : RuleSound {rn} := by")
            if any(q[0]=='call0' for q in R.walk(pat)):
                L.append("  exact Or.inl rfl")
            else:
                H = []
                for i, (kd, w) in enumerate(preds(pat, alts)):
                    if kd in FIELD: H.append(f"  have hp{i} := hπ.{FIELD[kd]} {w}")
                if rn in DYN:
                    L.append("  refine Or.inr fun σ κ π hπ hs => ?_"); L += H
                    L.append(f"  rule_simp_dyn {rn}")
                else:
                    L.append("  refine Or.inr fun σ κ π hπ hs => AltsStatic.sound ?_"); L += H
                    L.append(f"  rule_simp {rn}")
                for l in OV.get(rn, "rule_auto").strip('\n').split('\n'): L.append("  " + l)
            L.append("")
        L.append(f"/-- C12: every rule of `apply_{name}_rules` is an identity. -/")
        L.append(f"theorem {nm}Rules_sound : ∀ r ∈ {nm}Rules, RuleSound r := by")
        L.append(f"  simp only [{nm}Rules, List.forall_mem_cons, List.not_mem_nil, false_implies, implies_true, and_true]")
        L.append(f"  exact ⟨{', '.join(ths)}⟩")
        L.append("")
        L.append("end Slinky.Rules")
        open(f"{out}/Rules{M}Props.lean", 'w').write('\n'.join(L) + '\n')
if __name__ == '__main__': main()
