#!/usr/bin/env python3
"""Translate the rule tables of slinky/builder/simplify_rules.h to Lean data.

usage: rules2lean.py /repo/slinky/builder/simplify_rules.h OUTDIR

Writes OUTDIR/Rules.lean (the tables). The proofs are in the hand-written modules Rules*Props.lean, except for the lines
marked as generated there (see rules_proofs.py).
"""
import re, sys

TOK = re.compile(r"""\s*(?:
  (?P<num>\d+) |
  (?P<lim>std::numeric_limits<index_t>::(?:max|min)\(\)) |
  (?P<inf>rewrite::(?:positive|negative)_infinity\(\)) |
  (?P<maybe>may_be<(?:-?\d+|true|false)>) |
  (?P<id>[A-Za-z_][A-Za-z_0-9]*) |
  (?P<op>\|\||&&|==|!=|<=|>=|[-+*/%<>!(),])
)""", re.X)

def tokenize(s):
    out = []; i = 0
    s = s.rstrip()
    while i < len(s):
        m = TOK.match(s, i)
        if not m: raise Exception("bad token at: " + s[i:i+40])
        k = m.lastgroup; out.append((k, m.group(k))); i = m.end()
    return out

WILD = {n: i for i, n in enumerate("xyzwuvt")}
PREC = {'||': 1, '&&': 2, '==': 3, '!=': 3, '<': 4, '<=': 4, '>': 4, '>=': 4, '+': 5, '-': 5, '*': 6, '/': 6, '%': 6}
OPS = {'+': 'add', '-': 'sub', '*': 'mul', '/': 'div', '%': 'mod', '==': 'eq', '!=': 'ne', '<': 'lt', '<=': 'le',
       '&&': 'and', '||': 'or'}
PRED = {'is_finite': 'isFinite', 'is_constant': 'isConstant', 'is_zero': 'isZero', 'is_non_negative': 'isNonNegative',
        'is_non_positive': 'isNonPositive', 'is_boolean': 'isBoolean'}

class P:
    def __init__(self, toks): self.t = toks; self.i = 0
    def peek(self): return self.t[self.i] if self.i < len(self.t) else (None, None)
    def next(self): r = self.peek(); self.i += 1; return r
    def expect(self, v):
        r = self.next()
        if r[1] != v: raise Exception(f"expected {v} got {r}")
    def args(self):
        self.expect('(')
        a = []
        if self.peek()[1] == ')': self.next(); return a
        while True:
            a.append(self.expr(0))
            r = self.next()[1]
            if r == ')': return a
            if r != ',': raise Exception("expected , or )")
    def expr(self, prec):
        a = self.unary()
        while True:
            k, v = self.peek()
            if k == 'op' and v in PREC and PREC[v] > prec:
                self.next()
                b = self.expr(PREC[v])
                if v == '>': a = ('bin', 'lt', b, a)
                elif v == '>=': a = ('bin', 'le', b, a)
                else: a = ('bin', OPS[v], a, b)
            else: return a
    def unary(self):
        k, v = self.peek()
        if k == 'op' and v == '-':
            self.next()
            if self.peek()[0] == 'num': return ('lit', -int(self.next()[1]))
            return ('bin', 'sub', ('lit', 0), self.unary())
        if k == 'op' and v == '!':
            self.next(); return ('not', self.unary())
        return self.atom()
    def atom(self):
        k, v = self.next()
        if k == 'num': return ('lit', int(v))
        if k == 'lim': return ('lit', 'i64max' if 'max' in v else 'i64min')
        if k == 'inf': return ('call0', 'posInf' if 'positive' in v else 'negInf')
        if k == 'maybe':
            d = v[7:-1]; d = {'true': 1, 'false': 0}.get(d, d)
            (a,) = self.args(); return ('opt', a, int(d))
        if k == 'op' and v == '(':
            e = self.expr(0); self.expect(')'); return e
        if k == 'id':
            if v in WILD: return ('wild', WILD[v])
            if re.fullmatch(r'c[0-6]', v): return ('cst', int(v[1]))
            if v in ('true', 'false'): return ('lit', int(v == 'true'))
            a = self.args()
            if v in ('min', 'max'): return ('bin', v, *a)
            if v == 'select': return ('select', *a)
            if v == 'abs': return ('call1', 'abs', *a)
            if v == 'and_then': return ('call2', 'andThen', *a)
            if v == 'or_else': return ('call2', 'orElse', *a)
            if v == 'staircase': return ('stair', *a)
            if v == 'eval': return ('eval', *a)
            if v == 'boolean': return ('boolean', *a)
            if v == 'staircase_sum_min': return ('stairMin', *a)
            if v == 'staircase_sum_max': return ('stairMax', *a)
            if v in PRED:
                assert a[0][0] == 'wild'; return ('pred', PRED[v], a[0][1])
        raise Exception(f"bad atom {k} {v}")

def lean(p):
    k = p[0]
    if k in ('wild', 'cst'): return f"(.{k} {p[1]})"
    if k == 'lit':
        c = p[1]
        return f"(.lit {c})" if isinstance(c, str) or c >= 0 else f"(.lit ({c}))"
    if k == 'opt': return f"(.opt {lean(p[1])} {p[2]})"
    if k == 'bin': return f"(.bin .{p[1]} {lean(p[2])} {lean(p[3])})"
    if k == 'call0': return f"(.call0 .{p[1]})"
    if k in ('call1', 'call2'): return f"(.{k} .{p[1]} {' '.join(map(lean, p[2:]))})"
    if k == 'pred': return f"(.pred .{p[1]} {p[2]})"
    return f"(.{k} {' '.join(map(lean, p[1:]))})"

def walk(p):
    yield p
    for q in p[1:]:
        if isinstance(q, tuple): yield from walk(q)

# Rules with a side condition beyond the predicates in the C++ (see Side.Holds): found automatically except for `exact`.
EXACT = {"min(x, min(y, x + may_be<0>(c0)) + may_be<0>(c1))", "max(x, max(y, x + may_be<0>(c0)) + may_be<0>(c1))",
         "max(x, c0)/c1 == c2", "min(x, c0)/c1 == c2"}

def side(src, pat, alts):
    for r, pr in alts:
        for q in (list(walk(pr)) if pr else []):
            if q[0] in ('stairMin', 'stairMax'): return 'fit32'
    if any(q[0] == 'lit' and isinstance(q[1], str) for q in walk(pat)): return 'range'
    if src in EXACT: return 'exact'
    return 'none'

def split_args(s):
    out = []; d = 0; cur = ''
    for ch in s:
        if ch in '(': d += 1
        if ch in ')': d -= 1
        if ch == ',' and d == 0: out.append(cur.strip()); cur = ''
        else: cur += ch
    out.append(cur.strip())
    return out

def parse_file(path):
    lines = open(path).read().split('\n')
    tables = []  # (name, line, [(line, src, pat, alts, side)])
    i = 0; cur = None; buf = None
    for n, line in enumerate(lines, 1):
        line = re.sub(r'/\*.*?\*/', '', line)
        line = re.sub(r'//.*', '', line)
        m = re.match(r'bool apply_(\w+)_rules', line)
        if m: cur = (m.group(1), n, []); tables.append(cur); continue
        if cur is None: continue
        if buf is None:
            if re.match(r'\s*apply\(', line): buf = ''; start = n
            else: continue
        buf += ' ' + line.strip()
        if buf.count('(') == buf.count(')'):
            b = re.sub(r'\s*\|\|\s*$', '', buf.strip())
            assert b.startswith('apply(') and b.endswith(')'), b
            a = split_args(b[len('apply('):-1])
            parsed = []
            for s in a:
                p = P(tokenize(s)); e = p.expr(0); assert p.i == len(p.t), s; parsed.append(e)
            pat = parsed[0]; rest = parsed[1:]; alts = []
            while rest:
                if len(rest) == 1: alts.append((rest[0], None)); rest = []
                else: alts.append((rest[0], rest[1])); rest = rest[2:]
            cur[2].append((start, b, pat, alts, side(a[0], pat, alts)))
            buf = None
    return tables

NAMES = {'min': 'min', 'max': 'max', 'add': 'add', 'sub': 'sub', 'mul': 'mul', 'div': 'div', 'mod': 'mod',
         'less': 'less', 'equal': 'equal', 'logical_and': 'and', 'logical_or': 'or', 'logical_not': 'not',
         'select': 'select', 'call': 'call'}

def main():
    tables = parse_file(sys.argv[1]); out = sys.argv[2]
    L = ["import Verif.Rewrite", "", "/-!", "# The rule tables of slinky/builder/simplify_rules.h",
         "Generated by tools/rules2lean.py; one definition per rule, in the order of the C++.", "-/", "",
         "namespace Slinky.Rules", "open Slinky", ""]
    for name, line, rules in tables:
        nm = NAMES[name]
        names = []
        for k, (ln, src, pat, alts, sd) in enumerate(rules):
            rn = f"{nm}{k}"; names.append(rn)
            A = ', '.join(f"({lean(r)}, {'none' if p is None else 'some ' + lean(p)})" for r, p in alts)
            csrc = src.replace("/-", "/ -").replace("-/", "- /")
            L.append(f"/-- simplify_rules.h:{ln} `{csrc}` -/")
            L.append(f"def {rn} : Rule := ⟨{lean(pat)}, [{A}], .{sd}⟩")
        L.append("")
        L.append(f"/-- simplify_rules.h:{line} `apply_{name}_rules` -/")
        L.append(f"def {nm}Rules : List Rule := [{', '.join(names)}]")
        L.append("")
    L.append("end Slinky.Rules")
    open(out + '/Rules.lean', 'w').write('\n'.join(L) + '\n')
    print({NAMES[t[0]]: len(t[2]) for t in tables}, sum(len(t[2]) for t in tables))

if __name__ == '__main__': main()
