# Proofs of the rules that `rule_auto` does not prove.
import re
# Rules whose proofs depend on which operations overflow.
DYN = {"min57", "max55"}

def S(t):
    """$x..$t are the values of the wildcards, $0..$6 the constants."""
    t = re.sub(r'\$([xyzwuvt])', lambda m: f"(σ {'xyzwuvt'.index(m.group(1))})", t)
    return re.sub(r'\$([0-6])', r'(κ \1)', t)

OV = {}
def ov(names, t):
    for n in names.split(): OV[n] = S(t)
def flip(t):
    """The analogous proof for max."""
    return t.replace('min', '@@').replace('max', 'min').replace('@@', 'max')

RANGE = """
simp only [Side.Holds, InRange, %s] at hs
norm_num at hs
simp only [i64max, i64min]
omega
"""
for r in "min0 min2 max0 max2".split(): ov(r, RANGE % r)

ov("min6 min7", """
refine ⟨fun h => ?_, fun _ h => ?_⟩ <;> rw [RL.max_ediv $x $0 (by omega)] <;> omega
""")
t = """
intro h
have e := RL.add_mul ($y + ($1 - $0 * $2)) $0 h
have e2 : $y + ($1 - $0 * $2) + $0 * $2 = $y + $1 := by ring
rw [e2] at e
omega
"""
ov("min52", t); ov("max50", t)
t = """
refine ⟨fun h _ _ => by omega, fun h h' => ?_⟩
rcases h with h | h | h
· omega
· exact absurd (.inr h) h'
· exact h.1.elim
"""
ov("min57", t); ov("max55", t)
t = """
refine ⟨fun ⟨h1, h2⟩ => ?_, fun _ ⟨h1, h2⟩ => ?_⟩
· obtain ⟨q, hq, e⟩ := RL.dvd' h2 (by omega)
  rw [e, hq, RL.min_mul $x q (by omega)]
· obtain ⟨q, hq, e⟩ := RL.dvd' h2 (by omega)
  rw [e, hq, RL.max_mul_neg $x q (by omega)]
"""
ov("min60", t); ov("max58", flip(t))
t = """
refine ⟨fun ⟨h1, h2⟩ => ?_, fun _ => ⟨fun ⟨h1, h2⟩ => ?_, fun _ => ⟨fun ⟨h1, h2⟩ => ?_, fun _ ⟨h1, h2⟩ => ?_⟩⟩⟩
· obtain ⟨q, hq, e⟩ := RL.dvd' h2 (by omega)
  rw [e, hq, RL.min_mul _ _ (by omega), Int.mul_assoc]
· obtain ⟨q, hq, e⟩ := RL.dvd' h2 (by omega)
  rw [e, hq, RL.max_mul_neg _ _ (by omega), Int.mul_assoc]
· obtain ⟨q, hq, e⟩ := RL.dvd' h2 (by omega)
  rw [e, hq, RL.min_mul _ _ (by omega), Int.mul_assoc, min_comm]
· obtain ⟨q, hq, e⟩ := RL.dvd' h2 (by omega)
  rw [e, hq, RL.max_mul_neg _ _ (by omega), Int.mul_assoc, min_comm]
"""
ov("min61", t); ov("max59", flip(t))
t = """
refine ⟨fun ⟨h1, h2⟩ => ?_, fun _ ⟨h1, h2⟩ => ?_⟩
· obtain ⟨q, hq, e⟩ := RL.dvd' h2 (by omega)
  rw [e, hq, RL.min_mul _ _ (by omega), Int.add_mul, min_comm]
· obtain ⟨q, hq, e⟩ := RL.dvd' h2 (by omega)
  rw [e, hq, RL.max_mul_neg _ _ (by omega), Int.add_mul, min_comm]
"""
ov("min62", t); ov("max60", flip(t))
t = """
refine ⟨fun h1 => ?_, fun h1 => ?_⟩
· rw [RL.min_ediv _ _ (by omega), RL.add_mul _ _ (by omega), min_comm]
· rw [RL.max_ediv_neg _ _ (by omega), RL.add_mul _ _ (by omega), min_comm]
"""
ov("min63", t); ov("max61", flip(t))
t = """
refine ⟨fun h1 => ?_, fun h1 => ?_⟩
· rw [RL.min_ediv _ _ (by omega), Int.mul_ediv_cancel _ (by omega)]
· rw [RL.max_ediv_neg _ _ (by omega), Int.mul_ediv_cancel _ (by omega)]
"""
ov("min64", t); ov("max62", flip(t))
STAIR = """
have h1 := RL.stair_min (hs 0) (hs 1) (hs 2) (hs 3) (hs 4) (hs 5) (hs 6) $x
have h2 := RL.stair_max (hs 0) (hs 1) (hs 2) (hs 3) (hs 4) (hs 5) (hs 6) $x
refine ⟨fun h => ?_, fun h => ?_⟩ <;> omega
"""
for r in "min65 max63 less19".split(): ov(r, STAIR)

ov("add16", """
rintro ⟨⟨⟨h0, h1⟩, h2⟩, h3⟩
obtain ⟨q, hq, e⟩ := RL.dvd' h3 h2
have e1 : $x + (q * $1 + $0) = ($x + $0) + q * $1 := by ring
rw [e, hq, e1, RL.add_mul _ _ h1]
ring
""")
ov("add17", """
intro h
rw [if_neg h, Int.add_zero]
have := Int.ediv_mul_add_emod $x $0
omega
""")
ov("sub5", """
intro h
rw [show 0 - $0 = -$0 by omega, Int.ediv_neg]
omega
""")
ov("sub15", """
intro h
rw [if_neg (by omega), if_neg (by omega), Int.add_emod_emod]
obtain ⟨h1, h2, h3⟩ := RL.divmod ($x + $1) h
have e : $x + $y = ($y - $1 + ($x + $1) % $0) + (($x + $1) / $0) * $0 := by omega
rw [e, RL.add_mul _ _ (by omega)]
omega
""")
ov("sub16", """
intro h
rw [if_neg (by omega), if_neg (by omega), Int.add_emod_emod]
obtain ⟨h1, h2, h3⟩ := RL.divmod ($x + $1) h
have e : $x + $y = ($y - $1 + ($x + $1) % $0) + (($x + $1) / $0) * $0 := by omega
rw [e, RL.add_mul _ _ (by omega)]
obtain ⟨g1, g2, g3⟩ := RL.divmod ($y - $1 + ($x + $1) % $0) h
have e2 : $0 + $1 - 1 - $y - ($x + $1) % $0 = ($0 - 1 - ($y - $1 + ($x + $1) % $0) % $0) + (-(($y - $1 + ($x + $1) % $0) / $0)) * $0 := by
  have : (-(($y - $1 + ($x + $1) % $0) / $0)) * $0 = - (($y - $1 + ($x + $1) % $0) / $0 * $0) := by ring
  omega
have e3 : ($0 - 1 - ($y - $1 + ($x + $1) % $0) % $0) / $0 = 0 := Int.ediv_eq_zero_of_lt (by omega) (by omega)
rw [e2, RL.add_mul _ _ (by omega), e3]
omega
""")
ov("sub17", """
intro h
rw [if_neg (by omega), if_neg (by omega), Int.add_emod_emod]
obtain ⟨h1, h2, h3⟩ := RL.divmod ($x + $1) h
have e : $x - $y = (($x + $1) % $0 - $y - $1) + (($x + $1) / $0) * $0 := by omega
rw [e, RL.add_mul _ _ (by omega)]
omega
""")
ov("sub18", """
intro h
rw [if_neg (by omega), if_neg (by omega), Int.add_emod_emod]
obtain ⟨h1, h2, h3⟩ := RL.divmod ($x + $1) h
have e : $x - $y = (($x + $1) % $0 - $y - $1) + (($x + $1) / $0) * $0 := by omega
rw [e, RL.add_mul _ _ (by omega)]
obtain ⟨g1, g2, g3⟩ := RL.divmod (($x + $1) % $0 - $y - $1) h
have e2 : $y + ($0 + $1 - 1) - ($x + $1) % $0 = ($0 - 1 - (($x + $1) % $0 - $y - $1) % $0) + (-((($x + $1) % $0 - $y - $1) / $0)) * $0 := by
  have : (-((($x + $1) % $0 - $y - $1) / $0)) * $0 = - ((($x + $1) % $0 - $y - $1) / $0 * $0) := by ring
  omega
have e3 : ($0 - 1 - (($x + $1) % $0 - $y - $1) % $0) / $0 = 0 := Int.ediv_eq_zero_of_lt (by omega) (by omega)
rw [e2, RL.add_mul _ _ (by omega), e3]
omega
""")
ov("sub19 sub20", """
intro h
rw [if_neg (by omega)]
have := RL.divmod $x h
omega
""")
ov("sub37 sub38", """
intro h
rw [RL.max_ediv _ _ h, RL.min_ediv _ _ h]
omega
""")
ov("div5", "simp")
ov("div8", """
by_cases h : $x = 0
· simp [h]
· rw [Int.ediv_self h, if_pos h]
""")
ov("div9", """
intro h
rw [← Int.ediv_ediv_of_nonneg (by omega), RL.add_mul _ _ (by omega), Int.add_comm]
""")
ov("div10", """
intro h
obtain ⟨h1, h2, h3⟩ := RL.divmod $x h
have e : $y * $0 - $x + ($0 - 1) = ($0 - 1 - $x % $0) + ($y - $x / $0) * $0 := by
  have : ($y - $x / $0) * $0 = $y * $0 - $x / $0 * $0 := by ring
  omega
rw [← Int.ediv_ediv_of_nonneg (by omega), e, RL.add_mul _ _ (by omega),
  show ($0 - 1 - $x % $0) / $0 = 0 from Int.ediv_eq_zero_of_lt (by omega) (by omega), Int.zero_add]
""")
ov("div11", """
rintro ⟨h1, h2⟩
obtain ⟨q, hq, e⟩ := RL.dvd' h2 (by omega)
rw [e, hq, ← Int.mul_assoc, Int.mul_ediv_mul_of_pos_left _ _ h1]
""")
ov("div12", """
rintro ⟨h1, h2⟩
obtain ⟨q, hq, e⟩ := RL.dvd' h2 (by omega)
rw [e, hq, ← Int.mul_assoc, Int.mul_ediv_mul_of_pos_left _ _ h1]
""")
ov("div13", """
intro h2
by_cases h1 : $1 = 0
· simp [h1]
· obtain ⟨q, hq, e⟩ := RL.dvd' h2 h1
  rw [e, hq, ← Int.mul_assoc, Int.mul_ediv_cancel _ h1]
""")
ov("div14", """
rintro ⟨h1, h2⟩
obtain ⟨q, hq, e⟩ := RL.dvd' h2 (by omega)
rw [e, hq, Int.mul_ediv_mul_of_pos_left _ _ h1]
""")
ov("div15", """
rintro ⟨h1, h2⟩
obtain ⟨q, hq, e⟩ := RL.dvd' h2 (by omega)
rw [e, hq, Int.mul_ediv_mul_of_pos_left _ _ h1]
""")
ov("div16", """
intro h
rw [← Int.ediv_ediv_of_nonneg (by omega)]
""")
ov("div17", """
by_cases h : $x = 0
· simp [h]
· rw [if_pos h, Int.mul_ediv_cancel_left _ h, Int.mul_one]
""")
ov("div18", """
intro h2
by_cases h1 : $1 = 0
· simp [h1]
· obtain ⟨q, hq, e⟩ := RL.dvd' h2 h1
  rw [e, hq, ← Int.mul_assoc, RL.add_mul _ _ h1, Int.add_comm]
""")
ov("div19", """
rintro ⟨h2, h3⟩
by_cases h1 : $1 = 0
· simp [h1]
· obtain ⟨q, hq, e⟩ := RL.dvd' h2 h1
  rw [e, hq, ← Int.mul_assoc, show $y * q * $1 - $x = (0 - $x) + ($y * q) * $1 by ring, RL.add_mul _ _ h1, Int.add_comm]
""")
ov("div20", """
rintro ⟨h1, h2⟩
obtain ⟨q, hq, e⟩ := RL.dvd' h2 (by omega)
rw [e, hq, RL.min_ediv _ _ h1, ← Int.mul_assoc, RL.add_mul _ _ (by omega), min_comm, Int.add_comm]
""")
ov("div21", """
rintro ⟨h1, h2⟩
obtain ⟨q, hq, e⟩ := RL.dvd' h2 (by omega)
rw [e, hq, RL.max_ediv _ _ h1, ← Int.mul_assoc, RL.add_mul _ _ (by omega), max_comm, Int.add_comm]
""")
t = """
rintro ⟨h1, h2⟩
obtain ⟨q, hq, e⟩ := RL.dvd' h2 (by omega)
rw [e, hq, RL.min_ediv _ _ h1, ← Int.mul_assoc, show $x * q * $1 - $z = (0 - $z) + ($x * q) * $1 by ring,
  RL.add_mul _ _ (by omega), min_comm, Int.add_comm]
"""
ov("div22", t); ov("div23", flip(t))
ov("mod2", "simp")
ov("mod3", """
intro _
split
· rfl
· rw [Int.add_emod_emod]
""")
ov("less13 less14", """
intro h
rw [if_neg (by omega)]
have := RL.divmod ($x + $0) (c := $1) (by omega)
omega
""")
ov("less15 less16", """
refine ⟨fun h => ?_, fun _ h => ?_⟩ <;> try rw [if_neg (by omega)]
· have := RL.divmod ($x + $0) (c := $1) (by omega)
  omega
· have := RL.divmod ($x + $0) (c := $1) (by omega)
  obtain ⟨h1, h2⟩ := h
  rw [h2] at this ⊢
  rw [Int.add_zero] at this ⊢
  omega
""")
ov("less17", """
refine ⟨fun h => ?_, fun _ h => ?_⟩
· rw [if_neg (by omega)]
  have := RL.divmod $x (c := $0) (by omega)
  omega
· rw [if_neg (by omega)]
  have := RL.divmod $x (c := $0) (by omega)
  omega
""")
ov("less18", """
refine ⟨fun h => ?_, fun _ => ⟨fun h => ?_, fun h => ?_⟩⟩ <;> rw [if_neg (by omega)] <;>
  have := RL.divmod $x (c := $1) (by omega) <;> omega
""")
ov("less20", """
refine ⟨fun h => RL.lt_mul h, fun _ h => ?_⟩
have := RL.lt_mul (a := $y) (b := $x) (c := -$0) (by omega)
rw [← this, Int.mul_neg, Int.mul_neg]
omega
""")
ov("less21", """
refine ⟨fun h => ?_, fun h => ?_⟩
· rw [RL.ediv_lt h, Int.mul_comm]
· have e := RL.le_ediv (a := $x) (b := 1 - $1) (c := -$0) (by omega)
  rw [Int.ediv_neg] at e
  rw [show (1 - $1) * -$0 = $0 * ($1 - 1) by ring] at e
  omega
""")
ov("less22", """
refine ⟨fun h => ?_, fun h => ?_⟩
· have := RL.le_ediv (a := $x) (b := $0 + 1) h
  omega
· have e := RL.ediv_lt (a := $x) (b := -$0) (c := -$1) (by omega)
  rw [Int.ediv_neg, Int.neg_mul_neg] at e
  omega
""")
ov("less23", """
refine ⟨fun h => ?_, fun h => ?_⟩ <;> rw [RL.max_ediv _ $0 (by omega), RL.max_ediv _ $1 (by omega)] <;> omega
""")
ov("less24", """
refine ⟨fun h => ?_, fun h => ?_⟩ <;> rw [RL.min_ediv _ $0 (by omega), RL.min_ediv _ $1 (by omega)] <;> omega
""")
ov("equal1", """
rw [mul_eq_mul_left_iff]
""")
ov("equal2", """
constructor
· intro h
  by_cases hx : $x = 0
  · exact .inr hx
  · left
    have : $x * 1 = $x * $y := by omega
    exact (Int.eq_of_mul_eq_mul_left hx this).symm
· rintro (h | h) <;> simp [h]
""")
ov("equal5", """
refine ⟨fun ⟨h1, h2⟩ => ?_, fun _ ⟨h1, h2⟩ => ?_⟩
· obtain ⟨q, hq, e⟩ := RL.dvd' h2 h1
  rw [e, hq, ← Int.mul_assoc, Int.mul_eq_mul_right_iff h1]
· obtain ⟨q, hq, e⟩ := RL.dvd' h2 h1
  rw [e, hq, ← Int.mul_assoc, Int.mul_eq_mul_right_iff h1, eq_comm]
""")
ov("equal6", """
rintro ⟨h1, h2⟩
obtain ⟨q, hq, e⟩ := RL.dvd' h2 h1
rw [e, hq, Int.mul_eq_mul_right_iff h1]
""")
ov("equal11", """
intro h
rw [if_neg (by omega)]
have := RL.divmod $x h
omega
""")
ov("equal12", """
rintro ⟨h, h'⟩
rw [if_neg (by omega)]
have := RL.divmod $x h
omega
""")
ov("equal22", """
refine ⟨fun ⟨h, h'⟩ => ?_, fun _ => ⟨fun ⟨h, h'⟩ => ?_, fun h'' h => ?_⟩⟩ <;> rw [RL.max_ediv _ _ h]
· omega
· rw [← RL.ediv_lt h]; omega
· omega
""")
ov("equal23", """
refine ⟨fun ⟨h, h'⟩ => ?_, fun _ => ⟨fun ⟨h, h'⟩ => ?_, fun h'' h => ?_⟩⟩ <;> rw [RL.min_ediv _ _ h]
· omega
· rw [← RL.le_ediv h]; omega
· omega
""")
ov("call6", """
intro h
rw [Int.natAbs_mul, Int.natCast_mul]
congr 1
omega
""")
ov("call7", """
intro h
rw [Int.natAbs_mul, Int.natCast_mul]
congr 1
omega
""")
