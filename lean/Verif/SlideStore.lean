import Mathlib.Tactic.Linarith
import Mathlib.Tactic.Ring
import Mathlib.Logic.Function.Basic

/-!
# Specification for C45: a dimension that is stored folded, and a producer that is ahead of the consumer

This file does not mention the code. `Produced` is the history of a producer that runs the iterations of a loop in order. In
every iteration it writes an interval, in any order; every index goes to the slot `i mod F`. A consumer can use the index `i`
if its slot holds `i`.
-/

namespace Slinky

/-- What the slots hold: the index that was written last. -/
abbrev SlotStore := Int → Option Int

/-- The index `i` is written to a dimension folded by `F`. -/
def SlotStore.write (F : Int) (st : SlotStore) (i : Int) : SlotStore := fun k => if k = i % F then some i else st k

/-- The indices are written one after the other. -/
def SlotStore.writes (F : Int) (st : SlotStore) (l : List Int) : SlotStore := l.foldl (SlotStore.write F) st

/-- The store after the producer has completed the iterations `0, ..., k - 1`: in iteration `q` it writes the indices from `lo q` to `hi q`,
in any order (and maybe several times). At the beginning the store can contain anything. -/
inductive Produced (F : Int) (lo hi : Nat → Int) : Nat → SlotStore → Prop
  | start (st : SlotStore) : Produced F lo hi 0 st
  | next {k : Nat} {st : SlotStore} (l : List Int) : Produced F lo hi k st → (∀ i, i ∈ l ↔ lo k ≤ i ∧ i ≤ hi k) →
      Produced F lo hi (k + 1) (st.writes F l)

/-- The store when the producer has completed `k` iterations, and is in the middle of the next one if `running`. -/
def Producing (F : Int) (lo hi : Nat → Int) (k : Nat) (running : Bool) (st : SlotStore) : Prop :=
  ∃ st0 l, Produced F lo hi k st0 ∧ st = st0.writes F l ∧ (running = false → l = []) ∧ ∀ i ∈ l, lo k ≤ i ∧ i ≤ hi k

/-! ### When an index survives -/

theorem writes_keep {F : Int} {i : Int} : ∀ (l : List Int) (st : SlotStore), st (i % F) = some i → (∀ j ∈ l, j % F = i % F → j = i) →
    (st.writes F l) (i % F) = some i
  | [], _, h, _ => h
  | j :: l, st, h, hl => by
    refine writes_keep l _ ?_ (fun j hj => hl j (by simp [hj]))
    unfold SlotStore.write
    split
    · next he => rw [hl j (by simp) he.symm]
    · exact h

theorem writes_get {F : Int} {i : Int} : ∀ (l : List Int) (st : SlotStore), i ∈ l → (∀ j ∈ l, j % F = i % F → j = i) →
    (st.writes F l) (i % F) = some i
  | [], _, h, _ => by simp at h
  | j :: l, st, h, hl => by
    by_cases hi : i = j
    · subst hi
      exact writes_keep l _ (by simp [SlotStore.write]) (fun j hj => hl j (by simp [hj]))
    · exact writes_get l _ (by simpa [hi] using h) (fun j hj => hl j (by simp [hj]))

/-- An index survives if it was written in iteration `q`, and nothing else goes to its slot since. -/
theorem produced_survives {F : Int} {lo hi : Nat → Int} {i : Int} {q : Nat} (h1 : lo q ≤ i ∧ i ≤ hi q) : ∀ {k : Nat} {st : SlotStore},
    Produced F lo hi k st → q < k → (∀ q', q ≤ q' → q' < k → ∀ j, lo q' ≤ j → j ≤ hi q' → j % F = i % F → j = i) → st (i % F) = some i
  | _, _, .start _, hk, _ => by omega
  | _, _, .next (k := k) (st := st) l hp hl, hk, h2 => by
    have hj : ∀ j ∈ l, j % F = i % F → j = i := fun j hj => h2 k (by omega) (by omega) j ((hl j).1 hj).1 ((hl j).1 hj).2
    by_cases hq : q = k
    · subst hq
      exact writes_get l _ ((hl i).2 h1) hj
    · exact writes_keep l _ (produced_survives h1 hp (by omega) (fun q' a b => h2 q' a (by omega))) hj

theorem producing_survives {F : Int} {lo hi : Nat → Int} {i : Int} {q k : Nat} {running : Bool} {st : SlotStore} (h1 : lo q ≤ i ∧ i ≤ hi q)
    (hp : Producing F lo hi k running st) (hk : q < k)
    (h2 : ∀ q', q ≤ q' → (q' < k ∨ q' = k ∧ running = true) → ∀ j, lo q' ≤ j → j ≤ hi q' → j % F = i % F → j = i) : st (i % F) = some i := by
  obtain ⟨st0, l, hp, rfl, hr, hl⟩ := hp
  refine writes_keep l _ (produced_survives h1 hp hk (fun q' a b => h2 q' a (.inl b))) (fun j hj => ?_)
  have : running = true := by cases running <;> simp_all
  exact h2 k (by omega) (.inr ⟨rfl, this⟩) j (hl j hj).1 (hl j hj).2

theorem eq_of_emod_eq {F i j : Int} (h : j % F = i % F) (h1 : j - i < F) (h2 : i - j < F) : j = i := by
  have : F ∣ j - i := Int.dvd_of_emod_eq_zero (by rw [Int.sub_emod, h]; simp)
  obtain ⟨c, hc⟩ := this
  rcases lt_trichotomy c 0 with h | h | h
  · have : F * c ≤ -F := by nlinarith
    omega
  · subst h; omega
  · have : F ≤ F * c := by nlinarith
    omega

/-! ### Sliding

`m q` and `M q` are the bounds that the consumer needs in iteration `q`, for `q ≤ n`. -/

theorem mono_chain {M : Nat → Int} {n c : Nat} (h : ∀ q, c ≤ q → q < n → M q ≤ M (q + 1)) {q : Nat} (hq : c ≤ q) : ∀ {p : Nat}, q ≤ p → p ≤ n → M q ≤ M p
  | 0, h1, _ => by
    have : q = 0 := by omega
    subst this; exact le_refl _
  | p + 1, h1, h2 => by
    by_cases hp : q = p + 1
    · subst hp; exact le_refl _
    · exact le_trans (mono_chain h hq (by omega) (by omega)) (h p (by omega) (by omega))

/-- How far the producer can get ahead in `w` iterations. -/
theorem ahead_chain {M : Nat → Int} {n : Nat} {ov : Int} (h : ∀ q, q < n → M (q + 1) - M q ≤ ov) (p : Nat) :
    ∀ w : Nat, p + w ≤ n → M (p + w) ≤ M p + w * ov
  | 0, _ => by simp
  | w + 1, hw => by
    have h1 := ahead_chain h p w (by omega)
    have h2 := h (p + w) (by omega)
    have h3 : M (p + (w + 1)) = M (p + w + 1) := by rw [← Nat.add_assoc]
    push_cast
    rw [h3]
    linarith

theorem ahead_chain' {M : Nat → Int} {n : Nat} {ov : Int} (h0 : 0 ≤ ov) (h : ∀ q, q < n → M (q + 1) - M q ≤ ov) {p q : Nat} {W : Int}
    (hpq : p ≤ q) (hq : q ≤ n) (hW : (q : Int) ≤ p + (W - 1)) : M q ≤ M p + (W - 1) * ov := by
  obtain ⟨w, rfl⟩ := Nat.exists_eq_add_of_le hpq
  have := ahead_chain h p w hq
  have h1 : (w : Int) ≤ W - 1 := by push_cast at hW; linarith
  have h2 := mul_le_mul_of_nonneg_right h1 h0
  linarith

/-- The iteration in which an index is new. -/
theorem first_at {M : Nat → Int} {i : Int} {c : Nat} : ∀ {p : Nat}, c ≤ p → i ≤ M p → ∃ q, c ≤ q ∧ q ≤ p ∧ i ≤ M q ∧ (c < q → M (q - 1) < i)
  | 0, h, hi => ⟨0, h, le_refl _, hi, fun h => by omega⟩
  | p + 1, h, hi => by
    by_cases hc : c = p + 1
    · exact ⟨p + 1, h, le_refl _, hi, fun h => by omega⟩
    · by_cases hp : i ≤ M p
      · obtain ⟨q, h1, h2, h3⟩ := first_at (c := c) (p := p) (by omega) hp
        exact ⟨q, h1, by omega, h3⟩
      · exact ⟨p + 1, h, le_refl _, hi, fun _ => by simpa using hp⟩

/-- Only what is new is produced after the iteration `c` (in iteration `q > c` the interval `(M (q - 1), M q]`), and the producer is less than `W`
iterations ahead of the consumer: then a fold factor of `f + (W - 1) * ov` is enough, if `f` is a bound of what the consumer needs in an
iteration, and `ov` of how much is new in an iteration. There are two ways to begin: in iteration 0 at `lo 0`, which is low enough
for everything that is consumed (`c = 0`), or with all that the consumer needs in the iterations up to `c`. -/
theorem sliding_window {m M lo hi : Nat → Int} {c b n : Nat} {f ov W : Int}
    (hhi : ∀ q, q ≤ n → hi q = M q)
    (hnew : ∀ q, c < q → q ≤ n → lo q = M (q - 1) + 1)
    (hbegin : (c = 0 ∧ lo 0 ≤ m b) ∨ (b = 0 ∧ c ≤ n ∧ ∀ q, q ≤ c → lo q = m q))
    (hmonoM : ∀ q, q < n → M q ≤ M (q + 1))
    (hmonom : ∀ q, b ≤ q → q < n → m q ≤ m (q + 1))
    (hf : ∀ q, b ≤ q → q ≤ n → M q - m q + 1 ≤ f)
    (hov : ∀ q, q < n → M (q + 1) - M q ≤ ov) (hov0 : 0 ≤ ov)
    (hfit : ∀ q, q ≤ n → M q - lo q < f + (W - 1) * ov)
    {k p : Nat} {running : Bool} {st : SlotStore} (hp : Producing (f + (W - 1) * ov) lo hi k running st)
    (hb : b ≤ p) (hpk : p < k) (hk : k ≤ n + 1) (hrun : running = true → k ≤ n) (hW : (k : Int) + (if running then 1 else 0) ≤ p + W)
    {i : Int} (h1 : m p ≤ i) (h2 : i ≤ M p) : st (i % (f + (W - 1) * ov)) = some i := by
  have hMm : ∀ {q p : Nat}, q ≤ p → p ≤ n → M q ≤ M p := fun h1 h2 => mono_chain (c := 0) (fun q _ h => hmonoM q h) (by omega) h1 h2
  have hmm : ∀ {q p : Nat}, b ≤ q → q ≤ p → p ≤ n → m q ≤ m p := fun h0 h1 h2 => mono_chain hmonom h0 h1 h2
  have hpn : p ≤ n := by omega
  -- the other writes are not too far ahead
  have hahead : ∀ q, p ≤ q → (q < k ∨ q = k ∧ running = true) → M q - i < f + (W - 1) * ov := by
    intro q hq hq'
    have h3 : M q ≤ M p + (W - 1) * ov := by
      refine ahead_chain' hov0 hov hq ?_ ?_
      · rcases hq' with h | ⟨rfl, h⟩
        · omega
        · exact hrun h
      · rcases hq' with h | ⟨rfl, h⟩
        · split at hW <;> omega
        · simp only [h, if_true] at hW; omega
    have := hf p hb hpn
    linarith
  have hle : ∀ q', (q' < k ∨ q' = k ∧ running = true) → q' ≤ n := by
    rintro q' (h | ⟨rfl, h⟩)
    · omega
    · exact hrun h
  have hahead' : ∀ q', (q' < k ∨ q' = k ∧ running = true) → M q' - i < f + (W - 1) * ov := by
    intro q' hq'
    by_cases hpq : p ≤ q'
    · exact hahead q' hpq hq'
    · have := hMm (q := q') (p := p) (by omega) hpn
      have := hahead p (le_refl _) (.inl hpk)
      linarith
  have hf0 := hf p hb hpn
  have hW1 : 1 ≤ W := by split at hW <;> omega
  have hprod := mul_nonneg (by omega : 0 ≤ W - 1) hov0
  -- the iteration in which the index is written
  by_cases hpc : c ≤ p
  · obtain ⟨q, hcq, hqp, hq2, hq3⟩ := first_at hpc h2
    have hlo : lo q ≤ i := by
      by_cases hc : c < q
      · rw [hnew q hc (by omega)]; have := hq3 hc; omega
      · have : q = c := by omega
        subst this
        rcases hbegin with ⟨rfl, h⟩ | ⟨rfl, h, h'⟩
        · have := hmm (le_refl b) hb hpn; omega
        · rw [h' q (le_refl _)]; have := hmm (Nat.zero_le q) hqp hpn; omega
    refine producing_survives ⟨hlo, by rw [hhi q (by omega)]; exact hq2⟩ hp (by omega) ?_
    intro q' hq' hk' j hj1 hj2 hj
    rw [hhi q' (hle q' hk')] at hj2
    refine eq_of_emod_eq hj ?_ ?_
    · have := hahead' q' hk'; omega
    · by_cases he : q' = q
      · subst he; have := hfit q' (hle q' hk'); omega
      · rw [hnew q' (by omega) (hle q' hk')] at hj1
        have := hMm (q := q) (p := q' - 1) (by omega) (by have := hle q' hk'; omega)
        omega
  · -- everything is written in this iteration
    rcases hbegin with ⟨rfl, h⟩ | ⟨rfl, hc, h⟩
    · omega
    refine producing_survives (q := p) ⟨by rw [h p (by omega)]; exact h1, by rw [hhi p hpn]; exact h2⟩ hp hpk ?_
    intro q' hq' hk' j hj1 hj2 hj
    rw [hhi q' (hle q' hk')] at hj2
    have hl : m p ≤ j := by
      by_cases hcq : q' ≤ c
      · rw [h q' hcq] at hj1; have := hmm (Nat.zero_le p) hq' (hle q' hk'); omega
      · rw [hnew q' (by omega) (hle q' hk')] at hj1
        have := hMm (q := p) (p := q' - 1) (by omega) (by have := hle q' hk'; omega)
        omega
    refine eq_of_emod_eq hj ?_ ?_
    · have := hahead' q' hk'; omega
    · linarith

/-- Without reuse: everything that the consumer needs in an iteration is produced in the same iteration. A fold factor of `W * f` is enough if
nothing is skipped between iterations; if the producer is not ahead (`W = 1`), this is not necessary. -/
theorem disjoint_window {m M lo hi : Nat → Int} {n : Nat} {f W : Int}
    (hlo : ∀ q, q ≤ n → lo q = m q) (hhi : ∀ q, q ≤ n → hi q = M q)
    (hf : ∀ q, q ≤ n → m q ≤ M q → M q - m q + 1 ≤ f)
    (htile : W ≠ 1 → ∀ q, q < n → m (q + 1) = M q + 1 ∧ M q ≤ M (q + 1))
    {k p : Nat} {running : Bool} {st : SlotStore} (hp : Producing (f + (W - 1) * f) lo hi k running st)
    (hpk : p < k) (hk : k ≤ n + 1) (hrun : running = true → k ≤ n) (hW : (k : Int) + (if running then 1 else 0) ≤ p + W)
    {i : Int} (h1 : m p ≤ i) (h2 : i ≤ M p) : st (i % (f + (W - 1) * f)) = some i := by
  have hpn : p ≤ n := by omega
  have hf0 := hf p hpn (by omega)
  have hW1 : 1 ≤ W := by split at hW <;> omega
  have hprod := mul_nonneg (by omega : 0 ≤ W - 1) (by omega : 0 ≤ f)
  have hle : ∀ q', (q' < k ∨ q' = k ∧ running = true) → q' ≤ n := by
    rintro q' (h | ⟨rfl, h⟩)
    · omega
    · exact hrun h
  refine producing_survives (q := p) ⟨by rw [hlo p hpn]; exact h1, by rw [hhi p hpn]; exact h2⟩ hp hpk ?_
  intro q' hq' hk' j hj1 hj2 hj
  rw [hlo q' (hle q' hk')] at hj1
  rw [hhi q' (hle q' hk')] at hj2
  by_cases hw : W = 1
  · have : q' = p := by
      rcases hk' with h | ⟨rfl, h⟩
      · split at hW <;> omega
      · simp only [h, if_true] at hW; omega
    subst this
    exact eq_of_emod_eq hj (by linarith) (by linarith)
  · have ht := htile hw
    have hMm : ∀ {q p : Nat}, q ≤ p → p ≤ n → M q ≤ M p := fun h1 h2 => mono_chain (c := 0) (fun q _ h => (ht q h).2) (by omega) h1 h2
    have hq1 : (q' : Int) ≤ p + (W - 1) := by
      rcases hk' with h | ⟨rfl, h⟩
      · split at hW <;> omega
      · simp only [h, if_true] at hW; omega
    have hA : M q' ≤ M p + (W - 1) * f := ahead_chain' (n := n) (by omega) (fun q hq => by
      have := (ht q hq).1
      by_cases he : m (q + 1) ≤ M (q + 1)
      · have := hf (q + 1) (by omega) he; omega
      · omega) hq' (hle q' hk') hq1
    have hm : m p ≤ m q' := by
      by_cases he : q' = p
      · subst he; exact le_refl _
      · obtain ⟨r, rfl⟩ : ∃ r, q' = r + 1 := ⟨q' - 1, by omega⟩
        have := (ht r (by have := hle _ hk'; omega)).1
        have := hMm (q := p) (p := r) (by omega) (by have := hle _ hk'; omega)
        omega
    exact eq_of_emod_eq hj (by linarith) (by linarith)

end Slinky
