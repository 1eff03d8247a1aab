import Verif.ForEachProps

/-! # C24, C25: nonlinear loops, and the whole plan -/

namespace Slinky
namespace FE

section
variable {bs : Bufs}

/-! ### Chunks -/

/-- The chunks `l` are the integers from `lo` to `hi`. -/
def Tiles (OK : Int → Int → Prop) (l : List (Int × Int)) (lo hi : Int) : Prop :=
  (l.flatMap fun c => rng c.1 (c.1 + c.2 - 1)) = rng lo hi ∧ ∀ c ∈ l, 1 ≤ c.2 ∧ lo ≤ c.1 ∧ c.1 + c.2 - 1 ≤ hi ∧ OK c.1 c.2

theorem Tiles.append {OK : Int → Int → Prop} {l m : List (Int × Int)} {a b c : Int} (h1 : Tiles OK l a b) (h2 : Tiles OK m (b + 1) c)
    (hab : a ≤ b + 1) (hbc : b ≤ c) : Tiles OK (l ++ m) a c := by
  refine ⟨by rw [List.flatMap_append, h1.1, h2.1, rng_append hab hbc], fun x hx => ?_⟩
  rw [List.mem_append] at hx
  rcases hx with hx | hx
  · have := h1.2 x hx; exact ⟨this.1, this.2.1, by omega, this.2.2.2⟩
  · have := h2.2 x hx; exact ⟨this.1, by omega, this.2.2.1, this.2.2.2⟩

theorem Tiles.nil {OK : Int → Int → Prop} {a b : Int} (h : b < a) : Tiles OK [] a b := ⟨by simp [rng_empty h], by simp⟩

theorem Tiles.single {OK : Int → Int → Prop} {a b : Int} (h : a ≤ b) (ho : OK a (b - a + 1)) : Tiles OK [(a, b - a + 1)] a b := by
  refine ⟨?_, ?_⟩
  · simp only [List.flatMap_cons, List.flatMap_nil, List.append_nil]
    congr 1; omega
  · intro c hc
    simp only [List.mem_singleton] at hc
    subst hc
    exact ⟨by omega, le_rfl, by simp; omega, ho⟩

/-- Loops over chunks. -/
theorem Tiles.perm {γ : Type} {OK : Int → Int → Prop} {l : List (Int × Int)} {lo hi : Int} (h : Tiles OK l lo hi) {G : Int → Int → List γ}
    {F : Int → List γ} (hG : ∀ x c, lo ≤ x → 1 ≤ c → x + c - 1 ≤ hi → OK x c →
      (G x c).Perm ((List.range c.toNat).flatMap fun j : Nat => F (x + j))) :
    (l.flatMap fun c => G c.1 c.2).Perm ((rng lo hi).flatMap F) := by
  rw [← h.1, List.flatMap_assoc]
  refine perm_flatMap_congr fun c hc => ?_
  obtain ⟨h1, h2, h3, h4⟩ := h.2 c hc
  refine (hG c.1 c.2 h2 h1 h3 h4).trans ?_
  rw [rng, List.flatMap_map, show c.1 + c.2 - 1 - c.1 + 1 = c.2 by omega]

theorem chunkEndOther_le (i m : Int) (q : Dim × Option Int) : chunkEndOther i m q ≤ m := by
  unfold chunkEndOther
  split
  · exact le_rfl
  · split
    · exact le_rfl
    · split
      · exact min_le_left _ _
      · split
        · exact min_le_left _ _
        · exact le_rfl

theorem le_chunkEndOther {i m : Int} (h : i ≤ m) (q : Dim × Option Int) : i ≤ chunkEndOther i m q := by
  unfold chunkEndOther
  split
  · exact h
  · split
    · exact h
    · next hs =>
      split
      · next hc =>
        simp only [Dim.contains, Dim.containsI, hs, decide_false, Bool.false_or, Bool.and_eq_true, decide_eq_true_eq] at hc
        exact le_min h hc.2
      · split
        · exact le_min h (by omega)
        · exact h

theorem foldl_chunkEnd (i : Int) : ∀ (l : List (Dim × Option Int)) (m : Int), i ≤ m →
    i ≤ l.foldl (chunkEndOther i) m ∧ l.foldl (chunkEndOther i) m ≤ m ∧
      ∀ q ∈ l, l.foldl (chunkEndOther i) m ≤ chunkEndOther i m q
  | [], m, h => ⟨h, le_rfl, by simp⟩
  | q :: l, m, h => by
    obtain ⟨h1, h2, h3⟩ := foldl_chunkEnd i l (chunkEndOther i m q) (le_chunkEndOther h q)
    refine ⟨h1, h2.trans (chunkEndOther_le _ _ _), ?_⟩
    intro q' hq'
    rw [List.mem_cons] at hq'
    rcases hq' with rfl | hq'
    · exact h2
    · refine (h3 q' hq').trans ?_
      have := chunkEndOther_le i m q
      unfold chunkEndOther at this ⊢
      generalize (match q.2 with
        | none => m
        | some _ => if q.1.stride = 0 then m else if q.1.contains i = true then min m q.1.max
          else if q.1.min > i then min m (q.1.min - 1) else m) = n at this ⊢
      split
      · exact this
      · split
        · exact this
        · split
          · exact min_le_min_right _ this
          · split
            · exact min_le_min_right _ this
            · exact this

variable (bs) in
/-- In the chunk, the pointers move by the strides. -/
def ChunkOK (d : Nat) (B : Ptrs) (x c : Int) : Prop :=
  ∀ j : Int, 0 ≤ j → j < c → atD bs d (x + j) B = shiftB bs (fun b => j * (b.dim d).stride) (atD bs d x B)

/-- No fold is crossed. -/
def NoCross (bs : Bufs) (d : Nat) (lo hi : Int) : Prop :=
  ∀ b ∈ bs.all, ∀ x y, lo ≤ x → x ≤ y → y ≤ hi → (b.dim d).flatOffset y = (b.dim d).flatOffset x + (y - x) * (b.dim d).stride

theorem NoCross.mono {d : Nat} {lo hi lo' hi' : Int} (h : NoCross bs d lo hi) (h1 : lo ≤ lo') (h2 : hi' ≤ hi) : NoCross bs d lo' hi' :=
  fun b hb x y hx hxy hy => h b hb x y (h1.trans hx) hxy (hy.trans h2)

theorem chunk_ok {d : Nat} {B : Ptrs} {i hi : Int} (hlo : (bs.first.dim d).min ≤ i) (hhi : hi ≤ (bs.first.dim d).max) (hle : i ≤ hi)
    (hn : NoCross bs d i hi) {m : Int} (hm : m = chunkEnd (bs.all.map (·.dim d)) B i hi) : ChunkOK bs d B i (m - i + 1) := by
  intro j h0 hj
  obtain ⟨h1, h2, h3⟩ := foldl_chunkEnd i (((bs.all.map (·.dim d)).tail.zip B.tail)) hi hle
  rw [← chunkEnd, ← hm] at h1 h2 h3
  simp only [atD, shiftB, mapB_mapB]
  refine zipWith_congr' fun q hq => ?_
  have hmem := (List.of_mem_zip (show (q.1, q.2) ∈ bs.all.zip B from hq)).1
  have hnc := hn q.1 hmem i (i + j) le_rfl (by omega) (by omega)
  by_cases hs : (q.1.dim d).stride = 0
  · simp [ptr1_stride0 hs, hs]
  have key : q.2 ≠ none → ((q.1.dim d).contains (i + j) = (q.1.dim d).contains i) := by
    intro hp
    cases B with
    | nil => simp at hq
    | cons p ps =>
      simp only [Bufs.all, List.zip_cons_cons, List.mem_cons] at hq
      rcases hq with rfl | hq
      · have e1 : (bs.first.dim d).contains (i + j) = true := by
          simp only [Dim.contains, Dim.containsI, Bool.or_eq_true, Bool.and_eq_true, decide_eq_true_eq]; right; omega
        have e2 : (bs.first.dim d).contains i = true := by
          simp only [Dim.contains, Dim.containsI, Bool.or_eq_true, Bool.and_eq_true, decide_eq_true_eq]; right; omega
        rw [e1, e2]
      · have := h3 (q.1.dim d, q.2) (by
          simp only [Bufs.all, List.map_cons, List.tail_cons, List.zip_map_left, List.mem_map]
          exact ⟨q, hq, rfl⟩)
        simp only [chunkEndOther, hs, if_false] at this
        cases hq2 : q.2 with
        | none => exact absurd hq2 hp
        | some a =>
          rw [hq2] at this
          simp only [Dim.contains, Dim.containsI, hs, decide_false, Bool.false_or] at this ⊢
          by_cases c1 : (q.1.dim d).min ≤ i <;> by_cases c2 : i ≤ (q.1.dim d).max
          · simp only [c1, c2, decide_true, Bool.and_self, if_true] at this ⊢
            have := this.trans (min_le_right _ _)
            simp; omega
          · have : ¬ (i + j ≤ (q.1.dim d).max) := by omega
            simp [c2, this]
          · simp only [c1, c2, decide_false, decide_true, Bool.false_and, Bool.false_eq_true, if_false] at this ⊢
            rw [if_pos (by omega)] at this
            have := this.trans (min_le_right _ _)
            have : ¬ ((q.1.dim d).min ≤ i + j) := by omega
            simp [this]
          · have : ¬ (i + j ≤ (q.1.dim d).max) := by omega
            simp [c2, this]
  cases hp : q.2 with
  | none => simp
  | some a =>
    have := key (by simp [hp])
    simp only [ptr1, this]
    split
    · rw [hnc, offs_offs]; congr 1; ring_nf
    · rfl

theorem oneFold_tiles {d : Nat} {B : Ptrs} {hi : Int} (hhi : hi ≤ (bs.first.dim d).max) : ∀ (n : Nat) (i : Int),
    (bs.first.dim d).min ≤ i → (hi - i + 1).toNat ≤ n → NoCross bs d i hi →
    Tiles (ChunkOK bs d B) (oneFold (bs.all.map (·.dim d)) B hi n i) i hi
  | 0, i, _, hn, _ => .nil (by omega)
  | n + 1, i, hlo, hn, hc => by
    simp only [oneFold]
    split
    · next hle =>
      obtain ⟨h1, h2, -⟩ := foldl_chunkEnd i (((bs.all.map (·.dim d)).tail.zip B.tail)) hi hle
      rw [← chunkEnd] at h1 h2
      have := oneFold_tiles (B := B) hhi n (chunkEnd (bs.all.map (·.dim d)) B i hi + 1) (by omega) (by omega) (hc.mono (by omega) le_rfl)
      exact (Tiles.single h1 (chunk_ok hlo hhi hle hc rfl)).append this (by omega) h2
    · exact .nil (by omega)

theorem runOneFold_tiles {d : Nat} {B : Ptrs} {lo hi : Int} (hlo : (bs.first.dim d).min ≤ lo) (hhi : hi ≤ (bs.first.dim d).max)
    (hc : NoCross bs d lo hi) : Tiles (ChunkOK bs d B) (runOneFold (bs.all.map (·.dim d)) B lo hi) lo hi :=
  oneFold_tiles hhi _ _ hlo le_rfl hc

theorem foldsFrom_tiles {d : Nat} {B : Ptrs} {g hi : Int} (hg : 0 < g) (hhi : hi ≤ (bs.first.dim d).max)
    (hc : ∀ lo' hi', lo' / g = hi' / g → NoCross bs d lo' hi') : ∀ (n : Nat) (i : Int),
    (bs.first.dim d).min ≤ i → g ∣ i → (hi - i + 1).toNat ≤ n →
    Tiles (ChunkOK bs d B) (foldsFrom (bs.all.map (·.dim d)) B g hi n i) i hi
  | 0, i, _, _, hn => .nil (by omega)
  | n + 1, i, hlo, hd, hn => by
    simp only [foldsFrom]
    split
    · next hle =>
      obtain ⟨q, rfl⟩ := hd
      have h1 : NoCross bs d (g * q) (min (g * q + g - 1) hi) := by
        refine hc _ _ ?_
        rw [Int.mul_ediv_cancel_left _ (by omega)]
        symm
        rw [Int.ediv_eq_iff_of_pos hg]
        constructor
        · rw [mul_comm]; exact le_min (by omega) hle
        · have := min_le_left (g * q + g - 1) hi
          rw [mul_comm q]; omega
      by_cases hb : g * q + g - 1 ≤ hi
      · have ih := foldsFrom_tiles (B := B) hg hhi hc n (g * q + g) (by omega) (Dvd.dvd.add (dvd_mul_right _ _) dvd_rfl) (by omega)
        rw [min_eq_left hb] at h1 ⊢
        have t1 := runOneFold_tiles (B := B) hlo (by omega) h1
        exact t1.append (by rw [show g * q + g - 1 + 1 = g * q + g by omega]; exact ih) (by omega) hb
      · rw [min_eq_right (by omega)] at h1 ⊢
        have t1 := runOneFold_tiles (B := B) hlo hhi h1
        have : foldsFrom (bs.all.map (·.dim d)) B g hi n (g * q + g) = [] := by
          cases n with
          | zero => rfl
          | succ n => simp only [foldsFrom]; rw [if_neg (by omega)]
        rw [this, List.append_nil]
        exact t1
    · exact .nil (by omega)

theorem alignUp_facts {x n : Int} (hn : 0 < n) : n ∣ alignUp x n ∧ x ≤ alignUp x n ∧ alignUp x n < x + n := by
  unfold alignUp
  have h1 := Int.mul_ediv_add_emod (x + n - 1) n
  have h2 := Int.emod_nonneg (x + n - 1) (ne_of_gt hn)
  have h3 := Int.emod_lt_of_pos (x + n - 1) hn
  rw [mul_comm] at h1
  exact ⟨dvd_mul_left _ _, by omega, by omega⟩

theorem chunks_tiles {d : Nat} {B : Ptrs} {g : Int} (h0 : g ≤ 0 → ∀ lo hi, NoCross bs d lo hi)
    (h1 : 0 < g → ∀ lo hi, lo / g = hi / g → NoCross bs d lo hi) :
    Tiles (ChunkOK bs d B) (chunks g (bs.all.map (·.dim d)) B (bs.first.dim d).min (bs.first.dim d).max)
      (bs.first.dim d).min (bs.first.dim d).max := by
  unfold chunks
  split
  · next hg => exact runOneFold_tiles le_rfl le_rfl (h0 hg _ _)
  · next hg =>
    have hg : 0 < g := by omega
    obtain ⟨a1, a2, a3⟩ := alignUp_facts (x := (bs.first.dim d).min) hg
    simp only
    generalize hF : alignUp (bs.first.dim d).min g = F at a1 a2 a3
    by_cases he : (bs.first.dim d).min = F
    · simp only [he, ne_eq, not_true, if_false, List.nil_append]
      have := foldsFrom_tiles (B := B) hg le_rfl (h1 hg) ((bs.first.dim d).max - F + 1).toNat F (by omega) a1 le_rfl
      rw [← he] at this ⊢
      exact this
    · simp only [ne_eq, he, not_false_eq_true, if_true]
      have hc : NoCross bs d (bs.first.dim d).min (F - 1) := by
        refine h1 hg _ _ ?_
        obtain ⟨q, rfl⟩ := a1
        have e1 : (g * q - 1) / g = q - 1 := by
          rw [Int.ediv_eq_iff_of_pos hg]
          constructor
          · rw [sub_mul, mul_comm q]; omega
          · rw [sub_mul, mul_comm q]; omega
        have e2 : (bs.first.dim d).min / g = q - 1 := by
          rw [Int.ediv_eq_iff_of_pos hg]
          constructor
          · rw [sub_mul, mul_comm q]; omega
          · rw [sub_mul, mul_comm q]; omega
        rw [e1, e2]
      by_cases hb : F - 1 ≤ (bs.first.dim d).max
      · rw [min_eq_left hb]
        refine (runOneFold_tiles le_rfl hb hc).append ?_ (by omega) hb
        rw [sub_add_cancel]
        exact foldsFrom_tiles hg le_rfl (h1 hg) _ _ (by omega) a1 le_rfl
      · rw [min_eq_right (by omega)]
        have : foldsFrom (bs.all.map (·.dim d)) B g (bs.first.dim d).max ((bs.first.dim d).max - F + 1).toNat F = [] := by
          cases ((bs.first.dim d).max - F + 1).toNat with
          | zero => rfl
          | succ n => simp only [foldsFrom]; rw [if_neg (by omega)]
        rw [this, List.append_nil]
        exact runOneFold_tiles le_rfl le_rfl (hc.mono le_rfl (by omega))

theorem gcdFold_facts (a b : Int) : (gcdFold a b ≤ 0 → a ≤ 0 ∧ b ≤ 0) ∧
    (0 < gcdFold a b → (0 < a → gcdFold a b ∣ a) ∧ (0 < b → gcdFold a b ∣ b)) := by
  unfold gcdFold
  split
  · exact ⟨fun h => by omega, fun h => ⟨fun _ => by omega, fun _ => dvd_rfl⟩⟩
  · split
    · exact ⟨fun h => by omega, fun h => ⟨fun _ => dvd_rfl, fun _ => by omega⟩⟩
    · have : 0 < Int.gcd a b := Int.gcd_pos_of_ne_zero_left _ (by omega)
      exact ⟨fun h => by omega, fun h => ⟨fun _ => Int.gcd_dvd_left .., fun _ => Int.gcd_dvd_right ..⟩⟩

theorem foldl_gcdFold (d : Nat) : ∀ (l : List Buf) (f : Int),
    let g := l.foldl (fun f b => if d < b.rank then gcdFold f (b.dim d).fold else f) f
    (g ≤ 0 → f ≤ 0 ∧ ∀ b ∈ l, (b.dim d).fold ≤ 0) ∧
      (0 < g → (0 < f → g ∣ f) ∧ ∀ b ∈ l, 0 < (b.dim d).fold → g ∣ (b.dim d).fold)
  | [], f => by simp
  | b :: l, f => by
    simp only [List.foldl_cons]
    obtain ⟨h1, h2⟩ := foldl_gcdFold d l (if d < b.rank then gcdFold f (b.dim d).fold else f)
    generalize l.foldl (fun f b => if d < b.rank then gcdFold f (b.dim d).fold else f) (if d < b.rank then gcdFold f (b.dim d).fold else f) = g at *
    by_cases hr : d < b.rank
    · simp only [if_pos hr] at h1 h2
      obtain ⟨g1, g2⟩ := gcdFold_facts f (b.dim d).fold
      refine ⟨fun h => ?_, fun h => ?_⟩
      · have := h1 h
        refine ⟨(g1 this.1).1, fun c hc => ?_⟩
        rw [List.mem_cons] at hc
        rcases hc with rfl | hc
        · exact (g1 this.1).2
        · exact this.2 c hc
      · have := h2 h
        have hpos : 0 < f ∨ 0 < (b.dim d).fold → 0 < gcdFold f (b.dim d).fold := fun hh => by
          by_contra hn
          have := g1 (by omega)
          omega
        refine ⟨fun hf => (this.1 (hpos (.inl hf))).trans ((g2 (hpos (.inl hf))).1 hf), fun c hc hcf => ?_⟩
        rw [List.mem_cons] at hc
        rcases hc with rfl | hc
        · exact (this.1 (hpos (.inr hcf))).trans ((g2 (hpos (.inr hcf))).2 hcf)
        · exact this.2 c hc hcf
    · simp only [if_neg hr] at h1 h2
      have hb : (b.dim d).fold = 0 := by rw [dim_beyond (by omega)]; rfl
      refine ⟨fun h => ⟨(h1 h).1, fun c hc => ?_⟩, fun h => ⟨(h2 h).1, fun c hc hcf => ?_⟩⟩
      · rw [List.mem_cons] at hc
        rcases hc with rfl | hc
        · omega
        · exact (h1 h).2 c hc
      · rw [List.mem_cons] at hc
        rcases hc with rfl | hc
        · omega
        · exact (h2 h).2 c hc hcf

theorem loopFold_facts (bs : Bufs) (d : Nat) : (loopFold bs d ≤ 0 → ∀ b ∈ bs.all, (b.dim d).fold ≤ 0) ∧
    (0 < loopFold bs d → ∀ b ∈ bs.all, 0 < (b.dim d).fold → loopFold bs d ∣ (b.dim d).fold) := by
  have := foldl_gcdFold d bs.rest (bs.first.dim d).fold
  simp only at this
  rw [← loopFold] at this
  simp only [Bufs.all, List.mem_cons]
  refine ⟨fun h b hb => ?_, fun h b hb hf => ?_⟩
  · rcases hb with rfl | hb
    · exact (this.1 h).1
    · exact (this.1 h).2 b hb
  · rcases hb with rfl | hb
    · exact (this.2 h).1 hf
    · exact (this.2 h).2 b hb hf

theorem noCross_of {d : Nat} (hv : OkBufs bs) {lo hi : Int} (h : ∀ b ∈ bs.all, (b.dim d).isFolded lo hi = false) : NoCross bs d lo hi :=
  fun b hb _ _ h1 h2 h3 => flat_linear (hv.dim hb d) (h b hb) h1 h2 h3

theorem loop_tiles (hv : OkBufs bs) (d : Nat) (B : Ptrs) :
    Tiles (ChunkOK bs d B) (chunks (loopFold bs d) (bs.all.map (·.dim d)) B (bs.first.dim d).min (bs.first.dim d).max)
      (bs.first.dim d).min (bs.first.dim d).max := by
  obtain ⟨f1, f2⟩ := loopFold_facts bs d
  refine chunks_tiles (fun h lo hi => noCross_of hv fun b hb => ?_) (fun h lo hi he => noCross_of hv fun b hb => ?_)
  · simp only [Dim.isFolded, f1 h b hb, or_true, if_true]
  · unfold Dim.isFolded
    split
    · rfl
    · next hn =>
      obtain ⟨c, hc⟩ := f2 h b hb (by omega)
      rw [hc, ← Int.ediv_ediv_of_nonneg (by omega), ← Int.ediv_ediv_of_nonneg (by omega), he]
      simp

theorem ptrsAt_eq {d : Nat} {i : Int} (hi : (bs.first.dim d).min ≤ i ∧ i ≤ (bs.first.dim d).max) (B : Ptrs) :
    ptrsAt (bs.all.map (·.dim d)) B i = atD bs d i B := by
  cases B with
  | nil => simp [ptrsAt, atD, mapB, Bufs.all]
  | cons p ps =>
    simp only [ptrsAt, Bufs.all, List.map_cons, atD, mapB, List.zipWith_cons_cons, List.zipWith_map_left]
    congr 1
    · rw [ptr1, if_pos (by simp [Dim.contains, Dim.containsI, hi])]
    · refine zipWith_congr' fun q _ => ?_
      unfold ptrOther
      cases q.2 with
      | none => simp
      | some a =>
        simp only
        split
        · next h => rw [ptr1_stride0 h]
        · simp [ptr1, offs]

end

end FE
end Slinky
