import Verif.ForEachMain
import Verif.FuseProps

/-!
# C24, C25: `for_each_element` and `for_each_contiguous_slice`

Specification: `Buf.at b is` is the pointer to the element of the buffer `b` at the indices `is` of the first buffer. The
dimensions of `b` that the first buffer does not have are at the index 0, the only index of the missing dimensions of the first
buffer (`dim::broadcast()`), and the dimensions that `b` does not have are broadcasts. The pointer is null if the base of `b` is
null or the indices are out of bounds of `b` (`raw_buffer::contains`, where all indices are in bounds of a dimension with stride
0).
-/

namespace Slinky
namespace FE

/-- Specification: the pointer to the element of a buffer at the indices of the first buffer. -/
def _root_.Slinky.Buf.at (b : Buf) (is : List Int) : Option Int := b.view (is ++ List.replicate (b.rank - is.length) 0)

/-- Specification: `calls` has, for each index tuple of the first buffer, the pointers of all the buffers, once. -/
def EachIndexOnce (bs : Bufs) (calls : List Ptrs) : Prop :=
  ∃ idxs : List (List Int), idxs.Nodup ∧ (∀ is, is ∈ idxs ↔ bs.first.InBounds is) ∧
    calls.Perm (idxs.map fun is => bs.all.map (·.at is))

/-- The pointer at the indices `is` of the dimensions `ds`. -/
def vw (ds : List Dim) (is : List Int) (p : Option Int) : Option Int :=
  if Buf.containsL ds is then offs p (Buf.offset ds is) else none

theorem vw_nil (is : List Int) (p : Option Int) : vw [] is p = p := by simp [vw, Buf.containsL, Buf.offset]
theorem vw_nil' (ds : List Dim) (p : Option Int) : vw ds [] p = p := by cases ds <;> simp [vw, Buf.containsL, Buf.offset]
theorem vw_cons (d : Dim) (ds : List Dim) (i : Int) (is : List Int) (p : Option Int) :
    vw (d :: ds) (i :: is) p = ptr1 d (vw ds is p) i := by
  simp only [vw, ptr1, Buf.containsL, Buf.offset]
  by_cases h1 : d.contains i <;> by_cases h2 : Buf.containsL ds is <;> simp [h1, h2, offs_offs, add_comm]

theorem vw_none (ds : List Dim) (is : List Int) : vw ds is none = none := by simp [vw]

theorem ptr1_comm (d d' : Dim) (p : Option Int) (i i' : Int) : ptr1 d (ptr1 d' p i') i = ptr1 d' (ptr1 d p i) i' := by
  by_cases h : d.contains i <;> by_cases h' : d'.contains i' <;> simp [ptr1, h, h', offs_offs, add_comm]

theorem vw_snoc : ∀ (ds : List Dim) (is : List Int), ds.length = is.length → ∀ (d : Dim) (i : Int) (p : Option Int),
    vw (ds ++ [d]) (is ++ [i]) p = vw ds is (ptr1 d p i)
  | [], [], _, d, i, p => by simp [vw_nil, vw_cons]
  | e :: ds, j :: is, h, d, i, p => by
    simp only [List.cons_append, vw_cons]
    rw [vw_snoc ds is (by simpa using h)]

theorem vw_broadcasts : ∀ (ds : List Dim) (n : Nat) (is : List Int) (p : Option Int),
    vw (ds ++ List.replicate n .broadcast) is p = vw ds is p
  | [], 0, is, p => rfl
  | [], n + 1, [], p => by simp [vw_nil']
  | [], n + 1, i :: is, p => by
    have := vw_broadcasts [] n is p
    simp only [List.nil_append] at this
    rw [List.nil_append, List.replicate_succ, vw_cons, this, ptr1_broadcast, vw_nil, vw_nil]
  | d :: ds, n, [], p => by simp [vw_nil']
  | d :: ds, n, i :: is, p => by rw [List.cons_append, vw_cons, vw_cons, vw_broadcasts ds n is p]

theorem vw_extra : ∀ (ds : List Dim) (is js : List Int), ds.length ≤ is.length → ∀ p, vw ds (is ++ js) p = vw ds is p
  | [], is, js, _, p => by simp [vw_nil]
  | _ :: _, [], _, h, _ => by simp at h
  | d :: ds, i :: is, js, h, p => by
    rw [List.cons_append, vw_cons, vw_cons, vw_extra ds is js (by simpa using h)]

/-- The first `k` dimensions of a buffer. -/
def dimsK (b : Buf) (k : Nat) : List Dim := (List.range k).map b.dim

theorem dimsK_eq (b : Buf) {k : Nat} (h : b.rank ≤ k) : dimsK b k = b.dims ++ List.replicate (k - b.rank) .broadcast := by
  apply List.ext_getElem
  · simp [dimsK, Buf.rank] at h ⊢; omega
  · intro n h1 h2
    simp only [dimsK, List.getElem_map, List.getElem_range, Buf.dim]
    by_cases hn : n < b.dims.length
    · rw [List.getElem_append_left hn, List.getElem?_eq_getElem hn]; rfl
    · rw [List.getElem_append_right (by omega), List.getElem?_eq_none (by omega)]; simp

/-- All the indices of the first `k` dimensions of a buffer. -/
def idxK (b : Buf) : Nat → List (List Int)
  | 0 => [[]]
  | d + 1 => (rng (b.dim d).min (b.dim d).max).flatMap fun i => (idxK b d).map (· ++ [i])

theorem idxK_length (b : Buf) : ∀ (k : Nat) {is : List Int}, is ∈ idxK b k → is.length = k
  | 0, is, h => by simp [idxK] at h; simp [h]
  | d + 1, is, h => by
    simp only [idxK, List.mem_flatMap, List.mem_map] at h
    obtain ⟨i, -, js, hj, rfl⟩ := h
    simp [idxK_length b d hj]

theorem idxK_nodup (b : Buf) : ∀ k, (idxK b k).Nodup
  | 0 => by simp [idxK]
  | d + 1 => by
    rw [idxK, List.nodup_flatMap]
    refine ⟨fun i _ => (idxK_nodup b d).map fun x y h => by simpa using h, ?_⟩
    refine (rng_nodup _ _).imp_of_mem fun {i j} _ _ hij => ?_
    intro x hx hy
    simp only [List.mem_map] at hx hy
    obtain ⟨u, -, rfl⟩ := hx
    obtain ⟨v, -, hv⟩ := hy
    have := (List.append_inj' hv (by simp)).2
    simp at this
    exact hij this.symm

theorem inB_snoc : ∀ (ds : List Dim) (is : List Int) (d : Dim) (i : Int), InB (ds ++ [d]) (is ++ [i]) ↔ InB ds is ∧ d.min ≤ i ∧ i ≤ d.max
  | [], [], d, i => by simp [InB]
  | [], j :: is, d, i => by cases is <;> simp [InB]
  | e :: ds, [], d, i => by cases ds <;> simp [InB]
  | e :: ds, j :: is, d, i => by simp only [List.cons_append, InB, inB_snoc ds is d i]; tauto

theorem mem_idxK (b : Buf) : ∀ (k : Nat) (is : List Int), is ∈ idxK b k ↔ InB (dimsK b k) is
  | 0, is => by cases is <;> simp [idxK, dimsK, InB]
  | d + 1, is => by
    simp only [idxK, List.mem_flatMap, List.mem_map, mem_idxK b d, mem_rng]
    rw [show dimsK b (d + 1) = dimsK b d ++ [b.dim d] by simp [dimsK, List.range_succ]]
    constructor
    · rintro ⟨i, h1, js, h2, rfl⟩
      exact (inB_snoc _ _ _ _).2 ⟨h2, h1⟩
    · intro h
      have hl := InB.length h
      have hne : is ≠ [] := by rintro rfl; simp at hl
      rw [← List.dropLast_append_getLast hne, inB_snoc] at h
      exact ⟨is.getLast hne, h.2, is.dropLast, h.1, List.dropLast_append_getLast hne⟩

theorem enumB_idx {bs : Bufs} : ∀ (k : Nat) {B : Ptrs}, Fits bs B →
    enumB bs k B = (idxK bs.first k).map fun is => mapB bs (fun b p => vw (dimsK b k) is p) B
  | 0, B, hB => by simp [enumB, idxK, vw_nil', mapB_id hB]
  | d + 1, B, hB => by
    simp only [enumB, idxK, List.map_flatMap, List.map_map]
    refine flatMap_congr' fun i _ => ?_
    rw [enumB_idx d (hB.atD _ _)]
    refine List.map_congr_left fun is his => ?_
    simp only [Function.comp, atD, mapB_mapB]
    congr 1
    funext b p
    rw [show dimsK b (d + 1) = dimsK b d ++ [b.dim d] by simp [dimsK, List.range_succ],
      vw_snoc _ _ (by simp [dimsK, idxK_length _ _ his])]

theorem rank_le_maxRank {bs : Bufs} {b : Buf} (hb : b ∈ bs.all) : b.rank ≤ bs.maxRank := by
  have : ∀ (l : List Buf) (r : Nat), r ≤ l.foldl (fun r b => Max.max r b.rank) r ∧
      ∀ b ∈ l, b.rank ≤ l.foldl (fun r b => Max.max r b.rank) r := by
    intro l
    induction l with
    | nil => intro r; simp
    | cons a l ih =>
      intro r
      simp only [List.foldl_cons, List.mem_cons]
      obtain ⟨h1, h2⟩ := ih (max r a.rank)
      refine ⟨by omega, fun b hb => ?_⟩
      rcases hb with rfl | hb
      · omega
      · exact h2 b hb
  obtain ⟨h1, h2⟩ := this bs.rest bs.first.rank
  simp only [Bufs.all, List.mem_cons] at hb
  rcases hb with rfl | hb
  · exact h1
  · exact h2 b hb

theorem idxK_beyond (b : Buf) : ∀ n, idxK b (b.rank + n) = (idxK b b.rank).map (· ++ List.replicate n 0)
  | 0 => by simp
  | n + 1 => by
    rw [← Nat.add_assoc, idxK, dim_beyond (by omega : b.rank ≤ b.rank + n), idxK_beyond b n]
    have : rng Dim.broadcast.min Dim.broadcast.max = [0] := by decide
    rw [this]
    simp [List.replicate_succ']

theorem fits_bases (bs : Bufs) : Fits bs (bs.all.map (·.base)) := by
  refine ⟨by simp, fun q hq hb => ?_⟩
  obtain ⟨n, h1, h2⟩ := List.mem_iff_getElem.1 hq
  simp only [List.getElem_zip, List.getElem_map] at h2
  rw [← h2] at hb ⊢
  exact hb

theorem view_eq_vw (b : Buf) (is : List Int) : b.view is = vw b.dims is b.base := rfl

theorem mapB_bases (bs : Bufs) (f : Buf → Option Int → Option Int) : mapB bs f (bs.all.map (·.base)) = bs.all.map fun b => f b b.base := by
  simp [mapB, List.zipWith_map_right, List.zipWith_self]

/-- The specification, from the enumeration. -/
theorem eachIndexOnce_enum {bs : Bufs} {calls : List Ptrs} (h : calls.Perm (enumB bs bs.maxRank (bs.all.map (·.base)))) :
    EachIndexOnce bs calls := by
  refine ⟨idxK bs.first bs.first.rank, idxK_nodup _ _, fun is => ?_, h.trans (.of_eq ?_)⟩
  · rw [mem_idxK, dimsK_eq _ le_rfl]; simp [Buf.InBounds]
  · rw [enumB_idx _ (fits_bases bs)]
    obtain ⟨n, hn⟩ := Nat.exists_eq_add_of_le (rank_le_maxRank (bs := bs) (b := bs.first) (by simp [Bufs.all]))
    rw [hn, idxK_beyond, List.map_map]
    refine List.map_congr_left fun is his => ?_
    simp only [Function.comp, mapB_bases]
    refine List.map_congr_left fun b hb => ?_
    have hr := rank_le_maxRank hb
    have hl := idxK_length _ _ his
    rw [hn] at hr
    rw [Buf.at, view_eq_vw, dimsK_eq b hr, vw_broadcasts]
    obtain ⟨m, hm⟩ := Nat.exists_eq_add_of_le (show b.rank - is.length ≤ n by omega)
    rw [hm, List.replicate_add, ← List.append_assoc, vw_extra]
    simp only [List.length_append, List.length_replicate]
    change b.rank ≤ _
    omega

theorem run_snd_nonskip (bs : Bufs) : ∀ (k : Nat) (e : Int) (B : Ptrs), (plan false bs k e B 1).2.2 = 1 ∧
    ∀ f dims c, Loop.nonlinear f dims c ∈ (plan false bs k e B 1).1 → c = false
  | 0, _, _ => by simp [plan]
  | d + 1, e, B => by
    simp only [plan]
    split
    · simp only [Bool.false_and, List.mem_cons]
      have := run_snd_nonskip bs d 1 B
      refine ⟨this.1, fun f dims c hc => ?_⟩
      rcases hc with hc | hc
      · simp at hc; exact hc.2.2
      · exact this.2 f dims c hc
    · generalize (if (bs.first.dim d).min = (bs.first.dim d).max then e else e * ((bs.first.dim d).max - (bs.first.dim d).min + 1)) = E
      split
      · exact run_snd_nonskip bs d E _
      · simp only [Bool.false_and, Bool.false_eq_true, if_false, List.mem_cons]
        have := run_snd_nonskip bs d 1 (alignBases bs d B)
        refine ⟨this.1, fun f dims c hc => ?_⟩
        rcases hc with hc | hc
        · simp at hc
        · exact this.2 f dims c hc

theorem mem_steps {α : Type} {f : Ptrs → List α} {s : List Int} {a : α} : ∀ {n : Nat} {B : Ptrs}, a ∈ steps f s n B → ∃ C, a ∈ f C
  | 0, B, h => ⟨B, h⟩
  | n + 1, B, h => by
    simp only [steps, List.mem_append] at h
    rcases h with h | h
    · exact ⟨B, h⟩
    · exact mem_steps h

theorem run_extent_one : ∀ (ls : List Loop), (∀ f dims c, Loop.nonlinear f dims c ∈ ls → c = false) → ∀ B, ∀ c ∈ run ls B 1, c.2 = 1
  | [], _, B, c, hc => by simp [run] at hc; simp [hc]
  | .linear e s :: ls, h, B, c, hc => by
    simp only [run] at hc
    obtain ⟨C, hC⟩ := mem_steps hc
    exact run_extent_one ls (fun f dims c h' => h f dims c (by simp [h'])) C c hC
  | .nonlinear f dims c0 :: ls, h, B, c, hc => by
    have h0 : c0 = false := h f dims c0 (by simp)
    subst h0
    simp only [run, List.mem_flatMap] at hc
    obtain ⟨x, -, hc⟩ := hc
    obtain ⟨C, hC⟩ := mem_steps hc
    exact run_extent_one ls (fun f dims c h' => h f dims c (by simp [h'])) C c (by simpa using hC)

theorem run_length : ∀ {bs : Bufs}, OkBufs bs → ∀ (skip : Bool) (k : Nat) (e : Int) (B : Ptrs) (S : Int), Fits bs B → 1 ≤ e → 1 ≤ S →
    ∀ c ∈ runPlan skip bs k e B S, Fits bs c.1 ∧ 1 ≤ c.2
  | bs, hv, skip, 0, e, B, S, hB, he, hS, c, hc => by
    simp [runPlan, plan, run] at hc; subst hc; exact ⟨hB, hS⟩
  | bs, hv, skip, d + 1, e, B, S, hB, he, hS, c, hc => by
    by_cases hn : (bs.first.dim d).min ≠ (bs.first.dim d).max ∧ ((bs.first.dim d).max < (bs.first.dim d).min ∨ useNonlinear bs d = true)
    · obtain ⟨ls, al, m, ha, hp⟩ := plan_split hv skip d 1
      simp only [runPlan, plan, if_pos hn, hp B S hB, run, List.mem_flatMap] at hc
      obtain ⟨x, hx, hc⟩ := hc
      simp only [Bufs.all, List.map_cons, List.headD_cons] at hx
      obtain ⟨h1, h2, h3, h4⟩ := (loop_tiles hv d (al B)).2 x hx
      have he' : 1 ≤ (if (skip && isContiguousSlice bs d) = true then 1 else x.2) := by split <;> omega
      have hs' : 1 ≤ (if (skip && isContiguousSlice bs d) = true then x.2 else 1) := by split <;> omega
      rw [ptrsAt_eq ⟨h2, by omega⟩, ← ha.at_ hB, List.map_map,
        show ((fun x : Dim => x.stride) ∘ fun x : Buf => x.dim d) = fun b : Buf => (b.dim d).stride from rfl,
        doWhile_eq he' (ha.fits (hB.atD _ _)), List.mem_flatMap] at hc
      obtain ⟨j, -, hc⟩ := hc
      rw [← ha.shift (hB.atD _ _)] at hc
      have hf := (hB.atD d x.1).shiftB fun b => j * (b.dim d).stride
      refine run_length hv skip d 1 _ ((if (skip && isContiguousSlice bs d) = true then x.2 else 1) * S) hf le_rfl (by nlinarith) c ?_
      simp only [runPlan, hp _ _ hf]
      rw [mul_assoc]
      exact hc
    · have hl := not_nonlinear hn
      have hmm : (bs.first.dim d).min ≤ (bs.first.dim d).max := by rcases hl with hl | hl <;> omega
      have hBa := hB.atD d (bs.first.dim d).min
      generalize hE : (if (bs.first.dim d).min = (bs.first.dim d).max then e else e * ((bs.first.dim d).max - (bs.first.dim d).min + 1)) = E
      have hE1 : 1 ≤ E := by
        rw [← hE]
        split
        · exact he
        · have : 1 ≤ (bs.first.dim d).max - (bs.first.dim d).min + 1 := by omega
          nlinarith
      by_cases hcf : E = 1 ∨ (d > 0 ∧ canFuse bs d = true)
      · simp only [runPlan, plan, if_neg hn, hE, if_pos hcf, alignBases_eq hv hl hB] at hc
        exact run_length hv skip d E _ S hBa hE1 hS c hc
      · by_cases hcs : (skip && isContiguousSlice bs d) = true
        · simp only [runPlan, plan, if_neg hn, hE, if_neg hcf, hcs, if_true, alignBases_eq hv hl hB] at hc
          exact run_length hv skip d 1 _ (S * E) hBa le_rfl (by nlinarith) c hc
        · obtain ⟨ls, al, m, ha, hp⟩ := plan_split hv skip d 1
          simp only [runPlan, plan, if_neg hn, hE, if_neg hcf, if_neg hcs, alignBases_eq hv hl hB, hp _ _ hBa, run] at hc
          rw [doWhile_eq hE1 (ha.fits hBa), List.mem_flatMap] at hc
          obtain ⟨t, -, hc⟩ := hc
          rw [← ha.shift hBa] at hc
          have hf := hBa.shiftB fun b => t * (b.dim d).stride
          refine run_length hv skip d 1 _ S hf le_rfl hS c ?_
          simp only [runPlan, hp _ _ hf]
          exact hc

/-- **C24**. `for_each_element` calls the callback exactly once for each index tuple in the bounds of the first buffer, with the
pointers of the elements of all buffers at that tuple. There is no restriction on the strides, the bounds (which can be empty),
the bases (which can be null), or the ranks. -/
theorem forEachElement_once (bs : Bufs) (hv : OkBufs bs) : EachIndexOnce bs (forEachElement bs) := by
  apply eachIndexOnce_enum
  have hm := main (bs := bs) hv false (by simp) bs.maxRank 1 (bs.all.map (·.base)) 1 (fun _ => 0) (fits_bases bs) le_rfl le_rfl
    (by simp) (by simp) (by simp)
  have hone : ∀ c ∈ runPlan false bs bs.maxRank 1 (bs.all.map (·.base)) 1, c.2 = 1 := by
    have := run_snd_nonskip bs bs.maxRank 1 (bs.all.map (·.base))
    unfold runPlan
    rw [this.1]
    exact run_extent_one _ this.2 _
  have hlen := run_length hv false bs.maxRank 1 (bs.all.map (·.base)) 1 (fits_bases bs) le_rfl le_rfl
  have hfe : forEachElement bs = (runPlan false bs bs.maxRank 1 (bs.all.map (·.base)) 1).flatMap (expand bs) := by
    change (runPlan false bs bs.maxRank 1 (bs.all.map (·.base)) 1).map (·.1) = _
    rw [← List.flatMap_singleton' (List.map _ _), List.flatMap_map]
    refine flatMap_congr' fun c hc => ?_
    have h1 := hone c hc
    have h2 := (hlen c hc).1
    obtain ⟨c1, c2⟩ := c
    simp only at h1
    subst h1
    rw [expand_one h2]
  rw [hfe]
  refine hm.trans (.of_eq ?_)
  simp only [Int.toNat_one, List.range_one, List.flatMap_cons, List.flatMap_nil, List.append_nil]
  rw [shiftB_zero (fits_bases bs) (by simp)]
  conv_rhs => rw [← List.flatMap_singleton' (enumB bs bs.maxRank _)]
  exact flatMap_congr' fun C hC => expand_one (fits_enumB _ (fits_bases bs) C hC)

/-- Specification: the elements of a slice of the given extent: one after the other in all the buffers whose pointers are not
null. -/
def sliceElements (elems : List Int) (c : Call) : List Ptrs :=
  (List.range c.2.toNat).map fun s : Nat => List.zipWith (fun (e : Int) (p : Option Int) => p.map (· + s * e)) elems c.1

theorem sliceElements_eq (bs : Bufs) : sliceElements (bs.all.map (·.elem)) = expand bs := by
  funext c
  simp [sliceElements, expand, shiftB, mapB, List.zipWith_map_left, offs]

/-- **C25**. The elements of the slices of `for_each_contiguous_slice` are the elements of the first buffer, each once, with the
elements of the other buffers at the same indices (null if they are out of bounds); and no slice is empty. This is only true if
at most one dimension of the first buffer has the stride of an element and more than one index
(`forEachContiguousSlice_two_slices`): so this is partial. -/
theorem forEachContiguousSlice_once_partial (bs : Bufs) (hv : OkBufs bs) (h1 : OneSlice bs) :
    EachIndexOnce bs ((forEachContiguousSlice bs).flatMap (sliceElements (bs.all.map (·.elem)))) ∧
      ∀ c ∈ forEachContiguousSlice bs, 1 ≤ c.2 := by
  have hm := main (bs := bs) hv true (fun _ => h1) bs.maxRank 1 (bs.all.map (·.base)) 1 (fun _ => 0) (fits_bases bs) le_rfl le_rfl
    (by simp) (by simp) (by simp)
  refine ⟨eachIndexOnce_enum ?_, fun c hc => ?_⟩
  · rw [sliceElements_eq]
    refine hm.trans (.of_eq ?_)
    simp only [Int.toNat_one, List.range_one, List.flatMap_cons, List.flatMap_nil, List.append_nil]
    rw [shiftB_zero (fits_bases bs) (by simp)]
    conv_rhs => rw [← List.flatMap_singleton' (enumB bs bs.maxRank _)]
    exact flatMap_congr' fun C hC => expand_one (fits_enumB _ (fits_bases bs) C hC)
  · exact (run_length (bs := bs) hv true bs.maxRank 1 (bs.all.map (fun b : Buf => b.base)) 1 (fits_bases bs) le_rfl le_rfl c hc).2

/-- Finding 38: with two dimensions with the stride of an element, `for_each_contiguous_slice` makes one slice for both: here,
the buffer has 4 indices and 3 addresses, and the slice has 4 elements, the last of which is not an element of the buffer. -/
theorem forEachContiguousSlice_two_slices :
    let b : Buf := ⟨some 100, 1, [⟨0, 1, 1, -1⟩, ⟨0, 1, 1, -1⟩]⟩
    let bs : Bufs := ⟨b, []⟩
    OkBufs bs ∧ forEachContiguousSlice bs = [([some 100], 4)] ∧
      [some 103] ∈ (forEachContiguousSlice bs).flatMap (sliceElements (bs.all.map (·.elem))) ∧
      (∀ is, b.InBounds is → b.address is ≠ some 103) ∧
      ¬ EachIndexOnce bs ((forEachContiguousSlice bs).flatMap (sliceElements (bs.all.map (·.elem)))) := by
  intro b bs
  have h2 : forEachContiguousSlice bs = [([some 100], 4)] := by decide +kernel
  have h3 : [some 103] ∈ (forEachContiguousSlice bs).flatMap (sliceElements (bs.all.map (·.elem))) := by rw [h2]; decide
  have h4 : ∀ is, b.InBounds is → b.address is ≠ some 103 := by
    intro is his
    match is, his with
    | [i, j], h =>
      obtain ⟨⟨a1, a2⟩, ⟨a3, a4⟩, -⟩ := h
      simp only [Buf.address, b, Buf.offset, Dim.flatOffset, Dim.unfolded] at *
      simp; omega
  refine ⟨?_, h2, h3, h4, ?_⟩
  · intro c hc d hd
    simp [Bufs.all, bs] at hc
    subst hc
    simp [b] at hd
    subst hd
    exact .inl (.inl rfl)
  · rintro ⟨idxs, -, hm, hp⟩
    have := (hp.mem_iff).1 h3
    simp only [List.mem_map] at this
    obtain ⟨is, his, he⟩ := this
    have hin := (hm is).1 his
    have hlen := InB.length hin
    have : b.at is = some 103 := by simpa [Bufs.all, bs] using he
    rw [Buf.at, show b.rank - is.length = 0 by simp [Buf.rank, hlen, b, bs]] at this
    simp only [List.replicate_zero, List.append_nil, Buf.view] at this
    split at this
    · exact h4 is hin this
    · simp at this

/-! ### Examples: the hypotheses are met -/

/-- A folded buffer of rank 2, a buffer of rank 2 that is smaller, a buffer of rank 1, and a buffer with a null base. -/
def exBufs : Bufs where
  first := ⟨some 1000, 1, [⟨0, 3, 1, -1⟩, ⟨5, 9, 4, 3⟩]⟩
  rest := [⟨some 2000, 2, [⟨1, 2, 2, -1⟩, ⟨6, 7, 4, -1⟩]⟩, ⟨some 3000, 1, [⟨0, 3, 1, -1⟩]⟩, ⟨none, 1, []⟩]

theorem exBufs_ok : OkBufs exBufs := by
  simp [OkBufs, exBufs, Bufs.all, OkDim, Dim.Valid, Dim.unfolded]

theorem exBufs_oneSlice : OneSlice exBufs := by
  intro d d' hd h1 h2 h3 h4
  have : ∀ d, 1 ≤ d → (exBufs.first.dim d).stride ≠ exBufs.first.elem := by
    intro d hd
    match d, hd with
    | 1, _ => decide
    | d + 2, _ => rw [dim_beyond (by simp [exBufs, Buf.rank])]; decide
  exact this d' (by omega) h2

example : (forEachElement exBufs).length = 20 ∧ (forEachElement exBufs).head? = some [some 1008, none, some 3000, none] ∧
    [some 1002, some 2002, some 3002, none] ∈ forEachElement exBufs := by decide +kernel

example : forEachContiguousSlice exBufs =
    [([some 1008, none, some 3000, none], 4), ([some 1000, none, some 3000, none], 1), ([some 1001, some 2000, some 3001, none], 2),
      ([some 1003, none, some 3003, none], 1), ([some 1004, none, some 3000, none], 1),
      ([some 1005, some 2004, some 3001, none], 2), ([some 1007, none, some 3003, none], 1),
      ([some 1008, none, some 3000, none], 4), ([some 1000, none, some 3000, none], 4)] := by decide +kernel

example : EachIndexOnce exBufs (forEachElement exBufs) := forEachElement_once _ exBufs_ok

example := forEachContiguousSlice_once_partial exBufs exBufs_ok exBufs_oneSlice

end FE
end Slinky
