import Verif.CopyImpl
import Verif.Track

/-! # C26: `pad_impl` -/

namespace Slinky
namespace Copy

open FE (Ptrs OkDim OkBufs vw ptr1 offs)
open Track (InR)

/-- The elements at some of the indices of `dst`. -/
def pairsOn (dst : Buf) (f : List Int → Option Int) (S : List Int → Prop) : Set (Int × Int) :=
  {p | ∃ is, dst.InBounds is ∧ S is ∧ dst.address is = some p.1 ∧ f is = some p.2}

theorem pairsOn_sub {dst : Buf} {f : List Int → Option Int} {S : List Int → Prop} : pairsOn dst f S ⊆ pairs dst f := by
  rintro p ⟨is, h1, -, h2, h3⟩
  exact ⟨is, h1, h2, h3⟩

/-- An index below the dimension `k` is out of the bounds of `src`. -/
def Out (k : Nat) (src : Buf) (is : List Int) : Prop :=
  ∃ d < k, (src.dim d).isBroadcast = false ∧ ∃ i, is[d]? = some i ∧ ¬ ((src.dim d).min ≤ i ∧ i ≤ (src.dim d).max)

theorem inB_set : ∀ {ds : List Dim} {is : List Int} {n : Nat} {dd : Dim} {mn mx : Int}, ds[n]? = some dd →
    (InB (ds.set n { dd with min := max mn dd.min, max := min mx dd.max }) is ↔ InB ds is ∧ ∀ i, is[n]? = some i → mn ≤ i ∧ i ≤ mx)
  | [], _, _, _, _, _, h => by simp at h
  | d :: ds, [], 0, dd, mn, mx, h => by simp [InB]
  | d :: ds, [], n + 1, dd, mn, mx, h => by simp [InB]
  | d :: ds, i :: is, 0, dd, mn, mx, h => by
    simp at h; subst h
    simp only [List.set_cons_zero, InB, List.getElem?_cons_zero, Option.some.injEq, forall_eq']
    constructor
    · rintro ⟨h1, h2⟩; exact ⟨⟨by omega, h2⟩, by omega⟩
    · rintro ⟨⟨h1, h2⟩, h3⟩; exact ⟨by omega, h2⟩
  | d :: ds, i :: is, n + 1, dd, mn, mx, h => by
    simp at h
    simp only [List.set_cons_succ, InB, List.getElem?_cons_succ]
    rw [inB_set h]
    tauto

theorem crop_inB (b : Buf) {d : Nat} (mn mx : Int) (h : d < b.rank) (is : List Int) :
    (b.crop d mn mx).InBounds is ↔ b.InBounds is ∧ ∀ i, is[d]? = some i → mn ≤ i ∧ i ≤ mx := by
  rw [crop_eq b d mn mx (by omega)]
  exact inB_set (dim_eq b d h)

theorem crop_addr (b : Buf) {d : Nat} (mn mx : Int) (h : d < b.rank) {is : List Int} (hi : (b.crop d mn mx).InBounds is) :
    (b.crop d mn mx).address is = b.address is := by
  have h' : d < (b.crop d mn mx).rank := by rw [(crop_other b d mn mx).2.1]; exact h
  obtain ⟨x, h1, h2⟩ := InB.get hi (dim_eq _ d h')
  exact crop_address b d mn mx is x h h1 h2

theorem crop_dims_mem {b : Buf} {d : Nat} {mn mx : Int} {e : Dim} (he : e ∈ (b.crop d mn mx).dims) :
    ∃ e' ∈ b.dims, e.stride = e'.stride ∧ e.fold = e'.fold := by
  by_cases h : d ≥ b.rank
  · rw [crop_broadcast b d mn mx h] at he
    exact ⟨e, he, rfl, rfl⟩
  · rw [crop_eq b d mn mx h] at he
    rcases List.mem_or_eq_of_mem_set he with he | rfl
    · exact ⟨e, he, rfl, rfl⟩
    · exact ⟨b.dim d, List.mem_of_getElem? (dim_eq b d (by omega)), rfl, rfl⟩

theorem okDim_crop {b : Buf} {d : Nat} {mn mx : Int} (h : ∀ e ∈ b.dims, OkDim e) : ∀ e ∈ (b.crop d mn mx).dims, OkDim e := by
  intro e he
  obtain ⟨e', h1, h2, h3⟩ := crop_dims_mem he
  have := h e' h1
  unfold OkDim Dim.Valid at *
  rw [h2, h3]
  exact this

theorem crop_base_some (b : Buf) {d : Nat} (mn mx : Int) (h : d < b.rank) (hb : b.base.isSome) (hne : ∃ is, (b.crop d mn mx).InBounds is) :
    (b.crop d mn mx).base.isSome := by
  obtain ⟨is, hi⟩ := hne
  have h' : d < (b.crop d mn mx).rank := by rw [(crop_other b d mn mx).2.1]; exact h
  obtain ⟨x, h1, h2⟩ := InB.get hi (dim_eq _ d h')
  rw [crop_dim b d mn mx h] at h2
  have := crop_nonempty b d mn mx (by rw [← Option.isSome_iff_ne_none]; exact hb) (by simp only at h2; omega)
  exact Option.isSome_iff_ne_none.2 this

theorem contains_set : ∀ {ds : List Dim} {is : List Int} {n : Nat} {dd dn : Dim} {i : Int}, ds[n]? = some dd → is[n]? = some i →
    dn.contains i = true → dd.contains i = true → Buf.containsL (ds.set n dn) is = Buf.containsL ds is
  | [], _, _, _, _, _, h, _, _, _ => by simp at h
  | _ :: _, [], _, _, _, _, _, h, _, _ => by simp at h
  | d :: ds, j :: is, 0, dd, dn, i, h, h', h1, h2 => by
    simp at h h'; subst h h'
    simp [Buf.containsL, h1, h2]
  | d :: ds, j :: is, n + 1, dd, dn, i, h, h', h1, h2 => by
    simp at h h'
    simp [Buf.containsL, contains_set h h' h1 h2]

/-- The crop of `src` to the bounds of `dst` does not change its elements within the bounds of both. -/
theorem crop_at (b : Buf) {d : Nat} (mn mx : Int) (h : d < b.rank) {is : List Int} {i : Int} (hi : is[d]? = some i)
    (h1 : (b.dim d).min ≤ i ∧ i ≤ (b.dim d).max) (h2 : mn ≤ i ∧ i ≤ mx) : (b.crop d mn mx).at is = b.at is := by
  have hr := (crop_other b d mn mx).2.1
  have hl : d < is.length := (List.getElem?_eq_some_iff.1 hi).1
  have hi' : ∀ l : List Int, (is ++ l)[d]? = some i := fun l => by rw [List.getElem?_append_left hl, hi]
  unfold Buf.at Buf.view
  rw [hr, crop_address b d mn mx _ i h (hi' _) (by rw [crop_dim b d mn mx h]; simp only; omega)]
  congr 2
  unfold Buf.contains
  rw [crop_eq b d mn mx (by omega)]
  simp only
  exact contains_set (dim_eq b d h) (hi' _) ((dim_contains_iff _ _).2 (.inr (by simp only; omega))) ((dim_contains_iff _ _).2 (.inr h1))

/-- Copying the padding to a crop of `dst`. -/
theorem pad_crop {pad dst : Buf} {f : List Int → Option Int} {d : Nat} {mn mx : Int} {m : Mem} (hd : d < dst.rank)
    (hok : OkBufs ⟨dst, [pad]⟩) (helem : pad.elem = dst.elem) (he : 0 < dst.elem)
    (hu : ∀ d ∈ dst.dims, d.fold = Dim.unfolded) (hcov : CoversD pad dst) (hb : (∃ is, dst.InBounds is) → dst.base.isSome) (hpb : pad.base.isSome)
    (hs : Separate dst f) (hf : ∀ is i, dst.InBounds is → is[d]? = some i → mn ≤ i ∧ i ≤ mx → f is = pad.at is) :
    ∃ m', copyImpl pad (dst.crop d mn mx) m = some m' ∧
      Copied dst.elem (pairsOn dst f fun is => ∀ i, is[d]? = some i → mn ≤ i ∧ i ≤ mx) m m' := by
  have hco := crop_other dst d mn mx
  have hin := crop_inB dst mn mx hd
  have hff : ∀ is, (dst.crop d mn mx).InBounds is → f is = pad.at is := by
    intro is hi
    rw [hin] at hi
    obtain ⟨i, h1, h2⟩ := InB.get hi.1 (dim_eq dst d hd)
    exact hf is i hi.1 h1 (hi.2 i h1)
  have hp : pairs (dst.crop d mn mx) pad.at = pairsOn dst f fun is => ∀ i, is[d]? = some i → mn ≤ i ∧ i ≤ mx := by
    ext p
    constructor
    · rintro ⟨is, h1, h2, h3⟩
      have := (hin is).1 h1
      exact ⟨is, this.1, this.2, by rw [← h2, crop_addr dst mn mx hd h1], by rw [hff is h1, h3]⟩
    · rintro ⟨is, h1, h2, h3, h4⟩
      have := (hin is).2 ⟨h1, h2⟩
      exact ⟨is, this, by rw [crop_addr dst mn mx hd this, h3], by rw [← hff is this, h4]⟩
  have := copyImpl_copied (src := pad) (dst := dst.crop d mn mx) (m := m) (by
      intro b hb e hee
      simp only [Bufs.all, List.mem_cons, List.not_mem_nil, or_false] at hb
      rcases hb with rfl | rfl
      · exact okDim_crop (fun e he => hok dst (by simp [Bufs.all]) e he) e hee
      · exact hok b (by simp [Bufs.all]) e hee)
    (by rw [hco.2.2, helem]) (by rw [hco.2.2]; exact he)
    (fun e hee => by
      obtain ⟨e', h1, h2, h3⟩ := crop_dims_mem hee
      rw [h3]; exact hu e' h1)
    (fun j => by
      have := hcov j
      by_cases hj : j = d
      · subst hj
        rw [crop_dim dst j mn mx hd]
        simp only
        omega
      · rw [hco.1 j hj]; exact this)
    (fun hne => ⟨crop_base_some dst mn mx hd (hb (by obtain ⟨is, hi⟩ := hne; exact ⟨is, ((hin is).1 hi).1⟩)) hne, hpb⟩)
    ⟨fun is js a b h1 h2 h3 h4 h5 => by
        rw [hco.2.2]
        rw [crop_addr dst mn mx hd h1] at h4
        rw [crop_addr dst mn mx hd h2] at h5
        exact hs.dst_dst is js a b ((hin is).1 h1).1 ((hin js).1 h2).1 h3 h4 h5,
      fun is js a b h1 h2 h3 h4 => by
        rw [hco.2.2]
        rw [crop_addr dst mn mx hd h1] at h3
        rw [← hff js h2] at h4
        exact hs.dst_src is js a b ((hin is).1 h1).1 ((hin js).1 h2).1 h3 h4⟩
  rw [hp, hco.2.2] at this
  exact this

/-- What `pad_impl` does: it copies the padding to the elements of `dst` that are out of the bounds of `src`, and crops both
buffers to the bounds of both. -/
structure PadResult (k : Nat) (src dst src' dst' : Buf) (f : List Int → Option Int) (m m' : Mem) : Prop where
  copied : Copied dst.elem (pairsOn dst f (Out k src)) m m'
  inB : ∀ is, dst'.InBounds is ↔ dst.InBounds is ∧ ¬ Out k src is
  addr : ∀ is, dst'.InBounds is → dst'.address is = dst.address is ∧ src'.at is = src.at is
  dbase : dst.base.isSome → (∃ is, dst'.InBounds is) → dst'.base.isSome
  sbase : src.base.isSome → (∃ is, dst'.InBounds is) → src'.base.isSome
  elem : dst'.elem = dst.elem ∧ src'.elem = src.elem
  rank : dst'.rank = dst.rank ∧ src'.rank = src.rank
  unfolded : ∀ e ∈ dst'.dims, ∃ e' ∈ dst.dims, e.stride = e'.stride ∧ e.fold = e'.fold
  sdims : ∀ e ∈ src'.dims, ∃ e' ∈ src.dims, e.stride = e'.stride ∧ e.fold = e'.fold
  outer : ∀ d, k ≤ d → src'.dim d = src.dim d ∧ dst'.dim d = dst.dim d
  inner : ∀ d < k, ((src.dim d).isBroadcast = true ∧ src'.dim d = src.dim d) ∨ ((src'.dim d).min = (dst'.dim d).min ∧ (dst'.dim d).max = (src'.dim d).max)

theorem padImpl_result {pad : Buf} {f : List Int → Option Int} : ∀ (k : Nat) (src dst : Buf) (m : Mem), k ≤ src.rank → k ≤ dst.rank →
    OkBufs ⟨dst, [pad]⟩ → pad.elem = dst.elem → 0 < dst.elem → (∀ d ∈ dst.dims, d.fold = Dim.unfolded) → CoversD pad dst →
    ((∃ is, dst.InBounds is) → dst.base.isSome) → pad.base.isSome → Separate dst f →
    (∀ is, dst.InBounds is → Out k src is → f is = pad.at is) →
    ∃ src' dst' m', padImpl k src dst pad m = some (src', dst', m') ∧ PadResult k src dst src' dst' f m m'
  | 0, src, dst, m, _, _, _, _, _, _, _, _, _, _, _ => by
    have hout : ∀ is, ¬ Out 0 src is := by rintro is ⟨d, hd, -⟩; omega
    refine ⟨src, dst, m, rfl, ?_, fun is => by simp [hout], fun _ _ => ⟨rfl, rfl⟩, fun h _ => h, fun h _ => h, ⟨rfl, rfl⟩, ⟨rfl, rfl⟩,
      fun e he => ⟨e, he, rfl, rfl⟩, fun e he => ⟨e, he, rfl, rfl⟩, fun _ _ => ⟨rfl, rfl⟩, fun d hd => by omega⟩
    have : pairsOn dst f (Out 0 src) = ∅ := by
      ext p
      simp [pairsOn, hout]
    rw [this]
    exact Copied.empty _ _
  | d + 1, src, dst, m, hks, hkd, hok, helem, he, hu, hcov, hb, hpb, hs, hf => by
    have hds : d < src.rank := by omega
    have hdd : d < dst.rank := by omega
    rw [padImpl]
    by_cases hbc : (src.dim d).isBroadcast = true
    · simp only
      rw [if_pos hbc]
      have hO : ∀ is, Out (d + 1) src is ↔ Out d src is := by
        intro is
        constructor
        · rintro ⟨j, hj, h1, h2⟩
          by_cases hjd : j = d
          · subst hjd; rw [hbc] at h1; simp at h1
          · exact ⟨j, by omega, h1, h2⟩
        · rintro ⟨j, hj, h⟩; exact ⟨j, by omega, h⟩
      obtain ⟨src', dst', m', h1, h2⟩ := padImpl_result d src dst m (by omega) (by omega) hok helem he hu hcov hb hpb hs
        (fun is hi ho => hf is hi ((hO is).2 ho))
      refine ⟨src', dst', m', h1, ?_, fun is => by rw [h2.inB is, hO is], h2.addr, h2.dbase, h2.sbase, h2.elem, h2.rank, h2.unfolded, h2.sdims,
        fun j hj => h2.outer j (by omega), fun j hj => ?_⟩
      · have : pairsOn dst f (Out (d + 1) src) = pairsOn dst f (Out d src) := by
          unfold pairsOn; simp only [hO]
        rw [this]; exact h2.copied
      · by_cases hjd : j = d
        · subst hjd; exact .inl ⟨hbc, (h2.outer j le_rfl).1⟩
        · exact h2.inner j (by omega)
    · simp only
      rw [if_neg hbc]
      simp only [Bool.not_eq_true] at hbc
      -- indices in the dimension d
      have hget : ∀ is, dst.InBounds is → ∃ i, is[d]? = some i ∧ (dst.dim d).min ≤ i ∧ i ≤ (dst.dim d).max := fun is hi => InB.get hi (dim_eq dst d hdd)
      -- before
      have hL : ∃ m1, (if (dst.dim d).min < (src.dim d).min then copyImpl pad (dst.crop d (dst.dim d).min ((src.dim d).min - 1)) m else some m) = some m1 ∧
          Copied dst.elem (pairsOn dst f fun is => ∀ i, is[d]? = some i → i < (src.dim d).min) m m1 := by
        split
        · obtain ⟨m1, h1, h2⟩ := pad_crop (f := f) (m := m) (mn := (dst.dim d).min) (mx := (src.dim d).min - 1) hdd hok helem he hu hcov hb hpb hs
            (fun is i hi h1 h2 => hf is hi ⟨d, by omega, hbc, i, h1, by omega⟩)
          refine ⟨m1, h1, ?_⟩
          convert h2 using 1
          ext p
          constructor
          · rintro ⟨is, a1, a2, a3⟩
            obtain ⟨i, hi, hi2⟩ := hget is a1
            refine ⟨is, a1, fun j hj => ?_, a3⟩
            have := a2 j hj
            rw [hi] at hj
            simp at hj
            omega
          · rintro ⟨is, a1, a2, a3⟩
            exact ⟨is, a1, fun j hj => by have := a2 j hj; omega, a3⟩
        · next hlt =>
          refine ⟨m, rfl, ?_⟩
          have : (pairsOn dst f fun is => ∀ i, is[d]? = some i → i < (src.dim d).min) = ∅ := by
            ext p
            simp only [Set.mem_empty_iff_false, iff_false]
            rintro ⟨is, a1, a2, a3⟩
            obtain ⟨i, hi, hi2⟩ := hget is a1
            have := a2 i hi
            omega
          rw [this]
          exact Copied.empty _ _
      obtain ⟨m1, hm1, hc1⟩ := hL
      have hR : ∃ m2, (if (dst.dim d).max > (src.dim d).max then copyImpl pad (dst.crop d ((src.dim d).max + 1) (dst.dim d).max) m1 else some m1) = some m2 ∧
          Copied dst.elem (pairsOn dst f fun is => ∀ i, is[d]? = some i → (src.dim d).max < i) m1 m2 := by
        split
        · obtain ⟨m2, h1, h2⟩ := pad_crop (f := f) (m := m1) (mn := (src.dim d).max + 1) (mx := (dst.dim d).max) hdd hok helem he hu hcov hb hpb hs
            (fun is i hi h1 h2 => hf is hi ⟨d, by omega, hbc, i, h1, by omega⟩)
          refine ⟨m2, h1, ?_⟩
          convert h2 using 1
          ext p
          constructor
          · rintro ⟨is, a1, a2, a3⟩
            obtain ⟨i, hi, hi2⟩ := hget is a1
            refine ⟨is, a1, fun j hj => ?_, a3⟩
            have := a2 j hj
            rw [hi] at hj
            simp at hj
            omega
          · rintro ⟨is, a1, a2, a3⟩
            exact ⟨is, a1, fun j hj => by have := a2 j hj; omega, a3⟩
        · next hlt =>
          refine ⟨m1, rfl, ?_⟩
          have : (pairsOn dst f fun is => ∀ i, is[d]? = some i → (src.dim d).max < i) = ∅ := by
            ext p
            simp only [Set.mem_empty_iff_false, iff_false]
            rintro ⟨is, a1, a2, a3⟩
            obtain ⟨i, hi, hi2⟩ := hget is a1
            have := a2 i hi
            omega
          rw [this]
          exact Copied.empty _ _
      obtain ⟨m2, hm2, hc2⟩ := hR
      rw [hm1]
      simp only [Option.bind_some]
      rw [hm2]
      simp only [Option.bind_some]
      -- the crops
      have hdo := crop_other dst d (src.dim d).min (src.dim d).max
      have hso := crop_other src d (dst.dim d).min (dst.dim d).max
      have hdi := crop_inB dst (src.dim d).min (src.dim d).max hdd
      have hO' : ∀ is, Out d (src.crop d (dst.dim d).min (dst.dim d).max) is ↔ Out d src is := by
        intro is
        constructor
        · rintro ⟨j, hj, h⟩
          rw [hso.1 j (by omega)] at h
          exact ⟨j, hj, h⟩
        · rintro ⟨j, hj, h⟩
          refine ⟨j, hj, ?_⟩
          rw [hso.1 j (by omega)]
          exact h
      obtain ⟨src', dst', m', h1, h2⟩ := padImpl_result (f := f) d (src.crop d (dst.dim d).min (dst.dim d).max) (dst.crop d (src.dim d).min (src.dim d).max) m2
        (by rw [hso.2.1]; omega) (by rw [hdo.2.1]; omega)
        (by
          intro b hb e hee
          simp only [Bufs.all, List.mem_cons, List.not_mem_nil, or_false] at hb
          rcases hb with rfl | rfl
          · exact okDim_crop (fun e he => hok dst (by simp [Bufs.all]) e he) e hee
          · exact hok b (by simp [Bufs.all]) e hee)
        (by rw [hdo.2.2, helem]) (by rw [hdo.2.2]; exact he)
        (fun e hee => by
          obtain ⟨e', h1, h2, h3⟩ := crop_dims_mem hee
          rw [h3]; exact hu e' h1)
        (fun j => by
          have := hcov j
          by_cases hj : j = d
          · subst hj
            rw [crop_dim dst j _ _ hdd]
            simp only
            omega
          · rw [hdo.1 j hj]; exact this)
        (fun hne => crop_base_some dst _ _ hdd (hb (by obtain ⟨is, hi⟩ := hne; exact ⟨is, ((hdi is).1 hi).1⟩)) hne)
        hpb
        ⟨fun is js a b h1 h2 h3 h4 h5 => by
            rw [hdo.2.2]
            rw [crop_addr dst _ _ hdd h1] at h4
            rw [crop_addr dst _ _ hdd h2] at h5
            exact hs.dst_dst is js a b ((hdi is).1 h1).1 ((hdi js).1 h2).1 h3 h4 h5,
          fun is js a b h1 h2 h3 h4 => by
            rw [hdo.2.2]
            rw [crop_addr dst _ _ hdd h1] at h3
            exact hs.dst_src is js a b ((hdi is).1 h1).1 ((hdi js).1 h2).1 h3 h4⟩
        (fun is hi ho => hf is ((hdi is).1 hi).1 (by
          obtain ⟨j, hj, h⟩ := (hO' is).1 ho
          exact ⟨j, by omega, h⟩))
      have hdim' : (dst.crop d (src.dim d).min (src.dim d).max).InBounds = fun is => dst.InBounds is ∧ ∀ i, is[d]? = some i → (src.dim d).min ≤ i ∧ i ≤ (src.dim d).max := by
        funext is
        exact propext (hdi is)
      have hinB : ∀ is, dst'.InBounds is ↔ dst.InBounds is ∧ ¬ Out (d + 1) src is := by
        intro is
        rw [h2.inB is, hdi is, hO' is]
        constructor
        · rintro ⟨⟨a1, a2⟩, a3⟩
          refine ⟨a1, ?_⟩
          rintro ⟨j, hj, b1, i, b2, b3⟩
          by_cases hjd : j = d
          · subst hjd; exact b3 (a2 i b2)
          · exact a3 ⟨j, by omega, b1, i, b2, b3⟩
        · rintro ⟨a1, a2⟩
          refine ⟨⟨a1, fun i hi => ?_⟩, ?_⟩
          · by_contra hc
            exact a2 ⟨d, by omega, hbc, i, hi, hc⟩
          · rintro ⟨j, hj, h⟩
            exact a2 ⟨j, by omega, h⟩
      refine ⟨src', dst', m', h1, ?_, hinB, ?_, ?_, ?_, ⟨by rw [h2.elem.1, hdo.2.2], by rw [h2.elem.2, hso.2.2]⟩,
        ⟨by rw [h2.rank.1, hdo.2.1], by rw [h2.rank.2, hso.2.1]⟩, ?_, ?_, ?_, ?_⟩
      · -- the three regions
        have hc3 := h2.copied
        rw [hdo.2.2] at hc3
        have hset : pairsOn dst f (Out (d + 1) src) =
            ((pairsOn dst f fun is => ∀ i, is[d]? = some i → i < (src.dim d).min) ∪ (pairsOn dst f fun is => ∀ i, is[d]? = some i → (src.dim d).max < i)) ∪
              pairsOn (dst.crop d (src.dim d).min (src.dim d).max) f (Out d (src.crop d (dst.dim d).min (dst.dim d).max)) := by
          ext p
          constructor
          · rintro ⟨is, a1, ⟨j, hj, b1, i, b2, b3⟩, a3, a4⟩
            obtain ⟨x, hx, hx2⟩ := hget is a1
            by_cases hx3 : (src.dim d).min ≤ x ∧ x ≤ (src.dim d).max
            · right
              have hin := (hdi is).2 ⟨a1, fun y hy => by rw [hx] at hy; simp at hy; omega⟩
              refine ⟨is, hin, (hO' is).2 ?_, by rw [crop_addr dst _ _ hdd hin, a3], a4⟩
              by_cases hjd : j = d
              · subst hjd
                rw [hx] at b2
                simp at b2
                subst b2
                exact absurd hx3 b3
              · exact ⟨j, by omega, b1, i, b2, b3⟩
            · left
              by_cases hlt : x < (src.dim d).min
              · left; exact ⟨is, a1, fun y hy => by rw [hx] at hy; simp at hy; omega, a3, a4⟩
              · right; exact ⟨is, a1, fun y hy => by rw [hx] at hy; simp at hy; omega, a3, a4⟩
          · rintro ((⟨is, a1, a2, a3⟩ | ⟨is, a1, a2, a3⟩) | ⟨is, a1, a2, a3, a4⟩)
            · obtain ⟨x, hx, hx2⟩ := hget is a1
              exact ⟨is, a1, ⟨d, by omega, hbc, x, hx, by have := a2 x hx; omega⟩, a3⟩
            · obtain ⟨x, hx, hx2⟩ := hget is a1
              exact ⟨is, a1, ⟨d, by omega, hbc, x, hx, by have := a2 x hx; omega⟩, a3⟩
            · obtain ⟨j, hj, h⟩ := (hO' is).1 a2
              exact ⟨is, ((hdi is).1 a1).1, ⟨j, by omega, h⟩, by rw [← a3, crop_addr dst _ _ hdd a1], a4⟩
        have hsafe : Safe dst.elem (pairsOn dst f (Out (d + 1) src)) := hs.safe.mono pairsOn_sub
        rw [hset] at hsafe ⊢
        exact (hc1.union (hsafe.mono Set.subset_union_left) hc2).union hsafe hc3
      · intro is hi
        have hi1 := (h2.inB is).1 hi
        obtain ⟨a1, a2⟩ := h2.addr is hi
        rw [a1, a2, crop_addr dst _ _ hdd hi1.1]
        refine ⟨rfl, ?_⟩
        have hi2 := (hdi is).1 hi1.1
        obtain ⟨x, hx, hx2⟩ := hget is hi2.1
        exact crop_at src _ _ hds hx (hi2.2 x hx) hx2
      · intro hdb hne
        refine h2.dbase (crop_base_some dst _ _ hdd hdb ?_) hne
        obtain ⟨is, hi⟩ := hne
        exact ⟨is, ((h2.inB is).1 hi).1⟩
      · intro hsb hne
        refine h2.sbase ?_ hne
        obtain ⟨is, hi⟩ := hne
        have hi2 := (hdi is).1 ((h2.inB is).1 hi).1
        obtain ⟨x, hx, hx2⟩ := hget is hi2.1
        have := hi2.2 x hx
        exact Option.isSome_iff_ne_none.2 (crop_nonempty src d _ _ (Option.isSome_iff_ne_none.1 hsb) (by omega))
      · intro e hee
        obtain ⟨e', a1, a2, a3⟩ := h2.unfolded e hee
        obtain ⟨e'', b1, b2, b3⟩ := crop_dims_mem a1
        exact ⟨e'', b1, a2.trans b2, a3.trans b3⟩
      · intro e hee
        obtain ⟨e', a1, a2, a3⟩ := h2.sdims e hee
        obtain ⟨e'', b1, b2, b3⟩ := crop_dims_mem a1
        exact ⟨e'', b1, a2.trans b2, a3.trans b3⟩
      · intro j hj
        have := h2.outer j (by omega)
        rw [this.1, this.2]
        exact ⟨hso.1 j (by omega), hdo.1 j (by omega)⟩
      · intro j hj
        by_cases hjd : j = d
        · subst hjd
          right
          have := h2.outer j le_rfl
          rw [this.1, this.2, crop_dim src j _ _ hds, crop_dim dst j _ _ hdd]
          simp only
          omega
        · rcases h2.inner j (by omega) with h | h
          · left; rw [hso.1 j hjd] at h; exact h
          · right; exact h

end Copy
end Slinky
