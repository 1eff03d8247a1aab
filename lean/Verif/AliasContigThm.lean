import Verif.AliasContig
import Mathlib.Tactic.Ring
import Mathlib.Tactic.Linarith
import Mathlib.Data.Int.Init

/-!
# Aliases of buffers that are copied by a call of `memcpy` (C72)
-/

namespace Slinky.ACo

open Copy (Mem memcpy)

theorem offset_contiguous (ds : List Dim) : ∀ (s : Int) (x : List Int), Buf.offset (contiguous s ds) x = s * flat ds x := by
  induction ds with
  | nil => intro s x; simp [contiguous, Buf.offset, flat]
  | cons d r ih =>
    intro s x
    cases x with
    | nil => simp [contiguous, Buf.offset, flat]
    | cons i x =>
      simp only [contiguous, Buf.offset, flat, ih, Dim.flatOffset, or_true, if_true]
      ring

theorem flat_range (ds : List Dim) : ∀ x, InB ds x → 0 ≤ flat ds x ∧ flat ds x < count ds := by
  induction ds with
  | nil =>
    intro x h
    cases x with
    | nil => simp [flat, count]
    | cons => exact h.elim
  | cons d r ih =>
    intro x h
    cases x with
    | nil => exact h.elim
    | cons i x =>
      obtain ⟨h1, h2, h3⟩ := h
      obtain ⟨h4, h5⟩ := ih x h3
      simp only [flat, count]
      have he : 0 ≤ d.max - d.min + 1 := by omega
      constructor
      · have := mul_nonneg he h4
        omega
      · have h6 : (d.max - d.min + 1) * (flat r x + 1) ≤ (d.max - d.min + 1) * count r := mul_le_mul_of_nonneg_left (by omega) he
        have h7 : (d.max - d.min + 1) * (flat r x + 1) = (d.max - d.min + 1) * flat r x + (d.max - d.min + 1) := by ring
        omega

theorem flat_unique (ds : List Dim) : ∀ x y, InB ds x → InB ds y → flat ds x = flat ds y → x = y := by
  induction ds with
  | nil =>
    intro x y hx hy _
    cases x with
    | nil => cases y with
      | nil => rfl
      | cons => exact hy.elim
    | cons => exact hx.elim
  | cons d r ih =>
    intro x y hx hy h
    cases x with
    | nil => exact hx.elim
    | cons i x =>
      cases y with
      | nil => exact hy.elim
      | cons j y =>
        obtain ⟨h1, h2, h3⟩ := hx
        obtain ⟨g1, g2, g3⟩ := hy
        simp only [flat] at h
        have he : 0 < d.max - d.min + 1 := by omega
        have hm : (i - d.min) % (d.max - d.min + 1) = (j - d.min) % (d.max - d.min + 1) := by
          have := congrArg (· % (d.max - d.min + 1)) h
          simpa [Int.add_mul_emod_self_left] using this
        rw [Int.emod_eq_of_lt (by omega) (by omega), Int.emod_eq_of_lt (by omega) (by omega)] at hm
        have hij : i = j := by omega
        subst hij
        have hf : flat r x = flat r y := by
          have h8 : (d.max - d.min + 1) * flat r x = (d.max - d.min + 1) * flat r y := by omega
          exact mul_left_cancel₀ (by omega) h8
        rw [ih x y h3 g3 hf]

theorem flat_exists (ds : List Dim) : (∀ d ∈ ds, d.min ≤ d.max) → ∀ i, 0 ≤ i → i < count ds → ∃ x, InB ds x ∧ flat ds x = i := by
  induction ds with
  | nil =>
    intro _ i h0 h1
    simp only [count] at h1
    exact ⟨[], trivial, by simp only [flat]; omega⟩
  | cons d r ih =>
    intro hd i h0 h1
    have hd0 := hd d (List.mem_cons_self ..)
    have he : 0 < d.max - d.min + 1 := by omega
    simp only [count] at h1
    obtain ⟨x, hx, hf⟩ := ih (fun c hc => hd c (List.mem_cons_of_mem _ hc)) (i / (d.max - d.min + 1)) (Int.ediv_nonneg h0 he.le)
      (Int.ediv_lt_of_lt_mul he (by rw [mul_comm]; exact h1))
    have h2 := Int.emod_nonneg i he.ne'
    have h3 := Int.emod_lt_of_pos i he
    refine ⟨(d.min + i % (d.max - d.min + 1)) :: x, ⟨by omega, by omega, hx⟩, ?_⟩
    simp only [flat, hf]
    have := Int.emod_add_mul_ediv i (d.max - d.min + 1)
    omega

/-- The elements of the alias do not share memory. -/
theorem alias_unique (target al : Buf) (elem : Int) (dims : List Dim) (shared : Bool) (he : 0 < elem) (h : alias_ target elem dims shared = some al)
    (x y : List Int) (hx : InB dims x) (hy : InB dims y) (p : Int) (hp : al.address x = some p) (hq : al.address y = some p) : x = y := by
  unfold alias_ at h
  split at h
  · cases h
  cases h
  simp only [Buf.address, Option.map_eq_some_iff, offset_contiguous] at hp hq
  obtain ⟨b, hb, h1⟩ := hp
  obtain ⟨c, hc, h2⟩ := hq
  rw [hb] at hc
  cases hc
  exact flat_unique dims x y hx hy (mul_left_cancel₀ he.ne' (by omega))

theorem containsL_mins (ds : List Dim) (h : ∀ d ∈ ds, d.min ≤ d.max) : Buf.containsL ds (ds.map Dim.min) = true := by
  induction ds with
  | nil => rfl
  | cons d r ih =>
    have := h d (List.mem_cons_self ..)
    simp [Buf.containsL, Dim.contains, Dim.containsI, this, ih (fun c hc => h c (List.mem_cons_of_mem _ hc))]

theorem offset_mins (ds : List Dim) (h : ∀ d ∈ ds, d.stride = 0 ∨ d.fold = Dim.unfolded ∨ d.min % d.fold = 0) : Buf.offset ds (ds.map Dim.min) = 0 := by
  induction ds with
  | nil => rfl
  | cons d r ih =>
    simp only [List.map_cons, Buf.offset, ih (fun c hc => h c (List.mem_cons_of_mem _ hc)), Dim.flatOffset]
    rcases h d (List.mem_cons_self ..) with h0 | h0 | h0
    · simp [h0]
    · simp [h0]
    · simp [h0]

/-- The alias starts where the other buffer starts. -/
theorem alias_base (target al : Buf) (elem : Int) (dims : List Dim) (shared : Bool) (h : alias_ target elem dims shared = some al)
    (ht : ∀ d ∈ target.dims, d.min ≤ d.max ∧ (d.stride = 0 ∨ d.fold = Dim.unfolded ∨ d.min % d.fold = 0)) : al.base = target.base := by
  unfold alias_ at h
  split at h
  · cases h
  cases h
  simp only [atMins, Buf.contains, containsL_mins _ (fun d hd => (ht d hd).1), if_true, Buf.address, offset_mins _ (fun d hd => (ht d hd).2)]
  cases target.base <;> simp

/-- The alias of an empty buffer has no memory. -/
theorem alias_base_empty (target al : Buf) (elem : Int) (dims : List Dim) (shared : Bool) (h : alias_ target elem dims shared = some al)
    (d : Dim) (hd : d ∈ target.dims) (h0 : d.max < d.min) (h1 : d.stride ≠ 0) : al.base = none := by
  have key : ∀ ds : List Dim, d ∈ ds → Buf.containsL ds (ds.map Dim.min) = false := by
    intro ds
    induction ds with
    | nil => simp
    | cons c r ih =>
      intro hm
      rcases List.mem_cons.1 hm with rfl | hm
      · simp [Buf.containsL, Dim.contains, Dim.containsI, h1, h0]
      · simp [Buf.containsL, ih hm]
  unfold alias_ at h
  split at h
  · cases h
  cases h
  simp [atMins, Buf.contains, key _ hd]

/-- The alias is the memory from the base on, `count` elements, and every element of this memory is an element of the alias. -/
theorem alias_memory (target al : Buf) (elem : Int) (dims : List Dim) (shared : Bool) (he : 0 < elem) (h : alias_ target elem dims shared = some al)
    (ht : ∀ d ∈ target.dims, d.min ≤ d.max ∧ (d.stride = 0 ∨ d.fold = Dim.unfolded ∨ d.min % d.fold = 0)) (q : Int) (hq : target.base = some q) :
    (∀ x, InB dims x → ∃ p, al.address x = some p ∧ q ≤ p ∧ p + elem ≤ q + elem * count dims) ∧
    ((∀ d ∈ dims, d.min ≤ d.max) → ∀ a, q ≤ a → a < q + elem * count dims →
      ∃ x p, InB dims x ∧ al.address x = some p ∧ p ≤ a ∧ a < p + elem) := by
  have hb := (alias_base target al elem dims shared h ht).trans hq
  unfold alias_ at h
  split at h
  · cases h
  cases h
  simp only at hb
  constructor
  · intro x hx
    obtain ⟨h1, h2⟩ := flat_range dims x hx
    refine ⟨q + elem * flat dims x, by simp [Buf.address, hb, offset_contiguous], ?_, ?_⟩
    · have := mul_nonneg he.le h1
      omega
    · have h3 : elem * (flat dims x + 1) ≤ elem * count dims := mul_le_mul_of_nonneg_left (by omega) he.le
      have h4 : elem * (flat dims x + 1) = elem * flat dims x + elem := by ring
      omega
  · intro hd a h1 h2
    obtain ⟨x, hx, hf⟩ := flat_exists dims hd ((a - q) / elem) (Int.ediv_nonneg (by omega) he.le)
      (Int.ediv_lt_of_lt_mul he (by rw [mul_comm]; omega))
    refine ⟨x, q + elem * flat dims x, hx, by simp [Buf.address, hb, offset_contiguous], ?_, ?_⟩
    · have := Int.mul_ediv_self_le (x := a - q) he.ne'
      rw [hf]
      omega
    · have := Int.lt_mul_ediv_self_add (x := a - q) he
      rw [hf]
      omega

/-- The allocation of the source of a `memcpy` is replaced by an alias of the destination. `src` is the allocation, which is dense; it is at `p`, and the destination is
at `q`. If the memory `m` at `q` is what the memory at `p` is (the alias was written instead of the allocation), then after the `memcpy` the memory at `q` is what it is
without it. -/
theorem memcpy_removed_partial (target src al : Buf) (dims : List Dim) (shared : Bool) (he : 0 < src.elem)
    (h : alias_ target src.elem dims shared = some al)
    (ht : ∀ d ∈ target.dims, d.min ≤ d.max ∧ (d.stride = 0 ∨ d.fold = Dim.unfolded ∨ d.min % d.fold = 0)) (p q : Int) (hp : src.base = some p)
    (hq : target.base = some q) (hs : src.dims = contiguous src.elem dims) (hd : ∀ d ∈ dims, d.min ≤ d.max) (m ma m' : Mem)
    (hw : ∀ x b a c, InB dims x → 0 ≤ b → b < src.elem → src.address x = some a → al.address x = some c → ma (c + b) = m (a + b))
    (ho : ∀ a, a < q ∨ q + src.elem * count dims ≤ a → ma a = m a)
    (hm : memcpy target.base src.base (src.elem * count dims) m = some m') : m' = ma := by
  have hb := (alias_base target al src.elem dims shared h ht).trans hq
  have hmem := (alias_memory target al src.elem dims shared he h ht q hq).2 hd
  have hal : al.dims = contiguous src.elem dims := by
    unfold alias_ at h
    split at h
    · cases h
    cases h
    rfl
  rw [hp, hq] at hm
  simp only [memcpy] at hm
  split at hm
  · cases hm
    funext a
    by_cases ha : q ≤ a ∧ a < q + src.elem * count dims
    · rw [if_pos ha]
      obtain ⟨x, c, hx, hc, h1, h2⟩ := hmem a ha.1 ha.2
      have h3 : c = q + src.elem * flat dims x := by
        simp only [Buf.address, hb, hal, offset_contiguous, Option.map_some, Option.some.injEq] at hc
        exact hc.symm
      have h4 := hw x (a - c) (p + src.elem * flat dims x) c hx (by omega) (by omega)
        (by simp [Buf.address, hp, hs, offset_contiguous]) hc
      rw [show c + (a - c) = a by ring] at h4
      rw [h4]
      congr 1
      omega
    · rw [if_neg ha]
      exact (ho a (by omega)).symm
  · cases hm

/-- A reshape: if the two buffers are dense, then the element of the source that has the same flat index as an element of the destination is the same memory in the
alias. -/
theorem reshape_same (target al : Buf) (dims outDims : List Dim) (shared : Bool) (h : alias_ target target.elem dims shared = some al)
    (ht : ∀ d ∈ outDims, d.min ≤ d.max) (hd : target.dims = contiguous target.elem outDims) (x y : List Int) (hf : flat dims x = flat outDims y) :
    al.address x = target.address y := by
  have key : ∀ (ds : List Dim) (s : Int), (∀ d ∈ ds, d.min ≤ d.max) →
      ∀ d ∈ contiguous s ds, d.min ≤ d.max ∧ (d.stride = 0 ∨ d.fold = Dim.unfolded ∨ d.min % d.fold = 0) := by
    intro ds
    induction ds with
    | nil => intro s _ d hd; cases hd
    | cons c r ih =>
      intro s hc d hd
      rcases List.mem_cons.1 hd with rfl | hd
      · exact ⟨hc c (List.mem_cons_self ..), Or.inr (Or.inl rfl)⟩
      · exact ih _ (fun e he => hc e (List.mem_cons_of_mem _ he)) d hd
  have hb := alias_base target al target.elem dims shared h (by rw [hd]; exact key outDims _ ht)
  unfold alias_ at h
  split at h
  · cases h
  cases h
  simp only at hb
  simp only [Buf.address, hb, hd, offset_contiguous, hf]

/-! ## Examples -/

/-- An output of 2 × 6 elements of 4 bytes at 100 -/
def exOut : Buf := ⟨some 100, 4, [⟨0, 1, 4, -1⟩, ⟨1, 6, 8, -1⟩]⟩

/-- An allocation of 3 × 4 elements that is reshaped -/
def exIn : List Dim := [⟨5, 7, 4, -1⟩, ⟨0, 3, 12, -1⟩]

/-- The alias of the output for the allocation -/
def exAl : Buf := ⟨some 100, 4, [⟨5, 7, 4, -1⟩, ⟨0, 3, 12, -1⟩]⟩

theorem ex_alias : alias_ exOut 4 exIn false = some exAl ∧ alias_ exOut 4 exIn true = none ∧ exAl.address [6, 2] = some 128 ∧
    exOut.address [1, 4] = some 128 ∧ flat exIn [6, 2] = 7 ∧ flat exOut.dims [1, 4] = 7 := by
  refine ⟨?_, ?_, ?_, ?_, ?_, ?_⟩ <;> decide +kernel

theorem ex_empty : ∃ al, alias_ ⟨some 100, 4, [⟨3, 2, 4, -1⟩]⟩ 4 exIn false = some al ∧ al.base = none :=
  ⟨_, rfl, alias_base_empty _ _ 4 exIn false rfl ⟨3, 2, 4, -1⟩ (by simp) (by decide) (by decide)⟩

theorem ex_same : exAl.address [6, 2] = exOut.address [1, 4] :=
  reshape_same exOut exAl exIn exOut.dims false (by decide +kernel) (by decide) (by decide +kernel) _ _ (by decide +kernel)

/-- The last element of the alias -/
theorem ex_memory : ∃ p, exAl.address [7, 3] = some p ∧ 100 ≤ p ∧ p + 4 ≤ 148 := by
  have := (alias_memory exOut exAl 4 exIn false (by decide) (by decide +kernel) (by decide) 100 rfl).1 [7, 3] (by simp [InB, exIn])
  simpa [count, exIn] using this

/-- The allocation at 200, and a memory in which the alias was written instead of the allocation -/
def exSrc : Buf := ⟨some 200, 4, contiguous 4 exIn⟩

def exMem (m : Mem) : Mem := fun a => if 100 ≤ a ∧ a < 148 then m (a + 100) else m a

theorem ex_removed (m : Mem) : memcpy exOut.base exSrc.base 48 m = some (exMem m) := by
  obtain ⟨m', hm⟩ : ∃ m', memcpy exOut.base exSrc.base 48 m = some m' := ⟨_, rfl⟩
  rw [hm]
  refine congrArg some (memcpy_removed_partial exOut exSrc exAl exIn false (by decide) (by decide +kernel) (by decide +kernel) 200 100 rfl rfl rfl
    (by decide) m (exMem m) m' ?_ ?_ hm)
  · intro x b a c hx h0 h1 ha hc
    obtain ⟨h2, h3⟩ := flat_range exIn x hx
    have hcount : count exIn = 12 := by decide +kernel
    have hal : exAl.dims = contiguous 4 exIn := by decide +kernel
    simp only [Buf.address, hal, exSrc, offset_contiguous, exAl, Option.map_some, Option.some.injEq] at ha
    have hc' : 100 + 4 * flat exIn x = c := by
      simp only [Buf.address, hal, offset_contiguous] at hc
      simpa [exAl] using hc
    have h4 : b < 4 := h1
    unfold exMem
    rw [if_pos (by omega)]
    congr 1
    omega
  · intro a ha
    have hcount : exSrc.elem * count exIn = 48 := by decide +kernel
    rw [hcount] at ha
    unfold exMem
    rw [if_neg (by omega)]

/-- The sizes of the buffers are compared only where the `memcpy` was: an allocation that is bigger, because another call reads more of it, becomes an alias that ends
after the other buffer, and is written before. -/
theorem size_counterexample : let out : Buf := ⟨some 100, 4, [⟨0, 2, 4, -1⟩]⟩
    let al : Buf := ⟨some 100, 4, [⟨0, 4, 4, -1⟩]⟩
    alias_ out 4 [⟨0, 4, 4, -1⟩] false = some al ∧ al.address [4] = some 116 ∧ ∀ x, InB out.dims x → ∃ p, out.address x = some p ∧ p + 4 ≤ 116 := by
  refine ⟨by decide +kernel, by decide +kernel, ?_⟩
  intro x hx
  match x, hx with
  | [i], ⟨h1, h2, _⟩ =>
    simp only at h1 h2
    refine ⟨100 + i * 4, ?_, ?_⟩
    · simp [Buf.address, Buf.offset, Dim.flatOffset, Dim.unfolded]
    · omega

/-- An allocation that asks for rows of 32 bytes gets rows of 20 bytes. -/
theorem stride_counterexample : ∃ al, alias_ exOut 4 [⟨0, 4, 4, -1⟩, ⟨0, 1, 32, -1⟩] false = some al ∧ (al.dim 1).stride = 20 :=
  ⟨⟨some 100, 4, [⟨0, 4, 4, -1⟩, ⟨0, 1, 20, -1⟩]⟩, by decide +kernel, by decide +kernel⟩

/-- If the other buffer is folded, and its first element is not at the base, the alias starts in the middle. -/
theorem fold_counterexample : let out : Buf := ⟨some 100, 4, [⟨3, 5, 4, 4⟩]⟩
    alias_ out 4 [⟨0, 2, 4, -1⟩] false = some ⟨some 112, 4, [⟨0, 2, 4, -1⟩]⟩ := by
  decide +kernel

end Slinky.ACo
