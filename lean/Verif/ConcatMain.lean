import Verif.ConcatPiece
import Verif.Canonicalize

/-! # C54: concatenations and stacks, the theorems -/

namespace Slinky.CC

open Copy (CopiedFrom Separate)

variable {w : World} {host : Fn → List (Option Int) → Int} {simp : Expr → Expr} {lb : Expr → Option Int} {ρ : SEnv} {n : Nat} {dst : Output} {D : Buf} {dim : Nat}

/-! ### Stacks -/

/-- What is assumed of source number `i` of a stack; `r` is the rank that `make_stack` is told. -/
structure StackOk (D : Buf) (dim : Nat) (S : Buf) (r : Nat) (i : Int) : Prop where
  rank : S.rank = r
  /-- The destination has the index of the source (`stack_out_of_bounds_counterexample`). -/
  bounds : (D.dim dim).min ≤ i ∧ i ≤ (D.dim dim).max
  /-- The metadata of the part are 64-bit integers. -/
  range_dst : (D.slice dim i).InRange64
  /-- No element is at the null pointer. -/
  nonnull : ∀ is, S.view is ≠ some 0

theorem view_take : ∀ (ds : List Dim) (is : List Int), Buf.containsL ds (is.take ds.length) = Buf.containsL ds is ∧ Buf.offset ds (is.take ds.length) = Buf.offset ds is
  | [], _ => by simp [Buf.containsL, Buf.offset]
  | _ :: _, [] => by simp [Buf.containsL, Buf.offset]
  | d :: ds, i :: is => by
    obtain ⟨h1, h2⟩ := view_take ds is
    simp [Buf.containsL, Buf.offset, h1, h2]

theorem view_take_rank (S : Buf) (is : List Int) : S.view (is.take S.rank) = S.view is := by
  have h1 : S.contains (is.take S.rank) = S.contains is := (view_take S.dims is).1
  have h2 : S.address (is.take S.rank) = S.address is := by
    show S.base.map (· + Buf.offset S.dims (is.take S.dims.length)) = S.base.map (· + Buf.offset S.dims is)
    rw [(view_take S.dims is).2]
  rw [Buf.view, Buf.view, h1, h2]

theorem eraseIdx_insertIdx_of : ∀ (is : List Int) (d : Nat) (x : Int), d ≤ is.length → (is.insertIdx d x).eraseIdx d = is ∧ (is.insertIdx d x).getD d 0 = x
  | is, 0, x, _ => by simp
  | [], d + 1, x, h => by simp at h
  | i :: is, d + 1, x, h => by
    simp at h
    obtain ⟨h1, h2⟩ := eraseIdx_insertIdx_of is d x h
    simp only [List.insertIdx_succ_cons, List.eraseIdx_cons_succ, List.getD_cons_succ, h1, h2, and_self]

/-- The copy of one source of a stack. -/
theorem stack_piece (h : Cond w host simp lb ρ n dst D dim) {src : Nat} {S : Buf} (hS : Source ρ dst D src S) {l1 l' : List Ev} {r i : Nat} (hR : StackOk D dim S r i) {k t : Nat}
    (hk : n ≤ k) {skip : Bool}
    (hs : sem w skip (implS simp lb (makeCopyFunc t (stackInput (src, r) dst dim i) { dst with dims := dst.dims.eraseIdx dim } none) k).1 ρ l1 = some (0, l')) :
    ∃ calls, runSeq (copyCall w t []) calls l1 = some (0, l') ∧ Part calls D (fun x => x.getD dim 0 = i) (fun x => S.view (x.eraseIdx dim)) := by
  have hdl := h.dim_lt
  simp only [makeCopyFunc, stackInput, if_true] at hs
  rw [if_neg (by simp)] at hs
  simp only [implS, sem, SEnv.buf?, h.h_dst, Val.buf?, Option.bind_some] at hs
  obtain ⟨q, hq, hs⟩ := Option.bind_eq_some_iff.1 hs
  have hD' := sliceS_last (e := D.elem) dim h.dim_lt hq
  rw [hD', List.eraseIdx_map, List.map_take, points_min] at hs
  set X := dst.dims.eraseIdx dim with hX
  set D' := D.slice dim i with hDd
  set ρ1 := ρ.set dst.sym (.buf D') with hρ1
  have hXs : X.Sublist dst.dims := List.eraseIdx_sublist ..
  have hsub : ∀ x ∈ X, x ∈ dst.dims := hXs.subset
  have hrD : D'.rank + 1 = D.rank := (slice_rank D dim i h.dim_lt).1
  have hXl : X.length = D'.rank := by
    have := h.rank
    rw [hX, List.length_eraseIdx, if_pos (by omega)]
    omega
  have hnd : dst.sym ∉ X := fun hx => by have := h.h_dst; rw [h.idx _ (hsub _ hx)] at this; cases this
  have hns : src ∉ X := fun hx => by have := hS.h_src; rw [h.idx _ (hsub _ hx)] at this; cases this
  have hkd : dst.sym ≠ k := by rintro rfl; have := h.h_dst; rw [(h.fresh _ hk).1] at this; cases this
  have hks : src ≠ k := by rintro rfl; have := hS.h_src; rw [(h.fresh _ hk).1] at this; cases this
  have hρo : ∀ z, z ≠ dst.sym → ρ1 z = ρ z := fun z h1 => by simp [hρ1, SEnv.set, h1]
  have hfv : ∀ {z y : Nat}, FreeIn z (.var y .none 0) → z = y := fun h => by simpa [FreeIn, eq_comm] using h
  have hXe : ∀ (j : Nat) (e : Expr), ((X.map fun x => Expr.var x .none 0).take r)[j]? = some e → ∃ y, X[j]? = some y ∧ e = .var y .none 0 := by
    intro j e he
    rw [List.getElem?_take] at he
    split at he
    · rw [List.getElem?_map, Option.map_eq_some_iff] at he
      obtain ⟨y, h1, rfl⟩ := he
      exact ⟨y, h1, rfl⟩
    · cases he
  have C : CopyCond w host simp lb l1 ρ1 k src ((X.map fun x => Expr.var x .none 0).take r) dst.sym X S D' (fun x => x.take r) := by
    have hn : X.Nodup := hXs.nodup h.nodup
    constructor
    · exact h.h_host
    · exact set_range h.h_range hR.range_dst
    · rw [hρo _ hS.ne]; exact hS.h_src
    · simp [hρ1, SEnv.set]
    · rw [hρo k hkd.symm]; exact (h.fresh _ hk).1
    · exact fun hx => (h.fresh _ hk).2 (hsub _ hx)
    · intro e he hf
      obtain ⟨j, hj, rfl⟩ := List.mem_iff_getElem.1 he
      obtain ⟨y, h1, h2⟩ := hXe j _ (List.getElem?_eq_getElem hj)
      rw [h2] at hf
      exact (h.fresh _ hk).2 (hsub _ (hfv hf ▸ List.mem_of_getElem? h1))
    · intro x hx
      rw [hρo x (by rintro rfl; exact hnd hx)]
      exact h.idx x (hsub x hx)
    · exact hn
    · exact hXl.symm
    · intro e he
      obtain ⟨j, hj, rfl⟩ := List.mem_iff_getElem.1 he
      obtain ⟨y, h1, h2⟩ := hXe j _ (List.getElem?_eq_getElem hj)
      rw [h2]
      exact ⟨rfl, trivial, .inl rfl⟩
    · exact h.h_simp _ _
    · exact hS.unfolded
    · exact hR.nonnull
    · intro x hx
      have hxl : x.length = X.length := by rw [InB.length hx]; exact hXl.symm
      refine mapM_of_get (by simp [hxl]) fun j e v he hv => ?_
      obtain ⟨y, h1, rfl⟩ := hXe j e he
      rw [List.getElem?_take] at hv
      split at hv
      · simp [evalI, evalS, bindAll_get hn h1 hv, Val.int?]
      · cases hv
    · exact sep_of hn fun j e he => by
        obtain ⟨y, h1, rfl⟩ := hXe j e he
        exact ⟨y, h1, .inl rfl, fun z _ hf => hfv hf⟩
    · intro d x j e hd _ he hf
      obtain ⟨y, h1, rfl⟩ := hXe j e he
      exact absurd (hfv hf ▸ List.mem_of_getElem? h1) hnd
  obtain ⟨calls, c1, c2⟩ := implementCopy_sound_partial C (by simp) (pads := []) (by simp) hs
  have hview : ∀ x : List Int, S.view (x.take r) = S.view x := fun x => by rw [← hR.rank]; exact view_take_rank S x
  refine ⟨calls, c1, ?_, ?_, ?_⟩
  · intro c hc
    have := c2.elem c hc
    rw [this.1, this.2, (slice_rank D dim i h.dim_lt).2]
    exact ⟨hS.elem, rfl⟩
  · intro c hc is his
    obtain ⟨x, x1, x2, x3⟩ := c2.sub c hc is his
    have hxl : x.length = D'.rank := InB.length x1
    have hdx : dim ≤ x.length := by omega
    obtain ⟨g1, g2⟩ := eraseIdx_insertIdx_of x dim i hdx
    refine ⟨x.insertIdx dim i, (slice_inBounds D dim i x h.dim_lt hR.bounds hdx).1 x1, g2, ?_, ?_⟩
    · rw [x2]; exact slice_address D dim i x h.dim_lt hR.bounds hdx
    · rw [x3, g1]; exact hview x
  · intro x hx hp
    have hxl : x.length = D.rank := InB.length hx
    have hxd := inB_getD hx h.dim_lt
    rw [hp] at hxd
    have hxe := insertIdx_eraseIdx_of x dim i hxd
    have hdx : dim ≤ (x.eraseIdx dim).length := by rw [List.length_eraseIdx, if_pos (by omega)]; omega
    have hx' : D'.InBounds (x.eraseIdx dim) := (slice_inBounds D dim i _ h.dim_lt hR.bounds hdx).2 (by rw [hxe]; exact hx)
    obtain ⟨c, hc, is, g1, g2, g3⟩ := c2.cover _ hx'
    refine ⟨c, hc, is, g1, ?_, ?_⟩
    · rw [g2, ← hxe, ← slice_address D dim i _ h.dim_lt hR.bounds hdx, hxe]
    · rw [g3]; exact hview _

/-! ### All the sources -/

/-- If a statement makes only calls of the function that copies, and the statements after it, all of them do. -/
theorem runSeq_trans {t : Nat} {a b : List (Buf × Buf)} {l l1 l' : List Ev} (h1 : runSeq (copyCall w t []) a l = some (0, l1)) (h2 : runSeq (copyCall w t []) b l1 = some (0, l')) :
    runSeq (copyCall w t []) (a ++ b) l = some (0, l') := by
  rw [runSeq_append, h1]
  simpa using h2

/-- What the calls do in memory, if each does what `copy` does. -/
theorem Part.copied {calls : List (Buf × Buf)} {P : List Int → Prop} {F : List Int → Option Int} (h : Part calls D P F) (hP : ∀ x, D.InBounds x → (F x).isSome → P x)
    (hsep : Separate D F) {m m' : Copy.Mem} (hm : CallsCopy none calls m m') : CopiedFrom D F m m' := by
  have hF : (fun x => F x <|> none) = F := by funext x; cases F x <;> rfl
  obtain ⟨h1, h2⟩ := callsCopy_part (pad := none) (F := F) (D := D) (by rw [hF]; exact hsep) (fun c hc => (h.elem c hc).2)
    (fun c hc is his => by
      obtain ⟨x, x1, -, x2, x3⟩ := h.sub c hc is his
      exact ⟨x, x1, x2, x3⟩) hm
  have hF' : ∀ x, (F x <|> none) = F x := fun x => by cases F x <;> rfl
  simp only [hF'] at h1 h2
  constructor
  · intro x s hx hs
    obtain ⟨c, hc, is, g1, g2, g3⟩ := h.cover x hx (hP x hx (by rw [hs]; rfl))
    exact h1 c hc is x s g1 hx g2 g3 hs
  · intro z hz
    exact h2 z fun c hc is x a his hxb _ _ hs ha => hz x a hxb hs ha

theorem Part.append {a b : List (Buf × Buf)} {P Q : List Int → Prop} {F G H : List Int → Option Int} (ha : Part a D P F) (hb : Part b D Q G)
    (hF : ∀ x, P x → F x = H x) (hG : ∀ x, Q x → G x = H x) : Part (a ++ b) D (fun x => P x ∨ Q x) H := by
  constructor
  · intro c hc
    rcases List.mem_append.1 hc with hc | hc
    · exact ha.elem c hc
    · exact hb.elem c hc
  · intro c hc is his
    rcases List.mem_append.1 hc with hc | hc
    · obtain ⟨x, x1, x2, x3, x4⟩ := ha.sub c hc is his
      exact ⟨x, x1, .inl x2, x3, x4.trans (hF x x2)⟩
    · obtain ⟨x, x1, x2, x3, x4⟩ := hb.sub c hc is his
      exact ⟨x, x1, .inr x2, x3, x4.trans (hG x x2)⟩
  · intro x hx hp
    rcases hp with hp | hp
    · obtain ⟨c, hc, is, g1, g2, g3⟩ := ha.cover x hx hp
      exact ⟨c, by simp [hc], is, g1, g2, g3.trans (hF x hp)⟩
    · obtain ⟨c, hc, is, g1, g2, g3⟩ := hb.cover x hx hp
      exact ⟨c, by simp [hc], is, g1, g2, g3.trans (hG x hp)⟩

/-- The statement for a source is one statement, before and after `implement_copies`. -/
theorem makeCopyFunc_solid (t : Nat) (i : Input) (dst : Output) (pad : Option Nat) (k : Nat) :
    let s := makeCopyFunc t i dst pad
    (s.isBlock = false ∧ s.defined = true) ∧ ((implS simp lb s k).1.isBlock = false ∧ (implS simp lb s k).1.defined = true) ∧ (implS simp lb s k).1.closure? = none := by
  simp only [makeCopyFunc]
  split <;> split <;> split <;> simp [implS, implementCopy, Stmt.isBlock, Stmt.defined, Stmt.closure?]

theorem implL_solid {ss : List Stmt} (h : ∀ s ∈ ss, ∃ i dst pad t, s = makeCopyFunc t i dst pad) (k : Nat) : SolidList (implL simp lb (.ofList ss) k).1 := by
  induction ss generalizing k with
  | nil => intro s hs; simp [Stmts.ofList, implL] at hs
  | cons a ss ih =>
    intro s hs
    simp only [Stmts.ofList, implL, List.mem_cons] at hs
    rcases hs with rfl | hs
    · obtain ⟨i, dst, pad, t, rfl⟩ := h a (by simp)
      exact (makeCopyFunc_solid t i dst pad k).2.1
    · exact ih (fun s hs => h s (by simp [hs])) _ s hs

theorem implL_length : ∀ (ss : List Stmt) (k : Nat), (implL simp lb (.ofList ss) k).1.length = ss.length
  | [], _ => rfl
  | s :: ss, k => by simp [Stmts.ofList, implL, implL_length ss]

/-- The statement for all the sources does what the statements for the sources do, one after the other. -/
theorem sem_makeCall {t : Nat} {is : List Input} {k : Nat} {skip : Bool} {l : List Ev} {p : Int × List Ev}
    (h : sem w skip (implS simp lb (makeCall t is dst none) k).1 ρ l = some p) :
    semSeq w (implL simp lb (.ofList (is.map fun i => makeCopyFunc t i dst none)) k).1 ρ l = some p := by
  have hex : ∀ s ∈ is.map fun i => makeCopyFunc t i dst none, ∃ i dst pad t, s = makeCopyFunc t i dst pad := by
    intro s hs
    obtain ⟨i, -, rfl⟩ := List.mem_map.1 hs
    exact ⟨i, dst, none, t, rfl⟩
  match is, hex with
  | [], _ => simp [makeCall, blockMake, flattenBlocks, eraseUndefs, implS, sem] at h
  | [i], _ =>
    obtain ⟨h1, h2, h3⟩ := makeCopyFunc_solid (simp := simp) (lb := lb) t i dst none k
    have hb : makeCall t [i] dst none = makeCopyFunc t i dst none := by
      have hso : SolidList [makeCopyFunc t i dst none] := fun s hs => by rw [List.mem_singleton.1 hs]; exact h1
      simp only [makeCall, List.map_cons, List.map_nil, blockMake, flattenBlocks_solid hso]
      simp [eraseUndefs, h1.2]
    rw [hb, sem_skip h3] at h
    simp only [List.map_cons, List.map_nil, Stmts.ofList, implL]
    rw [semSeq_cons (by intro hu; rw [hu] at h2; simp [Stmt.defined] at h2), h]
    obtain ⟨r, l'⟩ := p
    by_cases h0 : r = 0 <;> simp [h0, semSeq]
  | i :: j :: is, hex =>
    set ss := (i :: j :: is).map fun i => makeCopyFunc t i dst none with hss
    have hso : SolidList ss := fun s hs => by
      obtain ⟨i', dst', pad', t', rfl⟩ := hex s hs
      exact (makeCopyFunc_solid (simp := simp) (lb := lb) t' i' dst' pad' k).1
    have hb : makeCall t (i :: j :: is) dst none = .block (.ofList ss) := by
      have := blockMake_solidList (ss := .ofList ss) (by rw [Stmts.toList_ofList]; exact hso) (by rw [← Stmts.length_toList, Stmts.toList_ofList]; simp [hss])
      rw [Stmts.toList_ofList] at this
      exact this
    have hsi := implL_solid (simp := simp) (lb := lb) hex k
    have hli := implL_length (simp := simp) (lb := lb) ss k
    rw [hb] at h
    simp only [implS] at h
    generalize (implL simp lb (.ofList ss) k).1 = rs at h hsi hli
    have hb' : blockMake rs = .block (.ofList rs) := by
      have := blockMake_solidList (ss := .ofList rs) (by rw [Stmts.toList_ofList]; exact hsi) (by rw [← Stmts.length_toList, Stmts.toList_ofList, hli]; simp [hss])
      rw [Stmts.toList_ofList] at this
      exact this
    rw [hb'] at h
    simp only [sem] at h
    rwa [semSeq_semAll _ _ fun s hs hu => by have := (hsi s hs).2; rw [hu] at this; simp [Stmt.defined] at this] at h

/-- One step of `sem_makeCall`, if it succeeds. -/
theorem semSeq_step {s : Stmt} {ss : List Stmt} (hs : s.defined = true) {l l' : List Ev} (h : semSeq w (s :: ss) ρ l = some (0, l')) :
    ∃ l1, sem w false s ρ l = some (0, l1) ∧ semSeq w ss ρ l1 = some (0, l') := by
  rw [semSeq_cons (by rintro rfl; simp [Stmt.defined] at hs)] at h
  obtain ⟨⟨r, l1⟩, h1, h2⟩ := Option.bind_eq_some_iff.1 h
  by_cases h0 : r = 0
  · subst h0; exact ⟨l1, h1, by simpa using h2⟩
  · simp [h0] at h2

theorem implS_next (t : Nat) (i : Input) (dst : Output) (pad : Option Nat) (k : Nat) : (implS simp lb (makeCopyFunc t i dst pad) k).2 = k + 1 := by
  simp only [makeCopyFunc]
  split <;> split <;> split <;> simp [implS]

/-- What is assumed of the ranges of the sources of a concatenation; `vs` are the values of `bs`. -/
def RangesOk (w : World) (l : List Ev) (ρ : SEnv) (n : Nat) (dst : Output) (D : Buf) (dim : Nat) (srcs : List Nat) : List Nat → List Buf → List Expr → List Int → Prop
  | src :: ys, S :: Ss, lo :: hi :: bs, a :: b :: vs =>
    (src ∈ srcs ∧ Source ρ dst D src S ∧ BoundOk w l ρ n dst srcs lo a ∧ BoundOk w l ρ n dst srcs hi b ∧ RangeOk D dim S a b ∧ a ≤ b) ∧
      RangesOk w l ρ n dst D dim srcs ys Ss (hi :: bs) (b :: vs)
  | [], [], [_], [_] => True
  | _, _, _, _ => False

theorem rangesOk_sorted {w : World} {l : List Ev} {srcs : List Nat} : ∀ {ys : List Nat} {Ss : List Buf} {bs : List Expr} {vs : List Int}, RangesOk w l ρ n dst D dim srcs ys Ss bs vs →
    vs.Pairwise (· ≤ ·)
  | _ :: ys, _ :: Ss, _ :: _ :: _, a :: b :: vs, h => by
    have h1 := rangesOk_sorted h.2
    have h2 := h.1.2.2.2.2.2
    refine List.pairwise_cons.2 ⟨fun c hc => ?_, h1⟩
    rcases List.mem_cons.1 hc with rfl | hc
    · exact h2
    · exact h2.trans ((List.pairwise_cons.1 h1).1 c hc)
  | [], [], [_], [v], _ => by simp

theorem concat_seq (h : Cond w host simp lb ρ n dst D dim) {srcs : List Nat} (hne : ∀ j, j < dim → (D.dim j).min ≤ (D.dim j).max) {t : Nat} {l : List Ev} :
    ∀ {ys : List Nat} {Ss : List Buf} {bs : List Expr} {vs : List Int} {k : Nat} {l1 l' : List Ev}, n ≤ k → RangesOk w l ρ n dst D dim srcs ys Ss bs vs →
    semSeq w (implL simp lb (.ofList ((concatInputs dst dim ys bs).map fun i => makeCopyFunc t i dst none)) k).1 ρ l1 = some (0, l') →
    ∃ calls, runSeq (copyCall w t []) calls l1 = some (0, l') ∧
      Part calls D (fun x => (∀ a, vs.head? = some a → a ≤ x.getD dim 0) ∧ ∃ b, vs.getLast? = some b ∧ x.getD dim 0 < b) (fun x => concatAt dim x Ss vs)
  | src :: ys, S :: Ss, lo :: hi :: bs, a :: b :: vs, k, l1, l', hk, hR, hs => by
    obtain ⟨⟨r1, r2, r3, r4, r5, r6⟩, hR⟩ := hR
    simp only [concatInputs, List.map_cons, Stmts.ofList, implL, implS_next] at hs
    obtain ⟨l2, s1, s2⟩ := semSeq_step (makeCopyFunc_solid (simp := simp) (lb := lb) t _ dst none k).2.1.2 hs
    obtain ⟨c1, p1, p2⟩ := concat_piece h r1 r2 r3 r4 hne r5 hk s1
    obtain ⟨c2, q1, q2⟩ := concat_seq h hne (by omega : n ≤ k + 1) hR s2
    refine ⟨c1 ++ c2, runSeq_trans p1 q1, ?_⟩
    have := p2.append (H := fun x => concatAt dim x (S :: Ss) (a :: b :: vs)) q2 (fun x hx => by simp only [concatAt]; rw [if_pos hx]) fun x hx => by
      have := hx.1 b rfl
      simp only [concatAt]
      rw [if_neg (by omega)]
    have hle : ∀ c, (b :: vs).getLast? = some c → b ≤ c := by
      intro c hc
      rcases List.mem_cons.1 (List.mem_of_getLast? hc) with rfl | hm
      · exact le_rfl
      · exact (List.pairwise_cons.1 (rangesOk_sorted hR)).1 _ hm
    refine ⟨this.elem, ?_, ?_⟩
    · intro c hc is his
      obtain ⟨x, x1, x2, x3⟩ := this.sub c hc is his
      refine ⟨x, x1, ?_, x3⟩
      rw [List.getLast?_cons_cons]
      rcases x2 with x2 | ⟨x2, x4⟩
      · refine ⟨fun a' ha => by cases ha; exact x2.1, ?_⟩
        have hl : (b :: vs).getLast? = some ((b :: vs).getLast (by simp)) := List.getLast?_eq_some_getLast (by simp)
        exact ⟨_, hl, by have := hle _ hl; omega⟩
      · exact ⟨fun a' ha => by cases ha; have := x2 b rfl; omega, x4⟩
    · intro x hx ⟨hp1, c, hp2, hp3⟩
      refine this.cover x hx ?_
      rw [List.getLast?_cons_cons] at hp2
      by_cases hb : x.getD dim 0 < b
      · exact .inl ⟨hp1 a rfl, hb⟩
      · exact .inr ⟨fun b' hb' => by cases hb'; omega, c, hp2, hp3⟩
  | [], [], [_], [v], k, l1, l', hk, hR, hs => by
    simp only [concatInputs, List.map_nil, Stmts.ofList, implL, semSeq, Option.some.injEq, Prod.mk.injEq, true_and] at hs
    subst hs
    refine ⟨[], rfl, ⟨by simp, by simp, ?_⟩⟩
    rintro x hx ⟨h1, b, h2, h3⟩
    simp only [List.getLast?_singleton, Option.some.injEq] at h2
    subst h2
    exact absurd (h1 v rfl) (by omega)

theorem concatAt_some {dim : Nat} {x : List Int} : ∀ {Ss : List Buf} {vs : List Int}, vs.Pairwise (· ≤ ·) → (concatAt dim x Ss vs).isSome →
    (∀ a, vs.head? = some a → a ≤ x.getD dim 0) ∧ ∃ b, vs.getLast? = some b ∧ x.getD dim 0 < b
  | [], _, _, h => by simp [concatAt] at h
  | _ :: _, [], _, h => by simp [concatAt] at h
  | _ :: _, [_], _, h => by simp [concatAt] at h
  | S :: Ss, a :: b :: vs, hp, h => by
    have hp' := List.pairwise_cons.1 hp
    have hl : (b :: vs).getLast? = some ((b :: vs).getLast (by simp)) := List.getLast?_eq_some_getLast (by simp)
    have hbl : b ≤ (b :: vs).getLast (by simp) := by
      have hm := List.getLast_mem (l := b :: vs) (by simp)
      rcases List.mem_cons.1 hm with he | hm
      · omega
      · exact (List.pairwise_cons.1 hp'.2).1 _ hm
    rw [List.getLast?_cons_cons]
    simp only [concatAt] at h
    split at h
    · next hc => exact ⟨fun a' ha => by cases ha; exact hc.1, _, hl, by omega⟩
    · obtain ⟨h1, h2⟩ := concatAt_some hp'.2 h
      exact ⟨fun a' ha => by cases ha; have := h1 b rfl; have := hp'.1 b (by simp); omega, h2⟩

/-- **C54** (with the conditions of `Cond` and `RangesOk`): if the statement of a concatenation succeeds, what it did is a sequence of calls of the function that copies, and if
each call does what `copy` does (C26), in memory each element of the destination in the range of a source is the element of that source, moved to the start of the range, and
nothing else is changed. -/
theorem concat_partial (h : Cond w host simp lb ρ n dst D dim) (hne : ∀ j, j < dim → (D.dim j).min ≤ (D.dim j).max) {t : Nat} {l l' : List Ev} {srcs : List Nat} {Ss : List Buf}
    {bounds : List Expr} {bs : List Int} (hR : RangesOk w l ρ n dst D dim srcs srcs Ss bounds bs) {skip : Bool}
    (hs : sem w skip (implS simp lb (makeConcat t srcs dst dim bounds) n).1 ρ l = some (0, l')) :
    ∃ calls, runSeq (copyCall w t []) calls l = some (0, l') ∧ (∀ c ∈ calls, c.1.elem = c.2.elem) ∧
      ∀ m m', Separate D (fun x => concatAt dim x Ss bs) → CallsCopy none calls m m' → CopiedFrom D (fun x => concatAt dim x Ss bs) m m' := by
  obtain ⟨calls, h1, h2⟩ := concat_seq h hne le_rfl hR (sem_makeCall hs)
  exact ⟨calls, h1, fun c hc => (h2.elem c hc).1, fun m m' hsep hm => h2.copied (fun x _ hx => concatAt_some (rangesOk_sorted hR) hx) hsep hm⟩

/-- What is assumed of the sources of a stack, from number `i`. -/
def StacksOk (ρ : SEnv) (dst : Output) (D : Buf) (dim : Nat) : List (Nat × Nat) → List Buf → Nat → Prop
  | src :: ys, S :: Ss, i => (Source ρ dst D src.1 S ∧ StackOk D dim S src.2 i) ∧ StacksOk ρ dst D dim ys Ss (i + 1)
  | [], [], _ => True
  | _, _, _ => False

theorem stack_seq (h : Cond w host simp lb ρ n dst D dim) {t : Nat} {All : List Buf} :
    ∀ {ys : List (Nat × Nat)} {Ss : List Buf} {i k : Nat} {l1 l' : List Ev}, n ≤ k → StacksOk ρ dst D dim ys Ss i → (∀ j, All[i + j]? = Ss[j]?) →
    semSeq w (implL simp lb (.ofList ((stackInputs dst dim ys i).map fun i => makeCopyFunc t i { dst with dims := dst.dims.eraseIdx dim } none)) k).1 ρ l1 = some (0, l') →
    ∃ calls, runSeq (copyCall w t []) calls l1 = some (0, l') ∧
      Part calls D (fun x => (i : Int) ≤ x.getD dim 0 ∧ x.getD dim 0 < ((i + Ss.length : Nat) : Int)) (fun x => stackAt dim x All)
  | src :: ys, S :: Ss, i, k, l1, l', hk, hR, hA, hs => by
    obtain ⟨⟨r1, r2⟩, hR⟩ := hR
    simp only [stackInputs, List.map_cons, Stmts.ofList, implL, implS_next] at hs
    obtain ⟨l2, s1, s2⟩ := semSeq_step (makeCopyFunc_solid (simp := simp) (lb := lb) t _ _ none k).2.1.2 hs
    obtain ⟨c1, p1, p2⟩ := stack_piece h r1 r2 hk s1
    obtain ⟨c2, q1, q2⟩ := stack_seq h (by omega : n ≤ k + 1) hR (fun j => by rw [show i + 1 + j = i + (j + 1) by omega, hA]; rfl) s2
    refine ⟨c1 ++ c2, runSeq_trans p1 q1, ?_⟩
    have := p2.append (H := fun x => stackAt dim x All) q2 (fun x hx => by
      have h0 := hA 0
      simp only [Nat.add_zero, List.getElem?_cons_zero] at h0
      simp only [stackAt]
      rw [hx, if_pos (by omega), Int.toNat_natCast, h0, Option.bind_some]) fun x _ => rfl
    refine ⟨this.elem, ?_, ?_⟩
    · intro c hc is his
      obtain ⟨x, x1, x2, x3⟩ := this.sub c hc is his
      refine ⟨x, x1, ?_, x3⟩
      simp only [List.length_cons]
      omega
    · intro x hx hp
      refine this.cover x hx ?_
      simp only [List.length_cons] at hp
      omega
  | [], [], i, k, l1, l', hk, hR, hA, hs => by
    simp only [stackInputs, List.map_nil, Stmts.ofList, implL, semSeq, Option.some.injEq, Prod.mk.injEq, true_and] at hs
    subst hs
    refine ⟨[], rfl, ⟨by simp, by simp, ?_⟩⟩
    rintro x hx ⟨h1, h2⟩
    simp only [List.length_nil, Nat.add_zero] at h2
    omega

/-- **C54** (with the conditions of `Cond` and `StacksOk`): if the statement of a stack succeeds, what it did is a sequence of calls of the function that copies, and if each call
does what `copy` does (C26), in memory the element of the destination with the index `i` in the dimension of the stack is the element of source number `i` at the other indices,
and nothing else is changed. -/
theorem stack_partial {d : Nat} (hd : dim = min (dst.dims.length - 1) d) (h : Cond w host simp lb ρ n dst D dim) {t : Nat} {l l' : List Ev} {srcs : List (Nat × Nat)} {Ss : List Buf}
    (hR : StacksOk ρ dst D dim srcs Ss 0) {skip : Bool} (hs : sem w skip (implS simp lb (makeStack t srcs dst d) n).1 ρ l = some (0, l')) :
    ∃ calls, runSeq (copyCall w t []) calls l = some (0, l') ∧ (∀ c ∈ calls, c.1.elem = c.2.elem) ∧
      ∀ m m', Separate D (fun x => stackAt dim x Ss) → CallsCopy none calls m m' → CopiedFrom D (fun x => stackAt dim x Ss) m m' := by
  rw [makeStack, ← hd] at hs
  obtain ⟨calls, h1, h2⟩ := stack_seq (All := Ss) h le_rfl hR (fun j => by rw [Nat.zero_add]) (sem_makeCall hs)
  refine ⟨calls, h1, fun c hc => (h2.elem c hc).1, fun m m' hsep hm => h2.copied (fun x _ hx => ?_) hsep hm⟩
  simp only [stackAt] at hx
  split at hx
  · next h0 =>
    refine ⟨by simpa using h0, ?_⟩
    by_contra hc
    rw [List.getElem?_eq_none (by omega)] at hx
    simp at hx
  · simp at hx

end Slinky.CC
