import Verif.AliasInPlaceMain

/-!
# C56: examples and counterexamples
-/

namespace Slinky.AIP

instance (a : Attrs) (n o i : Nat) : Decidable (allowed a n o i) := by unfold allowed; infer_instance

/-- No buffer is written twice, if the list of all outputs has no duplicates. -/
theorem once_of_nodup : ∀ {T : List Call}, (T.flatMap Call.outs).Nodup → ∀ (k1 k2 : Nat) (c1 c2 : Call) (o1 o2 b : Nat), T[k1]? = some c1 → T[k2]? = some c2 →
    c1.outs[o1]? = some b → c2.outs[o2]? = some b → k1 = k2 ∧ o1 = o2
  | [], _, k1, _, _, _, _, _, _, h, _, _, _ => by simp at h
  | c :: T, hn, k1, k2, c1, c2, o1, o2, b, h1, h2, g1, g2 => by
    rw [List.flatMap_cons] at hn
    obtain ⟨n1, n2, n3⟩ := List.nodup_append.mp hn
    have cross : ∀ {k : Nat} {c' : Call} {o o' : Nat}, T[k]? = some c' → c'.outs[o]? = some b → c.outs[o']? = some b → False := fun hk ho ho' =>
      n3 b (List.mem_of_getElem? ho') b (List.mem_flatMap.mpr ⟨_, List.mem_of_getElem? hk, List.mem_of_getElem? ho⟩) rfl
    cases k1 with
    | zero =>
      simp only [List.getElem?_cons_zero, Option.some.injEq] at h1
      subst h1
      cases k2 with
      | zero =>
        simp only [List.getElem?_cons_zero, Option.some.injEq] at h2
        subst h2
        refine ⟨rfl, ?_⟩
        obtain ⟨l1, e1⟩ := List.getElem?_eq_some_iff.mp g1
        obtain ⟨l2, e2⟩ := List.getElem?_eq_some_iff.mp g2
        exact (List.Nodup.getElem_inj_iff n1).mp (e1.trans e2.symm)
      | succ k2 => exact (cross (by simpa using h2) g2 g1).elim
    | succ k1 =>
      cases k2 with
      | zero =>
        simp only [List.getElem?_cons_zero, Option.some.injEq] at h2
        subst h2
        exact (cross (by simpa using h1) g1 g2).elim
      | succ k2 =>
        obtain ⟨a, b⟩ := once_of_nodup n2 k1 k2 c1 c2 o1 o2 b (by simpa using h1) (by simpa using h2) g1 g2
        exact ⟨by omega, b⟩

/-- The inputs of the calls are written before. -/
def wrB : List Nat → List Call → Bool
  | _, [] => true
  | known, c :: T => c.ins.all (known.contains ·) && wrB (known ++ c.outs) T

theorem written_of_wrB : ∀ (T : List Call) (known : List Nat), wrB known T = true → ∀ (k : Nat) (c : Call) (a : Nat), T[k]? = some c → a ∈ c.ins →
    a ∈ known ∨ ∃ (k' : Nat) (c' : Call), k' < k ∧ T[k']? = some c' ∧ a ∈ c'.outs
  | [], _, _, _, _, _, h, _ => by simp at h
  | d :: T, known, hb, 0, c, a, hc, ha => by
    simp only [List.getElem?_cons_zero, Option.some.injEq] at hc
    subst hc
    simp only [wrB, Bool.and_eq_true, List.all_eq_true, List.contains_iff_mem] at hb
    exact .inl (hb.1 a ha)
  | d :: T, known, hb, k + 1, c, a, hc, ha => by
    simp only [wrB, Bool.and_eq_true] at hb
    rcases written_of_wrB T (known ++ d.outs) hb.2 k c a (by simpa using hc) ha with h | ⟨k', c', h1, h2, h3⟩
    · rcases List.mem_append.mp h with h | h
      · exact .inl h
      · exact .inr ⟨0, d, by omega, rfl, h⟩
    · exact .inr ⟨k' + 1, c', by omega, by simpa using h2, h3⟩

mutual
/-- The memory after a statement, if the statement has a meaning. -/
def runF {V : Type} (h : Host V) : Stmt → (Nat → Option View) → MemV V → MemV V
  | .call t ins outs sc, v, m =>
    match ins.mapM v, outs.mapM v with
    | some iv, some ov => write (h.val t (iv.map (seen m)) (ov.map View.region) (sc.map h.num)) 0 ov m
    | _, _ => m
  | .block ss, v, m => runFs h ss v m
  | .allocate x _ _ dims body, v, m => runF h body (upd v x (some ⟨x, regionOf h.num dims⟩)) (fun r => if r = x then fun _ => none else m r)
  | .cropBuffer x src bs body, v, m => match v src with
    | some u => runF h body (upd v x (some ⟨u.root, cropR h.num u.region bs⟩)) m
    | none => m
  | .cropDim x src d b body, v, m => match v src with
    | some u => runF h body (upd v x (some ⟨u.root, cropDimR h.num d b u.region⟩)) m
    | none => m
  | .cloneBuffer x src body, v, m => match v src with
    | some u => runF h body (upd v x (some u)) m
    | none => m
  | _, _, m => m
/-- See `runF`. -/
def runFs {V : Type} (h : Host V) : Stmts → (Nat → Option View) → MemV V → MemV V
  | .nil, _, m => m
  | .cons s ss, v, m => runFs h ss v (runF h s v m)
end

mutual
/-- A statement has one result. -/
theorem run_runF {V : Type} (h : Host V) (attrs : Nat → Attrs) : ∀ (s : Stmt) (v : Nat → Option View) (m m1 : MemV V), Run h attrs s v m m1 → m1 = runF h s v m
  | .call t ins outs sc, v, m, m1, hr => by
    obtain ⟨iv, ov, h1, h2, -, rfl⟩ := hr
    simp [runF, h1, h2]
  | .block ss, v, m, m1, hr => by
    rw [Run] at hr
    rw [runF]
    exact runAll_runFs h attrs ss v m m1 hr
  | .allocate x _ _ dims body, v, m, m1, hr => by
    rw [Run] at hr
    rw [runF]
    exact run_runF h attrs body _ _ m1 hr
  | .cropBuffer x src bs body, v, m, m1, hr => by
    rw [Run] at hr
    obtain ⟨u, hu, hr⟩ := hr
    simp only [runF, hu]
    exact run_runF h attrs body _ _ m1 hr
  | .cropDim x src d bs body, v, m, m1, hr => by
    rw [Run] at hr
    obtain ⟨u, hu, hr⟩ := hr
    simp only [runF, hu]
    exact run_runF h attrs body _ _ m1 hr
  | .cloneBuffer x src body, v, m, m1, hr => by
    rw [Run] at hr
    obtain ⟨u, hu, hr⟩ := hr
    simp only [runF, hu]
    exact run_runF h attrs body _ _ m1 hr
  | .undef, _, _, _, hr => by simp [Run] at hr
  | .copy .., _, _, _, hr => by simp [Run] at hr
  | .lets .., _, _, _, hr => by simp [Run] at hr
  | .loop .., _, _, _, hr => by simp [Run] at hr
  | .makeBuffer .., _, _, _, hr => by simp [Run] at hr
  | .constantBuffer .., _, _, _, hr => by simp [Run] at hr
  | .sliceBuffer .., _, _, _, hr => by simp [Run] at hr
  | .sliceDim .., _, _, _, hr => by simp [Run] at hr
  | .transpose .., _, _, _, hr => by simp [Run] at hr
  | .async .., _, _, _, hr => by simp [Run] at hr
  | .check .., _, _, _, hr => by simp [Run] at hr
/-- See `run_runF`. -/
theorem runAll_runFs {V : Type} (h : Host V) (attrs : Nat → Attrs) : ∀ (ss : Stmts) (v : Nat → Option View) (m m1 : MemV V),
    RunAll h attrs ss v m m1 → m1 = runFs h ss v m
  | .nil, _, _, _, hr => by rw [RunAll] at hr; rw [runFs]; exact hr
  | .cons s ss, v, m, m1, hr => by
    rw [RunAll] at hr
    obtain ⟨m2, h1, h2⟩ := hr
    rw [runFs, ← run_runF h attrs s v m m2 h1]
    exact runAll_runFs h attrs ss v m2 m1 h2
end

/-- The values of constants. -/
def exNum : Expr → Int
  | .const c => c
  | _ => 0

/-- A dimension without stride and fold factor. -/
def exDim (a b : Int) : DimE := ⟨.bounds (.const a) (.const b), .undef, .undef⟩

/-- The element of an input. -/
def el (ins : List (Region × (List Int → Option Int))) (i : Nat) (idx : List Int) : Int :=
  (((ins[i]?).map fun p => p.2 idx).getD none).getD 0

/-- Calls: 1 adds 1; 2 doubles; 3 adds two inputs; 4 adds neighbors `a[x] + a[x + 1]`; 5 has two outputs, `a[x]` and `-a[x]`. -/
def exHost : Host Int where
  num := exNum
  val := fun t ins _ _ o idx =>
    if t = 1 then el ins 0 idx + 1
    else if t = 2 then 2 * el ins 0 idx
    else if t = 3 then el ins 0 idx + el ins 1 idx
    else if t = 4 then el ins 0 idx + el ins 0 (idx.map (· + 1))
    else if o = 0 then el ins 0 idx else - el ins 0 idx

/-- All calls may be computed in place. -/
def exAttrs : Nat → Attrs := fun _ => { inPlace := fun _ => true }

/-- The pipeline `b = in + 1; c = 2 b; out = c + in`: symbol 0 is the input, 1 the output, 10 and 11 are `b` and `c`. -/
def exS : Stmt :=
  .allocate 10 .heap (.const 1) [exDim 0 3] <| .allocate 11 .heap (.const 1) [exDim 0 3] <| .block <| .ofList
    [.call 1 [0] [10] [], .call 2 [10] [11] [], .call 3 [11, 0] [1] []]

/-- The bounds in the example. -/
def exRegs : Nat → Region := fun _ => [(0, 3)]

theorem exS_trace : trace id exS = [⟨1, [0], [10]⟩, ⟨2, [10], [11]⟩, ⟨3, [11, 0], [1]⟩] := rfl

/-- C56, the hypotheses of `aliasInPlace_partial` hold for the example. -/
theorem exS_program : Program exHost.num exAttrs exRegs [0] [1] exS where
  scope := by
    simp only [exS, Scoped, Scopeds, Stmts.ofList, regionOf, exRegs, exDim, exHost, exNum, Interval.bounds]
    simp [Expr.defined]
  names := by decide
  once := by rw [exS_trace]; exact once_of_nodup (by decide)
  readOnly := by rw [exS_trace]; decide
  written := by
    rw [exS_trace]
    exact written_of_wrB _ [0] (by decide)
  oneOut := by
    rw [exS_trace]
    intro c hc o1 o2 i h1 h2 _ _ _
    simp only [List.mem_cons, List.not_mem_nil, or_false] at hc
    rcases hc with rfl | rfl | rfl <;> simp only [List.length_singleton] at h1 h2 <;> omega
  size := fun c _ o i a b _ _ _ => by
    simp only [exRegs, Region.Sub]
    exact ⟨fun _ => .cons ⟨le_refl _, le_refl _⟩ .nil, fun _ => .cons ⟨le_refl _, le_refl _⟩ .nil⟩

/-- The pass computes `c` in place of `b`. -/
theorem exS_alias : aliasInPlace (fun _ => false) exAttrs [1] exS =
    (.allocate 10 .heap (.const 1) [exDim 0 3] <| .cropBuffer 11 10 [(exDim 0 3).bounds] <| .block <| .ofList
      [.call 1 [0] [10] [], .call 2 [10] [11] [], .call 3 [11, 0] [1] []]) := by
  rfl

/-- The buffers of the pipelines. -/
def exV (n : Int) : Nat → Option View := fun x => if x = 0 then some ⟨0, [(0, n)]⟩ else if x = 1 then some ⟨1, [(0, 3)]⟩ else none

/-- The memory at the beginning: the elements of the input are `10 * index`. -/
def exM : MemV Int := fun r idx => if r = 0 then match idx with | [i] => some (10 * i) | _ => none else none

/-- An element of a buffer with bounds 0 to n. -/
theorem has_one {n : Int} {idx : List Int} (h : has [(0, n)] idx = true) : ∃ i, idx = [i] ∧ 0 ≤ i ∧ i ≤ n := by
  match idx, h with
  | [], h => simp [has] at h
  | [i], h =>
    simp [has] at h
    exact ⟨i, rfl, h⟩
  | i :: j :: r, h => simp [has] at h

theorem exM_input {n : Int} {idx : List Int} (h : has [(0, n)] idx = true) : ∃ v, exM 0 idx = some v := by
  obtain ⟨i, rfl, -⟩ := has_one h
  exact ⟨10 * i, by simp [exM]⟩

/-- Views of different allocations. -/
theorem no_share {outs ins : List View} (h : ∀ a ∈ outs.map View.root, a ∉ ins.map View.root) (o i : Nat) (uo ui : View) (ho : outs[o]? = some uo)
    (hi : ins[i]? = some ui) (he : uo.root = ui.root) : False :=
  h uo.root (List.mem_map.mpr ⟨uo, List.mem_of_getElem? ho, rfl⟩) (he ▸ List.mem_map.mpr ⟨ui, List.mem_of_getElem? hi, rfl⟩)

/-- The pipeline runs: element 2 of the output is `2 (20 + 1) + 20`. -/
theorem exS_run : ∃ m1, Run exHost exAttrs exS (exV 3) exM m1 ∧ m1 1 [2] = some 62 := by
  refine ⟨runF exHost exS (exV 3) exM, ?_, by decide +kernel⟩
  simp only [exS, Run, RunAll, Stmts.ofList]
  refine ⟨_, ⟨[⟨0, [(0, 3)]⟩], [⟨10, [(0, 3)]⟩], by rfl, by rfl, ⟨?_, by simp, ?_⟩, rfl⟩, _, ⟨[⟨10, [(0, 3)]⟩], [⟨11, [(0, 3)]⟩], by rfl, by rfl, ⟨?_, by simp, ?_⟩, rfl⟩, _,
    ⟨[⟨11, [(0, 3)]⟩, ⟨0, [(0, 3)]⟩], [⟨1, [(0, 3)]⟩], by rfl, by rfl, ⟨?_, by simp, ?_⟩, rfl⟩, rfl⟩
  · simp only [List.mem_singleton, forall_eq]
    exact fun idx hh => by simpa using exM_input hh
  · exact fun o i uo ui ho hi he => (no_share (by decide) o i uo ui ho hi he).elim
  · simp only [List.mem_singleton, forall_eq]
    exact fun idx hh => by simp [write, hh]
  · exact fun o i uo ui ho hi he => (no_share (by decide) o i uo ui ho hi he).elim
  · simp only [List.mem_cons, List.not_mem_nil, or_false, forall_eq_or_imp, forall_eq]
    exact ⟨fun idx hh => by simp [write, hh], fun idx hh => by simpa [write] using exM_input hh⟩
  · exact fun o i uo ui ho hi he => (no_share (by decide) o i uo ui ho hi he).elim

/-- C56, the theorem for the example. -/
theorem exS_ok : ∃ m1', Run exHost exAttrs (aliasInPlace (fun _ => false) exAttrs [1] exS) (exV 3) exM m1' ∧ m1' 1 [2] = some 62 := by
  obtain ⟨m1, h1, h2⟩ := exS_run
  obtain ⟨m1', r1, r2⟩ := aliasInPlace_partial exHost exAttrs (fun _ => false) exS_program (v := exV 3)
    (by simp only [List.mem_singleton, forall_eq]; exact ⟨[(0, 3)], rfl⟩) (by simp only [List.mem_singleton, forall_eq]; rfl)
    (fun R idx val hv => by
      by_cases hR : R = 0
      · simp [hR]
      · simp [exM, hR] at hv) h1
  exact ⟨m1', r1, r2 1 (by simp) [2] 62 h2⟩

/-! ## Counterexamples -/

/-- `b = in + 1; out = b[x] + b[x + 1]`. The second call may be computed in place: it can compute its elements in order. -/
def cxSize : Stmt :=
  .allocate 10 .heap (.const 1) [exDim 0 4] <| .block <| .ofList [.call 1 [0] [10] [], .call 4 [10] [1] []]

/-- **C56, counterexample: sizes.** The pass does not compare the bounds of the buffers (optimizations.cc:1079-1091). The buffer `b`, with elements 0 to 4, becomes a crop of
the output, with elements 0 to 3, and the last element of the output is wrong. -/
theorem aliasInPlace_size_counterexample :
    aliasInPlace (fun _ => false) exAttrs [1] cxSize =
      (.cloneBuffer 10 1 <| .cropBuffer 10 10 [(exDim 0 4).bounds] <| .block <| .ofList [.call 1 [0] [10] [], .call 4 [10] [1] []]) ∧
    (∃ m1, Run exHost exAttrs cxSize (exV 4) exM m1 ∧ m1 1 [3] = some 72) ∧
    ∀ m1', Run exHost exAttrs (aliasInPlace (fun _ => false) exAttrs [1] cxSize) (exV 4) exM m1' → m1' 1 [3] = some 31 := by
  refine ⟨rfl, ⟨runF exHost cxSize (exV 4) exM, ?_, by decide +kernel⟩, fun m1' hr => ?_⟩
  · simp only [cxSize, Run, RunAll, Stmts.ofList]
    refine ⟨_, ⟨[⟨0, [(0, 4)]⟩], [⟨10, [(0, 4)]⟩], by rfl, by rfl, ⟨?_, by simp, ?_⟩, rfl⟩, _, ⟨[⟨10, [(0, 4)]⟩], [⟨1, [(0, 3)]⟩], by rfl, by rfl, ⟨?_, by simp, ?_⟩, rfl⟩, rfl⟩
    · simp only [List.mem_singleton, forall_eq]
      exact fun idx hh => by simpa using exM_input hh
    · exact fun o i uo ui ho hi he => (no_share (by decide) o i uo ui ho hi he).elim
    · simp only [List.mem_singleton, forall_eq]
      exact fun idx hh => by simp [write, hh]
    · exact fun o i uo ui ho hi he => (no_share (by decide) o i uo ui ho hi he).elim
  · rw [run_runF _ _ _ _ _ _ hr]
    decide +kernel

/-- A call with two outputs, `b = a; c = -a`, and then `out = b + c`. Each of the outputs may be computed in place of `a`. -/
def cxTwo : Stmt :=
  .allocate 10 .heap (.const 1) [exDim 0 3] <| .allocate 11 .heap (.const 1) [exDim 0 3] <| .allocate 12 .heap (.const 1) [exDim 0 3] <| .block <| .ofList
    [.call 1 [0] [10] [], .call 5 [10] [11, 12] [], .call 3 [11, 12] [1] []]

/-- The attributes: only the call with two outputs may be computed in place. -/
def twoAttrs : Nat → Attrs := fun t => { inPlace := fun _ => t == 5 }

/-- **C56, counterexample: two outputs.** Both outputs of a call are computed in place of the same input (optimizations.cc:1114-1152 does not record
that an input is taken), and so the two outputs share memory: one is lost. -/
theorem aliasInPlace_outputs_counterexample :
    aliasInPlace (fun _ => false) twoAttrs [1] cxTwo =
      (.allocate 10 .heap (.const 1) [exDim 0 3] <| .cropBuffer 11 10 [(exDim 0 3).bounds] <| .cropBuffer 12 10 [(exDim 0 3).bounds] <| .block <| .ofList
        [.call 1 [0] [10] [], .call 5 [10] [11, 12] [], .call 3 [11, 12] [1] []]) ∧
    (∃ m1, Run exHost twoAttrs cxTwo (exV 3) exM m1 ∧ m1 1 [2] = some 0) ∧
    (¬ ∃ m1', Run exHost twoAttrs (aliasInPlace (fun _ => false) twoAttrs [1] cxTwo) (exV 3) exM m1') ∧
    runF exHost (aliasInPlace (fun _ => false) twoAttrs [1] cxTwo) (exV 3) exM 1 [2] = some (-42) := by
  refine ⟨rfl, ⟨runF exHost cxTwo (exV 3) exM, ?_, by decide +kernel⟩, ?_, by decide +kernel⟩
  · simp only [cxTwo, Run, RunAll, Stmts.ofList]
    refine ⟨_, ⟨[⟨0, [(0, 3)]⟩], [⟨10, [(0, 3)]⟩], by rfl, by rfl, ⟨?_, by simp, ?_⟩, rfl⟩, _,
      ⟨[⟨10, [(0, 3)]⟩], [⟨11, [(0, 3)]⟩, ⟨12, [(0, 3)]⟩], by rfl, by rfl, ⟨?_, by simp, ?_⟩, rfl⟩, _,
      ⟨[⟨11, [(0, 3)]⟩, ⟨12, [(0, 3)]⟩], [⟨1, [(0, 3)]⟩], by rfl, by rfl, ⟨?_, by simp, ?_⟩, rfl⟩, rfl⟩
    · simp only [List.mem_singleton, forall_eq]
      exact fun idx hh => by simpa using exM_input hh
    · exact fun o i uo ui ho hi he => (no_share (by decide) o i uo ui ho hi he).elim
    · simp only [List.mem_singleton, forall_eq]
      exact fun idx hh => by simp [write, hh]
    · exact fun o i uo ui ho hi he => (no_share (by decide) o i uo ui ho hi he).elim
    · simp only [List.mem_cons, List.not_mem_nil, or_false, forall_eq_or_imp, forall_eq]
      exact ⟨fun idx hh => by simp [write, hh], fun idx hh => by simp [write, hh]⟩
    · exact fun o i uo ui ho hi he => (no_share (by decide) o i uo ui ho hi he).elim
  · rintro ⟨m1', hr⟩
    have e : aliasInPlace (fun _ => false) twoAttrs [1] cxTwo = (.allocate 10 .heap (.const 1) [exDim 0 3] <| .cropBuffer 11 10 [(exDim 0 3).bounds] <|
      .cropBuffer 12 10 [(exDim 0 3).bounds] <| .block <| .ofList [.call 1 [0] [10] [], .call 5 [10] [11, 12] [], .call 3 [11, 12] [1] []]) := rfl
    rw [e] at hr
    simp only [Run, RunAll, Stmts.ofList] at hr
    obtain ⟨u, hu, u2, hu2, m2, -, m3, ⟨iv, ov, -, ho, ⟨-, hn, -⟩, -⟩, -⟩ := hr
    have h1 : u = ⟨10, [(0, 3)]⟩ := by
      simp [upd, regionOf, exDim, exHost, exNum, Interval.bounds] at hu
      exact hu.symm
    subst h1
    have h2 : u2 = ⟨10, [(0, 3)]⟩ := by
      simp [upd, regionOf, exDim, exHost, exNum, Interval.bounds] at hu2
      exact hu2.symm
    subst h2
    have h3 : ov = [⟨10, cropR exHost.num [(0, 3)] [(exDim 0 3).bounds]⟩, ⟨10, cropR exHost.num [(0, 3)] [(exDim 0 3).bounds]⟩] := by
      simp [upd] at ho
      exact ho.symm
    subst h3
    simp at hn

/-- `b = in + 1` and `c = 2 in`, and `out` is `b` for the elements 0 and 1, and `c` for the elements 2 and 3: two calls write a part of the output. -/
def cxParts : Stmt :=
  .allocate 10 .heap (.const 1) [exDim 0 3] <| .allocate 11 .heap (.const 1) [exDim 0 3] <| .block <| .ofList
    [.call 1 [0] [10] [], .call 2 [0] [11] [],
      .cropBuffer 20 1 [(exDim 0 1).bounds] (.call 5 [10] [20] []), .cropBuffer 21 1 [(exDim 2 3).bounds] (.call 5 [11] [21] [])]

/-- **C56, counterexample: a buffer that two calls write.** Both inputs become crops of the output, and the second one overwrites the first one before it is used. -/
theorem aliasInPlace_parts_counterexample :
    (∃ m1, Run exHost exAttrs cxParts (exV 3) exM m1 ∧ m1 1 [1] = some 11) ∧
    ∀ m1', Run exHost exAttrs (aliasInPlace (fun _ => false) exAttrs [1] cxParts) (exV 3) exM m1' → m1' 1 [1] = some 20 := by
  refine ⟨⟨runF exHost cxParts (exV 3) exM, ?_, by decide +kernel⟩, fun m1' hr => ?_⟩
  · simp only [cxParts, Run, RunAll, Stmts.ofList]
    refine ⟨_, ⟨[⟨0, [(0, 3)]⟩], [⟨10, [(0, 3)]⟩], by rfl, by rfl, ⟨?_, by simp, ?_⟩, rfl⟩, _,
      ⟨[⟨0, [(0, 3)]⟩], [⟨11, [(0, 3)]⟩], by rfl, by rfl, ⟨?_, by simp, ?_⟩, rfl⟩, _,
      ⟨_, by rfl, [⟨10, [(0, 3)]⟩], [⟨1, [(0, 1)]⟩], by rfl, by rfl, ⟨?_, by simp, ?_⟩, rfl⟩, _,
      ⟨_, by rfl, [⟨11, [(0, 3)]⟩], [⟨1, [(2, 3)]⟩], by rfl, by rfl, ⟨?_, by simp, ?_⟩, rfl⟩, rfl⟩
    · simp only [List.mem_singleton, forall_eq]
      exact fun idx hh => by simpa using exM_input hh
    · exact fun o i uo ui ho hi he => (no_share (by decide) o i uo ui ho hi he).elim
    · simp only [List.mem_singleton, forall_eq]
      exact fun idx hh => by simpa [write] using exM_input hh
    · exact fun o i uo ui ho hi he => (no_share (by decide) o i uo ui ho hi he).elim
    · simp only [List.mem_singleton, forall_eq]
      exact fun idx hh => by simp [write, hh]
    · exact fun o i uo ui ho hi he => (no_share (by decide) o i uo ui ho hi he).elim
    · simp only [List.mem_singleton, forall_eq]
      exact fun idx hh => by simp [write, hh]
    · exact fun o i uo ui ho hi he => (no_share (by decide) o i uo ui ho hi he).elim
  · rw [run_runF _ _ _ _ _ _ hr]
    decide +kernel

end Slinky.AIP
