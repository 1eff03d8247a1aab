import Verif.AliasInPlaceSim

/-!
# C56: `alias_in_place` shares memory only between buffers that are connected
-/

namespace Slinky.AIP

/-- The uses of a buffer by the calls from call `n` on. -/
def cntUses (T : List Call) (R n : Nat) : Nat := ((T.drop n).flatMap Call.ins).count R

theorem cntUses_step {T : List Call} {k : Nat} {c : Call} (h : T[k]? = some c) (R : Nat) : cntUses T R k = c.ins.count R + cntUses T R (k + 1) := by
  obtain ⟨hk, he⟩ := List.getElem?_eq_some_iff.mp h
  rw [cntUses, List.drop_eq_getElem_cons hk, he, List.flatMap_cons, List.count_append]
  rfl

theorem cntUses_zero {T : List Call} {R n : Nat} : cntUses T R n = 0 ↔ ∀ (k : Nat) (c : Call), n ≤ k → T[k]? = some c → R ∉ c.ins := by
  rw [cntUses, List.count_eq_zero, List.mem_flatMap]
  constructor
  · intro h k c hk hc hR
    exact h ⟨c, List.mem_iff_getElem?.mpr ⟨k - n, by rw [List.getElem?_drop]; rw [show n + (k - n) = k by omega]; exact hc⟩, hR⟩
  · rintro h ⟨c, hc, hR⟩
    obtain ⟨j, hj⟩ := List.mem_iff_getElem?.mp hc
    rw [List.getElem?_drop] at hj
    exact h (n + j) c (by omega) hj hR

section
variable {attrs : Nat → Attrs} {K F In : Nat → Prop} {T : List Call} {regs : Nat → Region} {D outs : List Nat}

/-- What the pass knows about the buffers in scope. -/
structure BufsOK (K : Nat → Prop) (G : List Nat) (rt : Nat → Nat) (bufs : Nat → Option Info) : Prop where
  some_ : ∀ y ∈ G, K (rt y) → ∃ i, bufs y = some i ∧ i.root = rt y ∧ i.allow = true
  none_ : ∀ y ∈ G, ¬ K (rt y) → bufs y = none
  out : ∀ y, y ∉ G → bufs y = none
  closed : ∀ y ∈ G, rt y ∈ G

/-- The numbers of uses are right. -/
def UsesOK (K : Nat → Prop) (T : List Call) (outs G : List Nat) (n : Nat) (u : Nat → Option Nat) : Prop :=
  ∀ R ∈ G, K R → (u R).getD 0 = cntUses T R n + (if R ∈ outs then 1 else 0)

/-- What is recorded are edges. -/
def EdgeOK (attrs : Nat → Attrs) (K F : Nat → Prop) (T : List Call) (st : St) : Prop :=
  (∀ B A, st.backward B = some A → Edge attrs K F T A B) ∧ ∀ A B, st.forward A = some B → Edge attrs K F T A B

theorem addUses_get {G : List Nat} {rt : Nat → Nat} {bufs : Nat → Option Info} (hb : BufsOK K G rt bufs) {R : Nat} (hR : K R) :
    ∀ (is : List Nat) (u : Nat → Option Nat), (∀ x ∈ is, x ∈ G) → (addUses bufs is u R).getD 0 = (u R).getD 0 + (is.map rt).count R
  | [], _, _ => by simp [addUses]
  | i :: is, u, hi => by
    rw [addUses, addUses_get hb hR is _ fun x hx => hi x (List.mem_cons_of_mem _ hx), List.map_cons, List.count_cons]
    by_cases hk : K (rt i)
    · obtain ⟨a, h1, h2, -⟩ := hb.some_ i (hi i List.mem_cons_self) hk
      rw [h1]
      simp only [addUse, upd, h2]
      by_cases hr : R = rt i
      · subst hr
        simp
        omega
      · have hr' : ¬ rt i = R := fun e => hr e.symm
        simp [hr, hr']
    · rw [hb.none_ i (hi i List.mem_cons_self) hk]
      have : ¬ rt i = R := fun e => hk (e ▸ hR)
      simp [this]

theorem pick_some {bufs : Nat → Option Info} {at_ : Attrs} {u : Nat → Option Nat} {level n o x : Nat} :
    ∀ (xs : List Nat) (i : Nat), pick bufs at_ u level n o i xs = some x →
      ∃ j : Nat, xs[j]? = some x ∧ inputOk bufs at_ u level n o (i + j) x = true ∧
        ∀ (j' x' : Nat), j' < j → xs[j']? = some x' → inputOk bufs at_ u level n o (i + j') x' = false
  | [], _, h => by simp [pick] at h
  | y :: ys, i, h => by
    rw [pick] at h
    split at h
    · rename_i hok
      cases h
      exact ⟨0, rfl, by simpa using hok, fun j' x' hj => absurd hj (Nat.not_lt_zero _)⟩
    · rename_i hok
      obtain ⟨j, a, b, c⟩ := pick_some ys (i + 1) h
      refine ⟨j + 1, by simpa using a, by rw [← b]; congr 1; omega, fun j' x' hj hx => ?_⟩
      cases j' with
      | zero =>
        simp only [List.getElem?_cons_zero, Option.some.injEq] at hx
        subst hx
        simpa using hok
      | succ j' =>
        have := c j' x' (by omega) (by simpa using hx)
        rw [← this]
        congr 1
        omega

/-- The pass finds the last uses. -/
theorem inputOk_iff {G : List Nat} {rt : Nat → Nat} {bufs : Nat → Option Info} (hb : BufsOK K G rt bufs) {k t : Nat} {ins os : List Nat}
    {u : Nat → Option Nat} (hF : ∀ R, K R → (F R ↔ R ∈ outs)) (hk : T[k]? = some ⟨t, ins.map rt, os.map rt⟩) (hu : UsesOK K T outs G k u)
    (hm : (attrs t).memcpy = false) {i x o : Nat} (hx : ins[i]? = some x) (hxG : x ∈ G) :
    inputOk bufs (attrs t) u 0 ins.length o i x = true ↔ Elig attrs K F T k ⟨t, ins.map rt, os.map rt⟩ o i := by
  have hx' : (ins.map rt)[i]? = some (rt x) := by rw [List.getElem?_map, hx]; rfl
  have hlv : ∀ l, levelLt l 0 = false := fun l => by cases l <;> simp [levelLt]
  unfold inputOk Elig allowed
  by_cases hK : K (rt x)
  · obtain ⟨a, h1, h2, h3⟩ := hb.some_ x hxG hK
    have hcnt := hu (rt x) (hb.closed x hxG) hK
    have hstep := cntUses_step hk (rt x)
    have hpos : 0 < (ins.map rt).count (rt x) := List.count_pos_iff.mpr (List.mem_of_getElem? hx')
    have hsome : lastUse (u (rt x)) = decide (cntUses T (rt x) k + (if rt x ∈ outs then 1 else 0) ≤ 1) := by
      cases hux : u (rt x) with
      | none =>
        rw [hux] at hcnt
        simp only [Option.getD_none] at hcnt
        simp only [] at hstep
        omega
      | some n =>
        rw [hux] at hcnt
        simp only [Option.getD_some] at hcnt
        rw [lastUse, hcnt]
    simp only [h1, h2, h3, hlv, hsome, Bool.true_and, Bool.not_false, Bool.and_true, Bool.and_eq_true, decide_eq_true_eq, hm, true_and, List.length_map]
    constructor
    · rintro ⟨hal, hle⟩
      refine ⟨hal, rt x, hx', hK, ?_, ?_, ?_⟩
      · intro hf
        rw [if_pos ((hF _ hK).mp hf)] at hle
        simp only [] at hstep
        omega
      · simp only [] at hstep ⊢
        split at hle <;> omega
      · have : cntUses T (rt x) (k + 1) = 0 := by
          simp only [] at hstep
          split at hle <;> omega
        exact fun k' c' hk' hc' => (cntUses_zero.mp this) k' c' hk' hc'
    · rintro ⟨hal, A, hA, -, hf, hc, hl⟩
      rw [hx'] at hA
      cases hA
      refine ⟨hal, ?_⟩
      have h0 : cntUses T (rt x) (k + 1) = 0 := cntUses_zero.mpr fun k' c' hk' hc' => hl k' c' hk' hc'
      rw [if_neg fun hm => hf ((hF _ hK).mpr hm)]
      simp only [] at hstep hc
      omega
  · rw [hb.none_ x hxG hK]
    simp only [Bool.and_false, Bool.false_eq_true, false_iff]
    rintro ⟨-, A, hA, hKA, -⟩
    rw [hx'] at hA
    cases hA
    exact hK hKA

theorem outputs_ok {G : List Nat} {rt : Nat → Nat} {bufs : Nat → Option Info} (hb : BufsOK K G rt bufs) {k t : Nat} {ins os : List Nat}
    (hF : ∀ R, K R → (F R ↔ R ∈ outs)) (hk : T[k]? = some ⟨t, ins.map rt, os.map rt⟩)
    (hm : (attrs t).memcpy = false) (hi : ∀ x ∈ ins, x ∈ G) :
    ∀ (ys : List Nat) (o : Nat) (st : St), (∀ x ∈ ys, x ∈ G) → (∀ (j y : Nat), ys[j]? = some y → os[o + j]? = some y) → UsesOK K T outs G k st.uses →
      EdgeOK attrs K F T st →
      (outputs bufs (attrs t) 0 ins o ys st).uses = st.uses ∧ EdgeOK attrs K F T (outputs bufs (attrs t) 0 ins o ys st)
  | [], _, _, _, _, _, he => ⟨rfl, he⟩
  | y :: ys, o, st, hy, ho, hu, he => by
    rw [outputs]
    have key : ∀ st' : St, st'.uses = st.uses → EdgeOK attrs K F T st' →
        (outputs bufs (attrs t) 0 ins (o + 1) ys st').uses = st.uses ∧ EdgeOK attrs K F T (outputs bufs (attrs t) 0 ins (o + 1) ys st') := by
      intro st' h1 h2
      obtain ⟨a, b⟩ := outputs_ok hb hF hk hm hi ys (o + 1) st' (fun x hx => hy x (List.mem_cons_of_mem _ hx))
        (fun j z hz => by rw [show o + 1 + j = o + (j + 1) by omega]; exact ho (j + 1) z (by simpa using hz)) (by rw [h1]; exact hu) h2
      exact ⟨a.trans h1, b⟩
    cases hby : bufs y with
    | none => exact key st rfl he
    | some b =>
      simp only []
      split
      · exact key st rfl he
      · cases hp : pick bufs (attrs t) st.uses 0 ins.length o 0 ins with
        | none => exact key st rfl he
        | some a =>
          simp only []
          have hyG := hy y List.mem_cons_self
          have hKy : K (rt y) := by
            by_contra hn
            rw [hb.none_ y hyG hn] at hby
            cases hby
          obtain ⟨b', hb1, hb2, -⟩ := hb.some_ y hyG hKy
          rw [hby] at hb1
          cases hb1
          obtain ⟨j, hj, hok, hfirst⟩ := pick_some ins 0 hp
          have haG := hi a (List.mem_of_getElem? hj)
          rw [Nat.zero_add] at hok
          have hel := (inputOk_iff (F := F) (os := os) hb hF hk hu hm hj haG).mp hok
          obtain ⟨-, A, hA, hKA, -⟩ := id hel
          have hj' : (ins.map rt)[j]? = some (rt a) := by rw [List.getElem?_map, hj]; rfl
          rw [hj'] at hA
          cases hA
          obtain ⟨ia, hia, hir, -⟩ := hb.some_ a haG hKA
          have hE : Edge attrs K F T (rt a) (rt y) := by
            refine ⟨k, _, o, j, hk, ?_, hj', hKy, hel, ?_⟩
            · have := ho 0 y rfl
              rw [Nat.add_zero] at this
              show (os.map rt)[o]? = _
              rw [List.getElem?_map, this]
              rfl
            · intro i' hi' hel'
              obtain ⟨-, A', hA', -⟩ := id hel'
              have hA2 : (ins.map rt)[i']? = some A' := hA'
              rw [List.getElem?_map, Option.map_eq_some_iff] at hA2
              obtain ⟨x', hx', -⟩ := hA2
              have := (inputOk_iff (F := F) (os := os) hb hF hk hu hm hx' (hi x' (List.mem_of_getElem? hx'))).mpr hel'
              have hf := hfirst i' x' hi' hx'
              rw [Nat.zero_add, this] at hf
              cases hf
          apply key
          · rw [link, hia]
          · rw [link, hia]
            constructor
            · intro B A hBA
              simp only [upd] at hBA
              split at hBA
              · rename_i hB
                simp only [Option.some.injEq] at hBA
                rw [hB, ← hBA, hir, hb2]
                exact hE
              · exact he.1 B A hBA
            · intro A B hAB
              simp only [upd] at hAB
              split at hAB
              · rename_i hA
                simp only [Option.some.injEq] at hAB
                rw [hA, ← hAB, hir, hb2]
                exact hE
              · exact he.2 A B hAB

theorem updN_closed {G : List Nat} {rt : Nat → Nat} (hr : ∀ y ∈ G, rt y ∈ G) {x z : Nat} (hz : z = x ∨ z ∈ G) : ∀ y ∈ x :: G, updN rt x z y ∈ x :: G := by
  intro y hy
  simp only [updN]
  split
  · rcases hz with e | e
    · exact e ▸ List.mem_cons_self
    · exact List.mem_cons_of_mem _ e
  · rename_i hn
    exact List.mem_cons_of_mem _ (hr y ((List.mem_cons.mp hy).resolve_left hn))

theorem mem_shift {R x : Nat} {G ds : List Nat} (h : R ∈ x :: G ∨ R ∈ ds) : R ∈ G ∨ R ∈ x :: ds := by
  rcases h with h | h
  · rcases List.mem_cons.mp h with h | h
    · exact .inr (h ▸ List.mem_cons_self)
    · exact .inl h
  · exact .inr (List.mem_cons_of_mem _ h)

mutual
/-- A call uses buffers in scope or declarations of the statement. -/
theorem trace_roots (num : Expr → Int) : ∀ (s : Stmt) (G : List Nat) (rt : Nat → Nat), Scoped num regs G s → (∀ y ∈ G, rt y ∈ G) →
    ∀ c ∈ trace rt s, ∀ R ∈ c.ins, R ∈ G ∨ R ∈ decls s
  | .call t ins os sc, G, rt, hs, hr, c, hc, R, hR => by
    rw [trace, List.mem_singleton] at hc
    subst hc
    obtain ⟨x, hx, rfl⟩ := List.mem_map.mp hR
    rw [Scoped] at hs
    exact .inl (hr x (hs.1 x hx))
  | .block ss, G, rt, hs, hr, c, hc, R, hR => by
    rw [Scoped] at hs
    rw [decls]
    rw [trace] at hc
    exact traces_roots num ss G rt hs hr c hc R hR
  | .allocate x st e dims body, G, rt, hs, hr, c, hc, R, hR => by
    rw [Scoped] at hs
    rw [trace] at hc
    rw [decls]
    exact mem_shift (trace_roots num body _ _ hs.2.2 (updN_closed hr (.inl rfl)) c hc R hR)
  | .cropBuffer x src bs body, G, rt, hs, hr, c, hc, R, hR => by
    rw [Scoped] at hs
    rw [trace] at hc
    rw [decls]
    exact mem_shift (trace_roots num body _ _ hs.2 (updN_closed hr (.inr (hr src hs.1))) c hc R hR)
  | .cropDim x src d bs body, G, rt, hs, hr, c, hc, R, hR => by
    rw [Scoped] at hs
    rw [trace] at hc
    rw [decls]
    exact mem_shift (trace_roots num body _ _ hs.2 (updN_closed hr (.inr (hr src hs.1))) c hc R hR)
  | .cloneBuffer x src body, G, rt, hs, hr, c, hc, R, hR => by
    rw [Scoped] at hs
    rw [trace] at hc
    rw [decls]
    exact mem_shift (trace_roots num body _ _ hs.2 (updN_closed hr (.inr (hr src hs.1))) c hc R hR)
  | .undef, _, _, hs, _, _, _, _, _ => by simp [Scoped] at hs
  | .copy .., _, _, hs, _, _, _, _, _ => by simp [Scoped] at hs
  | .lets .., _, _, hs, _, _, _, _, _ => by simp [Scoped] at hs
  | .loop .., _, _, hs, _, _, _, _, _ => by simp [Scoped] at hs
  | .makeBuffer .., _, _, hs, _, _, _, _, _ => by simp [Scoped] at hs
  | .constantBuffer .., _, _, hs, _, _, _, _, _ => by simp [Scoped] at hs
  | .sliceBuffer .., _, _, hs, _, _, _, _, _ => by simp [Scoped] at hs
  | .sliceDim .., _, _, hs, _, _, _, _, _ => by simp [Scoped] at hs
  | .transpose .., _, _, hs, _, _, _, _, _ => by simp [Scoped] at hs
  | .async .., _, _, hs, _, _, _, _, _ => by simp [Scoped] at hs
  | .check .., _, _, hs, _, _, _, _, _ => by simp [Scoped] at hs
/-- See `trace_roots`. -/
theorem traces_roots (num : Expr → Int) : ∀ (ss : Stmts) (G : List Nat) (rt : Nat → Nat), Scopeds num regs G ss → (∀ y ∈ G, rt y ∈ G) →
    ∀ c ∈ traces rt ss, ∀ R ∈ c.ins, R ∈ G ∨ R ∈ declss ss
  | .nil, _, _, _, _, c, hc, _, _ => by simp [traces] at hc
  | .cons s ss, G, rt, hs, hr, c, hc, R, hR => by
    rw [Scopeds] at hs
    rw [traces] at hc
    rw [declss, List.mem_append]
    rcases List.mem_append.mp hc with h | h
    · exact (trace_roots num s G rt hs.1 hr c h R hR).imp id .inl
    · exact (traces_roots num ss G rt hs.2 hr c h R hR).imp id .inr
end

/-- A crop, a clone. -/
theorem BufsOK.decl {G : List Nat} {rt : Nat → Nat} {bufs : Nat → Option Info} (hb : BufsOK K G rt bufs) {x src : Nat} (hs : src ∈ G) :
    BufsOK K (x :: G) (updN rt x (rt src)) (upd bufs x (bufs src)) where
  some_ := fun y hy hk => by
    by_cases hyx : y = x
    · subst hyx
      simpa [upd, updN] using hb.some_ src hs (by simpa [updN] using hk)
    · simpa [upd, updN, hyx] using hb.some_ y ((List.mem_cons.mp hy).resolve_left hyx) (by simpa [updN, hyx] using hk)
  none_ := fun y hy hk => by
    by_cases hyx : y = x
    · subst hyx
      simpa [upd, updN] using hb.none_ src hs (by simpa [updN] using hk)
    · simpa [upd, updN, hyx] using hb.none_ y ((List.mem_cons.mp hy).resolve_left hyx) (by simpa [updN, hyx] using hk)
  out := fun y hy => by
    have h := not_or.mp (fun e => hy (List.mem_cons.mpr e))
    simpa [upd, h.1] using hb.out y h.2
  closed := updN_closed hb.closed (.inr (hb.closed src hs))

/-- An allocation. -/
theorem BufsOK.alloc {G : List Nat} {rt : Nat → Nat} {bufs : Nat → Option Info} (hb : BufsOK K G rt bufs) {x : Nat} (hk : K x) (dims : List DimE) (l : Option Nat) :
    BufsOK K (x :: G) (updN rt x x) (upd bufs x (some { root := x, dims := dims, level := l })) where
  some_ := fun y hy hk => by
    by_cases hyx : y = x
    · subst hyx
      simp [upd, updN]
    · simpa [upd, updN, hyx] using hb.some_ y ((List.mem_cons.mp hy).resolve_left hyx) (by simpa [updN, hyx] using hk)
  none_ := fun y hy hk' => by
    by_cases hyx : y = x
    · subst hyx
      exact absurd hk (by simpa [updN] using hk')
    · simpa [upd, updN, hyx] using hb.none_ y ((List.mem_cons.mp hy).resolve_left hyx) (by simpa [updN, hyx] using hk')
  out := fun y hy => by
    have h := not_or.mp (fun e => hy (List.mem_cons.mpr e))
    simpa [upd, h.1] using hb.out y h.2
  closed := updN_closed hb.closed (.inl rfl)

theorem fits_some {prove : Expr → Bool} {bufs : Nat → Option Info} {dims : List DimE} {t : Option Nat} (h : fits prove bufs dims t = true) :
    ∃ y i, t = some y ∧ bufs y = some i := by
  cases t with
  | none => simp [fits] at h
  | some y =>
    cases hb : bufs y with
    | none => simp [fits, hb] at h
    | some i => exact ⟨y, i, rfl, hb⟩

theorem EdgeOK.upd_backward {st : St} (h : EdgeOK attrs K F T st) (x : Nat) : EdgeOK attrs K F T { st with backward := upd st.backward x none } :=
  ⟨fun B A hB => by
    simp only [upd] at hB
    split at hB
    · cases hB
    · exact h.1 B A hB, h.2⟩

theorem EdgeOK.upd_forward {st : St} (h : EdgeOK attrs K F T st) (x : Nat) : EdgeOK attrs K F T { st with forward := upd st.forward x none } :=
  ⟨h.1, fun A B hB => by
    simp only [upd] at hB
    split at hB
    · cases hB
    · exact h.2 A B hB⟩

/-- The positions of the calls of a statement, and the allocations of the statement are not used after it. -/
structure Pos (T tr : List Call) (as : List Nat) (k : Nat) : Prop where
  at_ : ∀ (j : Nat) (c : Call), tr[j]? = some c → T[k + j]? = some c
  after : ∀ (j : Nat) (c : Call), k + tr.length ≤ j → T[j]? = some c → ∀ R ∈ c.ins, R ∉ as

mutual
/-- The result of the pass: some allocations are replaced by crops of connected buffers. -/
theorem mutate_al (prove : Expr → Bool) (num : Expr → Int) (hT : Calls attrs K F In T) (hF : ∀ R, K R → (F R ↔ R ∈ outs)) :
    ∀ (s : Stmt) (G : List Nat) (rt : Nat → Nat) (bufs : Nat → Option Info) (st : St) (k : Nat), Scoped num regs G s →
      Names K In D G (decls s) (allocs s) → (∀ x ∈ allocs s, x ∉ outs) → Pos T (trace rt s) (allocs s) k → BufsOK K G rt bufs →
      UsesOK K T outs G (k + (trace rt s).length) st.uses → EdgeOK attrs K F T st →
      Al attrs K F T G s (mutate prove attrs bufs 0 s st).1 ∧ UsesOK K T outs G k (mutate prove attrs bufs 0 s st).2.uses ∧
        EdgeOK attrs K F T (mutate prove attrs bufs 0 s st).2
  | .call t ins os sc, G, rt, bufs, st, k, hs, _, _, hp, hb, hu, he => by
    rw [Scoped] at hs
    have hk : T[k]? = some ⟨t, ins.map rt, os.map rt⟩ := by simpa using hp.at_ 0 _ (by rw [trace]; rfl)
    rw [mutate]
    have hu' : UsesOK K T outs G k (addUses bufs ins st.uses) := by
      intro R hR hKR
      have := hu R hR hKR
      rw [addUses_get hb hKR ins st.uses hs.1, this, cntUses_step hk R]
      simp only [trace, List.length_singleton]
      omega
    have he' : EdgeOK attrs K F T { st with uses := addUses bufs ins st.uses } := he
    refine ⟨by rw [Al] <;> intros <;> simp_all, ?_⟩
    simp only [visitCall]
    split
    · exact ⟨hu', he'⟩
    · rename_i hm
      obtain ⟨a, b⟩ := outputs_ok (outs := outs) hb hF hk (by simpa using hm) hs.1 os 0 { st with uses := addUses bufs ins st.uses } hs.2
        (fun j y hy => by rw [Nat.zero_add]; exact hy) hu' he'
      exact ⟨by rw [a]; exact hu', b⟩
  | .block ss, G, rt, bufs, st, k, hs, hn, ho, hp, hb, hu, he => by
    rw [Scoped] at hs
    rw [decls, allocs] at hn
    rw [allocs] at ho
    rw [trace, allocs] at hp
    rw [trace] at hu
    obtain ⟨a, b, c⟩ := mutateRev_al prove num hT hF ss G rt bufs st k hs hn ho hp hb hu he
    rw [mutate]
    exact ⟨by rw [Al]; exact ⟨_, a, rfl⟩, b, c⟩
  | .allocate x sg e dims body, G, rt, bufs, st, k, hs, hn, ho, hp, hb, hu, he => by
    rw [Scoped] at hs
    rw [decls, allocs] at hn
    rw [allocs] at ho
    rw [trace, allocs] at hp
    rw [trace] at hu
    have hkx : K x := hn.known x List.mem_cons_self
    have hxG : x ∉ G := hn.fresh x List.mem_cons_self
    have hb1 := hb.alloc hkx dims (some 0)
    have hu1 : UsesOK K T outs (x :: G) (k + (trace (updN rt x x) body).length) (upd st.uses x (some 0)) := by
      intro R hR hKR
      by_cases hRx : R = x
      · subst hRx
        have h0 : cntUses T R (k + (trace (updN rt R R) body).length) = 0 :=
          cntUses_zero.mpr fun j c hj hc hm => hp.after j c hj hc R hm List.mem_cons_self
        simp [upd, h0, ho R List.mem_cons_self]
      · simpa [upd, hRx] using hu R ((List.mem_cons.mp hR).resolve_left hRx) hKR
    have he1 : EdgeOK attrs K F T ⟨upd st.backward x none, upd st.forward x none, upd st.uses x (some 0)⟩ :=
      (he.upd_backward x).upd_forward x
    obtain ⟨a, b, c⟩ := mutate_al prove num hT hF body (x :: G) (updN rt x x) _ _ k hs.2.2 hn.alloc (fun y hy => ho y (List.mem_cons_of_mem _ hy))
      ⟨hp.at_, fun j c hj hc R hR hm => hp.after j c hj hc R hR (List.mem_cons_of_mem _ hm)⟩ hb1 hu1 he1
    rw [mutate]
    generalize mutate prove attrs (upd bufs x (some { root := x, dims := dims, level := some 0 })) 0 body
      ⟨upd st.backward x none, upd st.forward x none, upd st.uses x (some 0)⟩ = r at a b c
    have hloop : ∀ y, (∃ i, upd bufs x (some { root := x, dims := dims, level := some 0 }) y = some i) → (Edge attrs K F T x y ∨ Edge attrs K F T y x) →
        y ∈ G := by
      rintro y ⟨i, hi⟩ hE
      have hy : y ∈ x :: G := by
        by_contra hn
        rw [hb1.out y hn] at hi
        cases hi
      refine (List.mem_cons.mp hy).resolve_left fun e => ?_
      subst e
      have hE : Edge attrs K F T y y := hE.elim id id
      obtain ⟨w, hw⟩ := hE.source_written hT
      exact absurd (hE.lt hT hw hw) (Nat.lt_irrefl w)
    have rest : ∀ st2 : St, st2.uses = r.2.uses → EdgeOK attrs K F T st2 →
        UsesOK K T outs G k (upd st2.uses x (st.uses x)) ∧
        EdgeOK attrs K F T ⟨upd st2.backward x (st.backward x), upd st2.forward x (st.forward x), upd st2.uses x (st.uses x)⟩ := by
      intro st2 h2 e2
      refine ⟨fun R hR hKR => ?_, fun B A hB => ?_, fun A B hB => ?_⟩
      · have hRx : R ≠ x := fun e => hxG (e ▸ hR)
        rw [h2]
        simpa [upd, hRx] using b R (List.mem_cons_of_mem _ hR) hKR
      · simp only [upd] at hB
        split at hB
        · rename_i hBx
          exact he.1 B A (hBx ▸ hB)
        · exact e2.1 B A hB
      · simp only [upd] at hB
        split at hB
        · rename_i hBx
          exact he.2 A B (hBx ▸ hB)
        · exact e2.2 A B hB
    simp only [rebuild]
    split
    · rename_i hc1
      obtain ⟨y, i, hy, hi⟩ := fits_some hc1.2
      have hE := c.1 x y hy
      simp only [hy, Option.getD_some]
      refine ⟨?_, rest { r.2 with forward := upd r.2.forward y none } rfl (c.upd_forward y)⟩
      rw [Al]
      exact ⟨r.1, a, .inr (.inl ⟨y, hloop y ⟨i, hi⟩ (.inr hE), hE, rfl⟩)⟩
    · split
      · rename_i hc1
        obtain ⟨y, i, hy, hi⟩ := fits_some hc1.2
        have hE := c.2 x y hy
        simp only [hy, Option.getD_some]
        refine ⟨?_, rest { r.2 with backward := upd r.2.backward y none } rfl (c.upd_backward y)⟩
        rw [Al]
        exact ⟨r.1, a, .inr (.inr ⟨y, hloop y ⟨i, hi⟩ (.inl hE), hE, rfl⟩)⟩
      · refine ⟨?_, rest _ rfl c⟩
        rw [Al]
        exact ⟨r.1, a, .inl rfl⟩
  | .cropBuffer x src bs body, G, rt, bufs, st, k, hs, hn, ho, hp, hb, hu, he => by
    rw [Scoped] at hs
    rw [decls, allocs] at hn
    rw [allocs] at ho
    rw [trace, allocs] at hp
    rw [trace] at hu
    obtain ⟨hn', hr⟩ := hn.decl (allocs_decls body)
    obtain ⟨a, b, c⟩ := mutate_al prove num hT hF body (x :: G) _ _ st k hs.2 hn' ho hp (hb.decl hs.1)
      (fun R hR hKR => hu R ((List.mem_cons.mp hR).resolve_left fun e => hr (.inl (e ▸ hKR))) hKR) he
    rw [mutate]
    exact ⟨by rw [Al]; exact ⟨_, a, rfl⟩, fun R hR => b R (List.mem_cons_of_mem _ hR), c⟩
  | .cropDim x src d bs body, G, rt, bufs, st, k, hs, hn, ho, hp, hb, hu, he => by
    rw [Scoped] at hs
    rw [decls, allocs] at hn
    rw [allocs] at ho
    rw [trace, allocs] at hp
    rw [trace] at hu
    obtain ⟨hn', hr⟩ := hn.decl (allocs_decls body)
    obtain ⟨a, b, c⟩ := mutate_al prove num hT hF body (x :: G) _ _ st k hs.2 hn' ho hp (hb.decl hs.1)
      (fun R hR hKR => hu R ((List.mem_cons.mp hR).resolve_left fun e => hr (.inl (e ▸ hKR))) hKR) he
    rw [mutate]
    exact ⟨by rw [Al]; exact ⟨_, a, rfl⟩, fun R hR => b R (List.mem_cons_of_mem _ hR), c⟩
  | .cloneBuffer x src body, G, rt, bufs, st, k, hs, hn, ho, hp, hb, hu, he => by
    rw [Scoped] at hs
    rw [decls, allocs] at hn
    rw [allocs] at ho
    rw [trace, allocs] at hp
    rw [trace] at hu
    obtain ⟨hn', hr⟩ := hn.decl (allocs_decls body)
    obtain ⟨a, b, c⟩ := mutate_al prove num hT hF body (x :: G) _ _ st k hs.2 hn' ho hp (hb.decl hs.1)
      (fun R hR hKR => hu R ((List.mem_cons.mp hR).resolve_left fun e => hr (.inl (e ▸ hKR))) hKR) he
    rw [mutate]
    exact ⟨by rw [Al]; exact ⟨_, a, rfl⟩, fun R hR => b R (List.mem_cons_of_mem _ hR), c⟩
  | .undef, _, _, _, _, _, hs, _, _, _, _, _, _ => by simp [Scoped] at hs
  | .copy .., _, _, _, _, _, hs, _, _, _, _, _, _ => by simp [Scoped] at hs
  | .lets .., _, _, _, _, _, hs, _, _, _, _, _, _ => by simp [Scoped] at hs
  | .loop .., _, _, _, _, _, hs, _, _, _, _, _, _ => by simp [Scoped] at hs
  | .makeBuffer .., _, _, _, _, _, hs, _, _, _, _, _, _ => by simp [Scoped] at hs
  | .constantBuffer .., _, _, _, _, _, hs, _, _, _, _, _, _ => by simp [Scoped] at hs
  | .sliceBuffer .., _, _, _, _, _, hs, _, _, _, _, _, _ => by simp [Scoped] at hs
  | .sliceDim .., _, _, _, _, _, hs, _, _, _, _, _, _ => by simp [Scoped] at hs
  | .transpose .., _, _, _, _, _, hs, _, _, _, _, _, _ => by simp [Scoped] at hs
  | .async .., _, _, _, _, _, hs, _, _, _, _, _, _ => by simp [Scoped] at hs
  | .check .., _, _, _, _, _, hs, _, _, _, _, _, _ => by simp [Scoped] at hs
/-- See `mutate_al`. -/
theorem mutateRev_al (prove : Expr → Bool) (num : Expr → Int) (hT : Calls attrs K F In T) (hF : ∀ R, K R → (F R ↔ R ∈ outs)) :
    ∀ (ss : Stmts) (G : List Nat) (rt : Nat → Nat) (bufs : Nat → Option Info) (st : St) (k : Nat), Scopeds num regs G ss →
      Names K In D G (declss ss) (allocss ss) → (∀ x ∈ allocss ss, x ∉ outs) → Pos T (traces rt ss) (allocss ss) k → BufsOK K G rt bufs →
      UsesOK K T outs G (k + (traces rt ss).length) st.uses → EdgeOK attrs K F T st →
      Als attrs K F T G ss (mutateRev prove attrs bufs 0 ss st).1 ∧ UsesOK K T outs G k (mutateRev prove attrs bufs 0 ss st).2.uses ∧
        EdgeOK attrs K F T (mutateRev prove attrs bufs 0 ss st).2
  | .nil, G, rt, bufs, st, k, _, _, _, _, _, hu, he => by
    rw [mutateRev]
    exact ⟨by rw [Als], by simpa [traces] using hu, he⟩
  | .cons s ss, G, rt, bufs, st, k, hs, hn, ho, hp, hb, hu, he => by
    rw [Scopeds] at hs
    rw [declss, allocss] at hn
    rw [allocss] at ho
    rw [traces, allocss] at hp
    rw [traces, List.length_append, ← Nat.add_assoc] at hu
    have hat := hp.at_
    obtain ⟨a, b, c⟩ := mutateRev_al prove num hT hF ss G rt bufs st (k + (trace rt s).length) hs.2 (hn.right (allocs_decls s))
      (fun x hx => ho x (List.mem_append_right _ hx))
      ⟨fun j c hj => by
        have := hat ((trace rt s).length + j) c (by rw [List.getElem?_append_right (by omega)]; simpa using hj)
        rwa [← Nat.add_assoc] at this,
       fun j c hj hc R hR hm => hp.after j c (by rw [List.length_append, ← Nat.add_assoc]; exact hj) hc R hR (List.mem_append_right _ hm)⟩ hb hu he
    obtain ⟨a', b', c'⟩ := mutate_al prove num hT hF s G rt bufs (mutateRev prove attrs bufs 0 ss st).2 k hs.1 (hn.left (allocss_declss ss))
      (fun x hx => ho x (List.mem_append_left _ hx))
      ⟨fun j c hj => hat j c (by rw [List.getElem?_append_left (List.getElem?_eq_some_iff.mp hj).1]; exact hj),
       fun j c hj hc R hR hm => by
        by_cases hlt : j < k + (trace rt s ++ traces rt ss).length
        · rw [List.length_append] at hlt
          have hi : (traces rt ss)[j - (k + (trace rt s).length)]? = some ((traces rt ss)[j - (k + (trace rt s).length)]'(by omega)) :=
            List.getElem?_eq_getElem (by omega)
          have := hat (j - k) _ (by rw [List.getElem?_append_right (by omega), show j - k - (trace rt s).length = j - (k + (trace rt s).length) by omega]; exact hi)
          rw [show k + (j - k) = j by omega, hc] at this
          have hceq := Option.some.inj this
          rcases traces_roots num ss G rt hs.2 hb.closed c (hceq ▸ List.getElem_mem _) R hR with h | h
          · exact hn.fresh R (List.mem_append_left _ (allocs_decls s R hm)) h
          · exact absurd rfl ((List.nodup_append.mp hn.nodup).2.2 R (allocs_decls s R hm) R h)
        · exact hp.after j c (by omega) hc R hR (List.mem_append_left _ hm)⟩ hb b c
    rw [mutateRev]
    exact ⟨by rw [Als]; exact ⟨_, _, a', a, rfl⟩, b', c'⟩
end

end

/-- **C56.** `alias_in_place` does not change what a pipeline computes: if the pipeline runs with memory `m` (only the inputs have values), the
pipeline with the buffers that are computed in place runs too (no call shares memory unless its attributes allow it), and the elements of the
outputs and of the inputs have the same values. `num` are the values of the expressions in the statement, and `prove` is any function that decides
if an expression is true.

What is missing: loops and the other kinds of statements (`Scoped`); calls that write a buffer together (`Program.once`), inputs that may be
used for two outputs (`Program.oneOut`), buffers of different bounds (`Program.size`), for which the pass is wrong (`AliasInPlaceEx.lean`); strides,
fold factors and element sizes. -/
theorem aliasInPlace_partial {V : Type} (h : Host V) (attrs : Nat → Attrs) (prove : Expr → Bool) {regs : Nat → Region} {ins outs : List Nat} {s : Stmt}
    (hp : Program h.num attrs regs ins outs s) {v : Nat → Option View} (hvi : ∀ y ∈ ins, ∃ reg, v y = some ⟨y, reg⟩)
    (hvo : ∀ y ∈ outs, v y = some ⟨y, regs y⟩) {m m1 : MemV V} (hm : ∀ R idx val, m R idx = some val → R ∈ ins) (hr : Run h attrs s v m m1) :
    ∃ m1', Run h attrs (aliasInPlace prove attrs outs s) v m m1' ∧ ∀ y ∈ ins ++ outs, ∀ idx val, m1 y idx = some val → m1' y idx = some val := by
  have hnd := hp.names
  have hdisj : ∀ x ∈ decls s, x ∉ ins ++ outs := fun x hx hm => (List.nodup_append.mp hnd).2.2 x hm x hx rfl
  have hio : ∀ x ∈ ins, x ∉ outs := fun x hx hm => (List.nodup_append.mp (List.nodup_append.mp hnd).1).2.2 x hx x hm rfl
  have had := allocs_decls s
  let K : Nat → Prop := fun R => R ∈ outs ∨ R ∈ allocs s
  let In : Nat → Prop := fun R => R ∈ ins
  let F : Nat → Prop := fun R => R ∈ outs ∨ R ∈ ins
  let T := trace id s
  have hnotIn : ∀ R, K R → ¬ In R := fun R hk hi => by
    rcases hk with hk | hk
    · exact hio R hi hk
    · exact hdisj R (had R hk) (List.mem_append_left _ hi)
  have hT : Calls attrs K F In T := ⟨hp.once, hp.readOnly, hp.written, hp.oneOut, hnotIn⟩
  have hF : ∀ R, K R → (F R ↔ R ∈ outs) := fun R hk => ⟨fun hf => hf.resolve_right (hnotIn R hk), .inl⟩
  have hN : Names K In (outs ++ allocs s) (ins ++ outs) (decls s) (allocs s) := by
    refine ⟨(List.nodup_append.mp hnd).2.1, hdisj, fun x hx hk => ?_, fun x hx => .inr hx, List.sublist_append_right _ _, fun y hy hk x hx => ?_⟩
    · rcases hk with (hk | hk) | hk
      · exact absurd (List.mem_append_right _ hk) (hdisj x hx)
      · exact hk
      · exact absurd (List.mem_append_left _ hk) (hdisj x hx)
    · have hyo : y ∈ outs := by
        rcases hk with hk | hk
        · exact hk
        · exact absurd hy (hdisj y (had y hk))
      exact List.Sublist.append (List.singleton_sublist.mpr hyo) (List.singleton_sublist.mpr hx)
  have hS : SizeOK attrs K F T regs (outs ++ allocs s) := by
    intro x y hE hsub
    rcases hE with ⟨k, c, o, i, t, g, a, -, ⟨hal, -⟩, -⟩ | ⟨k, c, o, i, t, g, a, -, ⟨hal, -⟩, -⟩
    · exact (hp.size c (List.mem_of_getElem? t) o i x y g a hal).2 hsub
    · exact (hp.size c (List.mem_of_getElem? t) o i y x g a hal).1 hsub
  have hG : ∀ R ∈ ins ++ outs, K R → R ∈ outs := fun R hR hk => by
    rcases hk with hk | hk
    · exact hk
    · exact absurd hR (hdisj R (had R hk))
  have hE0 : EnvOK attrs K F In T regs (ins ++ outs) id id v v := by
    refine ⟨fun y hy => ?_, fun R hR _ => ⟨rfl, fun hk => hvo R (hG R hR hk)⟩, fun R hR hk => ⟨.refl R, hR, hk⟩⟩
    rcases List.mem_append.mp hy with h | h
    · obtain ⟨reg, hreg⟩ := hvi y h
      exact ⟨reg, hreg, hreg, hy, .inr h⟩
    · exact ⟨regs y, hvo y h, hvo y h, hy, .inl (.inl h)⟩
  have hlast : ∀ (j : Nat) (c : Call), 0 + (trace id s).length ≤ j → T[j]? = some c → False := fun j c hj hc => by
    have := (List.getElem?_eq_some_iff.mp hc).1
    simp only [T] at this
    omega
  obtain ⟨hAl, -, -⟩ := mutate_al (D := outs ++ allocs s) (outs := outs) (regs := regs) prove h.num hT hF s (ins ++ outs) id (initBufs outs) (initSt outs) 0
    hp.scope hN (fun x hx ho => hdisj x (had x hx) (List.mem_append_right _ ho))
    ⟨fun j c hj => by rw [Nat.zero_add]; exact hj, fun j c hj hc => (hlast j c hj hc).elim⟩
    ⟨fun y hy hk => ⟨{ root := y }, by simp [initBufs, hG y hy hk], rfl, rfl⟩,
     fun y hy hk => by
      have : y ∉ outs := fun h => hk (.inl h)
      simp [initBufs, this],
     fun y hy => by
      have : y ∉ outs := fun h => hy (List.mem_append_right _ h)
      simp [initBufs, this],
     fun y hy => hy⟩
    (fun R hR hk => by
      have h0 : cntUses T R (0 + (trace id s).length) = 0 := cntUses_zero.mpr fun j c hj hc => (hlast j c hj hc).elim
      rw [h0]
      simp [initSt, hG R hR hk])
    ⟨fun B A h => by simp [initSt] at h, fun A B h => by simp [initSt] at h⟩
  obtain ⟨m1', r1, r2, -⟩ := sim (h := h) hT hS s _ (ins ++ outs) id id v v m m m1 0 hAl hp.scope hN
    (fun j c hj => by rw [Nat.zero_add]; exact hj) hE0 (fun R idx val hv => .inl (hm R idx val hv)) (fun R _ _ _ idx val hv => hv) hr
  refine ⟨m1', r1, fun y hy idx val hv => ?_⟩
  rcases List.mem_append.mp hy with hi | ho
  · exact r2 y hy (.inr hi) (.inl (.inr hi)) idx val hv
  · exact r2 y hy (.inl (.inl ho)) (.inl (.inl ho)) idx val hv

end Slinky.AIP
