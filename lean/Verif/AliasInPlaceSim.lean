import Verif.AliasInPlaceThm

/-!
# C56: the statement with shared memory computes the same values

`Al` relates a statement to a statement in which some allocations are replaced by crops of buffers they are connected to by an edge.
-/

namespace Slinky.AIP

mutual
/-- Some allocations are replaced by crops of a buffer in scope, or by crops of clones of it, that is connected by an edge. -/
def Al (attrs : Nat → Attrs) (K F : Nat → Prop) (T : List Call) : List Nat → Stmt → Stmt → Prop
  | G, .allocate x st e dims body, s' => ∃ body', Al attrs K F T (x :: G) body body' ∧
    (s' = .allocate x st e dims body' ∨
      (∃ y ∈ G, Edge attrs K F T y x ∧ s' = .cropBuffer x y (dimsBounds dims) body') ∨
      ∃ y ∈ G, Edge attrs K F T x y ∧ s' = .cloneBuffer x y (.cropBuffer x x (dimsBounds dims) body'))
  | G, .block ss, s' => ∃ ss', Als attrs K F T G ss ss' ∧ s' = .block ss'
  | G, .cropBuffer x src bs body, s' => ∃ body', Al attrs K F T (x :: G) body body' ∧ s' = .cropBuffer x src bs body'
  | G, .cropDim x src d b body, s' => ∃ body', Al attrs K F T (x :: G) body body' ∧ s' = .cropDim x src d b body'
  | G, .cloneBuffer x src body, s' => ∃ body', Al attrs K F T (x :: G) body body' ∧ s' = .cloneBuffer x src body'
  | _, s, s' => s' = s
/-- See `Al`. -/
def Als (attrs : Nat → Attrs) (K F : Nat → Prop) (T : List Call) : List Nat → Stmts → Stmts → Prop
  | _, .nil, ss' => ss' = .nil
  | G, .cons s ss, ss' => ∃ s1 ss1, Al attrs K F T G s s1 ∧ Als attrs K F T G ss ss1 ∧ ss' = .cons s1 ss1
end

section
variable {V : Type} {h : Host V} {attrs : Nat → Attrs} {K F In : Nat → Prop} {T : List Call} {regs : Nat → Region} {D : List Nat}

/-- The buffers of the two statements: `σ` is the allocation that has the memory of another one. -/
structure EnvOK (attrs : Nat → Attrs) (K F In : Nat → Prop) (T : List Call) (regs : Nat → Region) (G : List Nat) (rt σ : Nat → Nat)
    (v v' : Nat → Option View) : Prop where
  view : ∀ y ∈ G, ∃ reg, v y = some ⟨rt y, reg⟩ ∧ v' y = some ⟨σ (rt y), reg⟩ ∧ rt y ∈ G ∧ (K (rt y) ∨ In (rt y))
  root : ∀ R ∈ G, (K R ∨ In R) → rt R = R ∧ (K R → v R = some ⟨R, regs R⟩)
  cmp : ∀ R ∈ G, (K R ∨ In R) → Cmp attrs K F T R (σ R) ∧ σ R ∈ G ∧ (K (σ R) ∨ In (σ R))

/-- The buffer is an output, or a later call uses it. -/
def Live (F : Nat → Prop) (T : List Call) (k R : Nat) : Prop := F R ∨ ∃ k', k ≤ k' ∧ UsesAt T R k'

/-- The values that are still used are the same. -/
def MR (K F In : Nat → Prop) (T : List Call) (k : Nat) (G : List Nat) (σ : Nat → Nat) (m m' : MemV V) : Prop :=
  ∀ R ∈ G, (K R ∨ In R) → Live F T k R → ∀ idx val, m R idx = some val → m' (σ R) idx = some val

/-- What has a value is an input, or was written. -/
def Wr (In : Nat → Prop) (T : List Call) (k : Nat) (m : MemV V) : Prop :=
  ∀ R idx val, m R idx = some val → In R ∨ ∃ k', k' < k ∧ WritesAt T R k'

/-- The view in the other statement. -/
def tau (σ : Nat → Nat) (u : View) : View := ⟨σ u.root, u.region⟩

theorem write_miss (f : Nat → List Int → V) {r : Nat} {idx : List Int} : ∀ (us : List View) (o : Nat) (m : MemV V),
    (∀ u ∈ us, u.root = r → has u.region idx = false) → write f o us m r idx = m r idx
  | [], _, _, _ => rfl
  | u :: us, o, m, hm => by
    rw [write, write_miss f us (o + 1) _ fun u hu => hm u (List.mem_cons_of_mem _ hu)]
    by_cases hr : r = u.root
    · have := hm u List.mem_cons_self hr.symm
      simp [this]
    · simp [hr]

theorem write_hit (f : Nat → List Int → V) {idx : List Int} : ∀ (us : List View) (o : Nat) (m : MemV V) (j : Nat) (u : View),
    (us.map View.root).Nodup → us[j]? = some u → has u.region idx = true → write f o us m u.root idx = some (f (o + j) idx)
  | [], _, _, _, _, _, hj, _ => by simp at hj
  | w :: us, o, m, 0, u, hn, hj, hh => by
    simp only [List.getElem?_cons_zero, Option.some.injEq] at hj
    subst hj
    simp only [List.map_cons, List.nodup_cons] at hn
    rw [write, write_miss f us (o + 1) _ fun u hu hr => absurd (List.mem_map.mpr ⟨u, hu, hr⟩) hn.1]
    simp [hh]
  | w :: us, o, m, j + 1, u, hn, hj, hh => by
    simp only [List.map_cons, List.nodup_cons] at hn
    rw [write, write_hit f us (o + 1) _ j u hn.2 (by simpa using hj) hh]
    congr 2
    omega

theorem mapM_views {G : List Nat} {rt σ : Nat → Nat} {v v' : Nat → Option View} (he : EnvOK attrs K F In T regs G rt σ v v') :
    ∀ (l : List Nat) (us : List View), (∀ x ∈ l, x ∈ G) → l.mapM v = some us →
      l.mapM v' = some (us.map (tau σ)) ∧ us.map View.root = l.map rt ∧ ∀ u ∈ us, u.root ∈ G ∧ (K u.root ∨ In u.root)
  | [], us, _, hm => by
    simp only [List.mapM_nil, Option.pure_def, Option.some.injEq] at hm
    subst hm
    simp
  | x :: l, us, hl, hm => by
    obtain ⟨reg, h1, h2, h3, h4⟩ := he.view x (hl x List.mem_cons_self)
    rw [List.mapM_cons, h1] at hm
    cases hr : l.mapM v with
    | none => simp [hr] at hm
    | some ws =>
      simp only [hr, Option.pure_def, Option.bind_eq_bind, Option.bind_some, Option.some.injEq] at hm
      subst hm
      obtain ⟨i1, i2, i3⟩ := mapM_views he l ws (fun y hy => hl y (List.mem_cons_of_mem _ hy)) hr
      refine ⟨?_, by simp [i2], ?_⟩
      · rw [List.mapM_cons, h2, i1]
        rfl
      · intro u hu
        rcases List.mem_cons.mp hu with hu | hu
        · subst hu; exact ⟨h3, h4⟩
        · exact i3 u hu

/-- A call. -/
theorem sim_call (hT : Calls attrs K F In T) {G : List Nat} {rt σ : Nat → Nat} {v v' : Nat → Option View} {m m' m1 : MemV V} {k : Nat}
    {t : Nat} {ins outs : List Nat} {sc : List Expr} (hi : ∀ x ∈ ins, x ∈ G) (ho : ∀ x ∈ outs, x ∈ G)
    (hk : T[k]? = some ⟨t, ins.map rt, outs.map rt⟩) (he : EnvOK attrs K F In T regs G rt σ v v')
    (hw : Wr In T k m) (hm : MR K F In T k G σ m m') (hr : Run h attrs (.call t ins outs sc) v m m1) :
    ∃ m1', Run h attrs (.call t ins outs sc) v' m' m1' ∧ MR K F In T (k + 1) G σ m1 m1' ∧ Wr In T (k + 1) m1 := by
  obtain ⟨iv, ov, hiv, hov, ⟨hinit, hnd, hal⟩, rfl⟩ := hr
  obtain ⟨i1, i2, i3⟩ := mapM_views he ins iv hi hiv
  obtain ⟨o1, o2, o3⟩ := mapM_views he outs ov ho hov
  have hcmp : ∀ {R1 R2 : Nat}, R1 ∈ G → (K R1 ∨ In R1) → R2 ∈ G → (K R2 ∨ In R2) → σ R1 = σ R2 → Cmp attrs K F T R1 R2 := by
    intro R1 R2 g1 k1 g2 k2 hs
    have a := (he.cmp R1 g1 k1).1
    have b := (he.cmp R2 g2 k2).1
    rw [← hs] at b
    exact a.trans hT b.symm
  have huse : ∀ u ∈ iv, UsesAt T u.root k := fun u hu => ⟨_, hk, by
    show u.root ∈ ins.map rt
    rw [← i2]; exact List.mem_map.mpr ⟨u, hu, rfl⟩⟩
  have hwr : ∀ u ∈ ov, WritesAt T u.root k := fun u hu => ⟨_, hk, by
    show u.root ∈ outs.map rt
    rw [← o2]; exact List.mem_map.mpr ⟨u, hu, rfl⟩⟩
  have hnin : ∀ u ∈ ov, ¬ In u.root := fun u hu => hT.readOnly _ (List.mem_of_getElem? hk) _ (by
    show u.root ∈ outs.map rt
    rw [← o2]; exact List.mem_map.mpr ⟨u, hu, rfl⟩)
  have hval : ∀ u ∈ iv, ∀ idx, has u.region idx = true → m' (σ u.root) idx = m u.root idx := by
    intro u hu idx hh
    obtain ⟨val, hv⟩ := hinit u hu idx hh
    rw [hv]
    exact hm u.root (i3 u hu).1 (i3 u hu).2 (.inr ⟨k, le_refl k, huse u hu⟩) idx val hv
  have hseen : (iv.map (tau σ)).map (seen m') = iv.map (seen m) := by
    rw [List.map_map]
    apply List.map_congr_left
    intro u hu
    simp only [Function.comp, seen, tau, Prod.mk.injEq, true_and]
    funext idx
    by_cases hh : has u.region idx = true
    · simp [hh, hval u hu idx hh]
    · simp [hh]
  have hreg : (ov.map (tau σ)).map View.region = ov.map View.region := by
    rw [List.map_map]
    rfl
  have hnd' : ((ov.map (tau σ)).map View.root).Nodup := by
    have : (ov.map (tau σ)).map View.root = (ov.map View.root).map σ := by
      rw [List.map_map, List.map_map]; rfl
    rw [this]
    refine List.Nodup.map_on (fun a ha b hb hab => ?_) hnd
    obtain ⟨ua, hua, rfl⟩ := List.mem_map.mp ha
    obtain ⟨ub, hub, rfl⟩ := List.mem_map.mp hb
    rcases hcmp (o3 ua hua).1 (o3 ua hua).2 (o3 ub hub).1 (o3 ub hub).2 hab with hc | hc
    · exact (chain_le hT hc (hwr ua hua) (hwr ub hub)).2 rfl
    · exact ((chain_le hT hc (hwr ub hub) (hwr ua hua)).2 rfl).symm
  refine ⟨_, ⟨iv.map (tau σ), ov.map (tau σ), i1, o1, ⟨?_, hnd', ?_⟩, rfl⟩, ?_, ?_⟩
  · intro u hu idx hh
    obtain ⟨u0, hu0, rfl⟩ := List.mem_map.mp hu
    obtain ⟨val, hv⟩ := hinit u0 hu0 idx hh
    exact ⟨val, by show m' (σ u0.root) idx = _; rw [hval u0 hu0 idx hh, hv]⟩
  · intro o i uo ui hgo hgi hsr
    rw [List.getElem?_map, Option.map_eq_some_iff] at hgo hgi
    obtain ⟨wo, hwo, rfl⟩ := hgo
    obtain ⟨wi, hwi, rfl⟩ := hgi
    have mo := List.mem_of_getElem? hwo
    have mi := List.mem_of_getElem? hwi
    have hc := hcmp (i3 wi mi).1 (i3 wi mi).2 (o3 wo mo).1 (o3 wo mo).2 hsr.symm
    have hlen : iv.length = ins.length := by
      have := congrArg List.length i2
      simpa using this
    rw [List.length_map]
    have hwritten := hT.written k _ wi.root hk (by
      show wi.root ∈ ins.map rt
      rw [← i2]; exact List.mem_map.mpr ⟨wi, mi, rfl⟩)
    rcases hwritten with hin | ⟨k', c', hlt, t', m'⟩
    · have := hc.input hT hin
      exact absurd (this ▸ hin) (hnin wo mo)
    · obtain ⟨-, -, hE⟩ := hc.dead hT ⟨c', t', m'⟩ (hwr wo mo) hlt
      obtain ⟨k2, c2, oo, ii, t2, g2, a2, -, ⟨hall, A, x2, -, -, n2, -⟩, -⟩ := hE (huse wi mi)
      have hroot : (outs.map rt)[o]? = some wo.root := by rw [← o2, List.getElem?_map, hwo]; rfl
      have hrooti : (ins.map rt)[i]? = some wi.root := by rw [← i2, List.getElem?_map, hwi]; rfl
      obtain ⟨e1, e2⟩ := hT.once k2 k c2 _ oo o wo.root t2 hk g2 hroot
      subst e1; subst e2
      rw [hk] at t2
      cases t2
      have hA : A = wi.root := by rw [a2] at x2; exact (Option.some.inj x2).symm
      subst hA
      have := count_one_idx n2 a2 hrooti
      subst this
      have hl2 : (ins.map rt).length = iv.length := by simp [hlen]
      rw [← hl2]
      exact hall
  · intro R hR hkR hlive idx val hv
    rw [hseen, hreg]
    by_cases hhit : ∃ u ∈ ov, u.root = R ∧ has u.region idx = true
    · obtain ⟨u, hu, rfl, hh⟩ := hhit
      obtain ⟨j, hj⟩ := List.mem_iff_getElem?.mp hu
      rw [write_hit _ ov 0 m j u hnd hj hh] at hv
      have := write_hit (h.val t (iv.map (seen m)) (ov.map View.region) (sc.map h.num)) (ov.map (tau σ)) 0 m' j (tau σ u) hnd' (by rw [List.getElem?_map, hj]; rfl)
        (idx := idx) hh
      rw [← hv]
      exact this
    · rw [write_miss _ ov 0 m fun u hu hr => by
        by_contra hne
        exact hhit ⟨u, hu, hr, by simpa using hne⟩] at hv
      have hlive' : Live F T k R := by
        rcases hlive with hf | ⟨k', hk', hu⟩
        · exact .inl hf
        · exact .inr ⟨k', by omega, hu⟩
      rw [write_miss _ (ov.map (tau σ)) 0 m' ?_]
      · exact hm R hR hkR hlive' idx val hv
      · intro u hu hr
        obtain ⟨w, hwm, rfl⟩ := List.mem_map.mp hu
        by_contra hne
        have hh : has w.region idx = true := by simpa [tau] using hne
        have hwR : w.root ≠ R := fun e => hhit ⟨w, hwm, e, hh⟩
        have hc := hcmp hR hkR (o3 w hwm).1 (o3 w hwm).2 hr.symm
        rcases hw R idx val hv with hin | ⟨r, hrk, hwrR⟩
        · exact hwR (hc.input hT hin).symm
        · obtain ⟨d1, d2, -⟩ := hc.dead hT hwrR (hwr w hwm) hrk
          rcases hlive with hf | ⟨k', hk', hu'⟩
          · exact d1 hf
          · exact d2 k' (by omega) hu'
  · intro R idx val hv
    by_cases hhit : ∃ u ∈ ov, u.root = R ∧ has u.region idx = true
    · obtain ⟨u, hu, rfl, -⟩ := hhit
      exact .inr ⟨k, by omega, hwr u hu⟩
    · rw [write_miss _ ov 0 m fun u hu hr => by
        by_contra hne
        exact hhit ⟨u, hu, hr, by simpa using hne⟩] at hv
      rcases hw R idx val hv with hin | ⟨r, hrk, hwrR⟩
      · exact .inl hin
      · exact .inr ⟨r, by omega, hwrR⟩

mutual
theorem allocs_decls : ∀ (s : Stmt), ∀ x ∈ allocs s, x ∈ decls s
  | .undef, x, hx => by simp [allocs] at hx
  | .call .., x, hx => by simp [allocs] at hx
  | .copy .., x, hx => by simp [allocs] at hx
  | .lets .., x, hx => by simp [allocs] at hx
  | .loop .., x, hx => by simp [allocs] at hx
  | .makeBuffer .., x, hx => by simp [allocs] at hx
  | .constantBuffer .., x, hx => by simp [allocs] at hx
  | .sliceBuffer .., x, hx => by simp [allocs] at hx
  | .sliceDim .., x, hx => by simp [allocs] at hx
  | .transpose .., x, hx => by simp [allocs] at hx
  | .async .., x, hx => by simp [allocs] at hx
  | .check .., x, hx => by simp [allocs] at hx
  | .block ss, x, hx => by rw [decls]; rw [allocs] at hx; exact allocss_declss ss x hx
  | .allocate y _ _ _ body, x, hx => by
    rw [allocs] at hx; rw [decls]
    rcases List.mem_cons.mp hx with h | h
    · exact h ▸ List.mem_cons_self
    · exact List.mem_cons_of_mem _ (allocs_decls body x h)
  | .cropBuffer y _ _ body, x, hx => by rw [decls]; rw [allocs] at hx; exact List.mem_cons_of_mem _ (allocs_decls body x hx)
  | .cropDim y _ _ _ body, x, hx => by rw [decls]; rw [allocs] at hx; exact List.mem_cons_of_mem _ (allocs_decls body x hx)
  | .cloneBuffer y _ body, x, hx => by rw [decls]; rw [allocs] at hx; exact List.mem_cons_of_mem _ (allocs_decls body x hx)
theorem allocss_declss : ∀ (ss : Stmts), ∀ x ∈ allocss ss, x ∈ declss ss
  | .nil, x, hx => by simp [allocss] at hx
  | .cons s ss, x, hx => by
    rw [allocss] at hx; rw [declss]
    rcases List.mem_append.mp hx with h | h
    · exact List.mem_append_left _ (allocs_decls s x h)
    · exact List.mem_append_right _ (allocss_declss ss x h)
end

/-- The names of a statement in the scope `G`. -/
structure Names (K In : Nat → Prop) (D G ds as : List Nat) : Prop where
  nodup : ds.Nodup
  fresh : ∀ x ∈ ds, x ∉ G
  roots : ∀ x ∈ ds, (K x ∨ In x) → x ∈ as
  known : ∀ x ∈ as, K x
  sub : as.Sublist D
  before : ∀ y ∈ G, K y → ∀ x ∈ as, [y, x].Sublist D

theorem Names.alloc {G ds as : List Nat} {x : Nat} (hn : Names K In D G (x :: ds) (x :: as)) : Names K In D (x :: G) ds as where
  nodup := (List.nodup_cons.mp hn.nodup).2
  fresh := fun y hy hm => by
    rcases List.mem_cons.mp hm with h | h
    · exact (List.nodup_cons.mp hn.nodup).1 (h ▸ hy)
    · exact hn.fresh y (List.mem_cons_of_mem _ hy) h
  roots := fun y hy hk => by
    rcases List.mem_cons.mp (hn.roots y (List.mem_cons_of_mem _ hy) hk) with h | h
    · exact absurd (h ▸ hy) (List.nodup_cons.mp hn.nodup).1
    · exact h
  known := fun y hy => hn.known y (List.mem_cons_of_mem _ hy)
  sub := (List.sublist_cons_self x as).trans hn.sub
  before := fun y hy hk z hz => by
    rcases List.mem_cons.mp hy with h | h
    · subst h
      exact (List.Sublist.cons₂ y (List.singleton_sublist.mpr hz)).trans hn.sub
    · exact hn.before y h hk z (List.mem_cons_of_mem _ hz)

theorem Names.decl {G ds as : List Nat} {x : Nat} (hn : Names K In D G (x :: ds) as) (ha : ∀ y ∈ as, y ∈ ds) :
    Names K In D (x :: G) ds as ∧ ¬ (K x ∨ In x) := by
  have hx : ¬ (K x ∨ In x) := fun hk => (List.nodup_cons.mp hn.nodup).1 (ha x (hn.roots x List.mem_cons_self hk))
  refine ⟨⟨(List.nodup_cons.mp hn.nodup).2, ?_, fun y hy hk => hn.roots y (List.mem_cons_of_mem _ hy) hk, hn.known, hn.sub, ?_⟩, hx⟩
  · intro y hy hm
    rcases List.mem_cons.mp hm with h | h
    · exact (List.nodup_cons.mp hn.nodup).1 (h ▸ hy)
    · exact hn.fresh y (List.mem_cons_of_mem _ hy) h
  · intro y hy hk z hz
    rcases List.mem_cons.mp hy with h | h
    · exact absurd (.inl (h ▸ hk)) hx
    · exact hn.before y h hk z hz

theorem Names.left {G d1 d2 a1 a2 : List Nat} (hn : Names K In D G (d1 ++ d2) (a1 ++ a2)) (h2 : ∀ y ∈ a2, y ∈ d2) : Names K In D G d1 a1 where
  nodup := (List.nodup_append.mp hn.nodup).1
  fresh := fun y hy => hn.fresh y (List.mem_append_left _ hy)
  roots := fun y hy hk => by
    rcases List.mem_append.mp (hn.roots y (List.mem_append_left _ hy) hk) with h | h
    · exact h
    · exact absurd rfl ((List.nodup_append.mp hn.nodup).2.2 y hy y (h2 y h))
  known := fun y hy => hn.known y (List.mem_append_left _ hy)
  sub := (List.sublist_append_left a1 a2).trans hn.sub
  before := fun y hy hk z hz => hn.before y hy hk z (List.mem_append_left _ hz)

theorem Names.right {G d1 d2 a1 a2 : List Nat} (hn : Names K In D G (d1 ++ d2) (a1 ++ a2)) (h1 : ∀ y ∈ a1, y ∈ d1) : Names K In D G d2 a2 where
  nodup := (List.nodup_append.mp hn.nodup).2.1
  fresh := fun y hy => hn.fresh y (List.mem_append_right _ hy)
  roots := fun y hy hk => by
    rcases List.mem_append.mp (hn.roots y (List.mem_append_right _ hy) hk) with h | h
    · exact absurd rfl ((List.nodup_append.mp hn.nodup).2.2 y (h1 y h) y hy)
    · exact h
  known := fun y hy => hn.known y (List.mem_append_right _ hy)
  sub := (List.sublist_append_right a1 a2).trans hn.sub
  before := fun y hy hk z hz => hn.before y hy hk z (List.mem_append_right _ hz)

/-- A crop, a clone. -/
theorem EnvOK.decl {G : List Nat} {rt σ : Nat → Nat} {v v' : Nat → Option View} (he : EnvOK attrs K F In T regs G rt σ v v') {x src : Nat}
    (hs : src ∈ G) (hx : x ∉ G) (hr : ¬ (K x ∨ In x)) (reg : Region) :
    EnvOK attrs K F In T regs (x :: G) (updN rt x (rt src)) σ (upd v x (some ⟨rt src, reg⟩)) (upd v' x (some ⟨σ (rt src), reg⟩)) where
  view := fun y hy => by
    obtain ⟨_, -, -, g, k⟩ := he.view src hs
    by_cases hyx : y = x
    · subst hyx
      exact ⟨reg, by simp [upd, updN], by simp [upd, updN], by simp [updN, g], by simpa [updN] using k⟩
    · have hyG := (List.mem_cons.mp hy).resolve_left hyx
      obtain ⟨r, a, b, c, d⟩ := he.view y hyG
      exact ⟨r, by simp [upd, updN, hyx, a], by simp [upd, updN, hyx, b], by simp [updN, hyx, c], by simpa [updN, hyx] using d⟩
  root := fun R hR hk => by
    have hRx : R ≠ x := fun e => hr (e ▸ hk)
    have hRG := (List.mem_cons.mp hR).resolve_left hRx
    obtain ⟨a, b⟩ := he.root R hRG hk
    exact ⟨by simp [updN, hRx, a], fun kk => by simp [upd, hRx, b kk]⟩
  cmp := fun R hR hk => by
    have hRx : R ≠ x := fun e => hr (e ▸ hk)
    have hRG := (List.mem_cons.mp hR).resolve_left hRx
    obtain ⟨a, b, c⟩ := he.cmp R hRG hk
    exact ⟨a, List.mem_cons_of_mem _ b, c⟩

/-- An allocation: its memory is its own, or the memory of a buffer in its chain. -/
theorem EnvOK.alloc {G : List Nat} {rt σ : Nat → Nat} {v v' : Nat → Option View} (he : EnvOK attrs K F In T regs G rt σ v v') {x z : Nat}
    (hx : x ∉ G) (hk : K x) (hz : z = x ∨ z ∈ G ∧ (K z ∨ In z)) (hc : Cmp attrs K F T x z) :
    EnvOK attrs K F In T regs (x :: G) (updN rt x x) (updN σ x z) (upd v x (some ⟨x, regs x⟩)) (upd v' x (some ⟨z, regs x⟩)) where
  view := fun y hy => by
    by_cases hyx : y = x
    · subst hyx
      exact ⟨regs y, by simp [upd, updN], by simp [upd, updN], by simp [updN], by simp [updN, hk]⟩
    · have hyG := (List.mem_cons.mp hy).resolve_left hyx
      obtain ⟨r, a, b, c, d⟩ := he.view y hyG
      have hrx : rt y ≠ x := fun e => hx (e ▸ c)
      exact ⟨r, by simp [upd, updN, hyx, a], by simp [upd, updN, hyx, hrx, b], by simp [updN, hyx, c], by simpa [updN, hyx] using d⟩
  root := fun R hR hkR => by
    by_cases hRx : R = x
    · subst hRx
      exact ⟨by simp [updN], fun _ => by simp [upd]⟩
    · have hRG := (List.mem_cons.mp hR).resolve_left hRx
      obtain ⟨a, b⟩ := he.root R hRG hkR
      exact ⟨by simp [updN, hRx, a], fun kk => by simp [upd, hRx, b kk]⟩
  cmp := fun R hR hkR => by
    by_cases hRx : R = x
    · subst hRx
      refine ⟨by simpa [updN] using hc, ?_, ?_⟩
      · rcases hz with e | ⟨g, -⟩
        · simp [updN, e]
        · simp [updN, g]
      · rcases hz with e | ⟨-, k⟩
        · simp [updN, e, hk]
        · simpa [updN] using k
    · have hRG := (List.mem_cons.mp hR).resolve_left hRx
      obtain ⟨a, b, c⟩ := he.cmp R hRG hkR
      exact ⟨by simpa [updN, hRx] using a, by simp [updN, hRx, b], by simpa [updN, hRx] using c⟩

theorem cropR_sub (num : Expr → Int) : ∀ (ds : List DimE) (r : Region), Region.Sub (regionOf num ds) r →
    (∀ d ∈ ds, d.bounds.min.defined = true ∧ d.bounds.max.defined = true) → cropR num r (dimsBounds ds) = regionOf num ds
  | [], r, hs, _ => by
    cases hs
    rfl
  | d :: ds, r, hs, hd => by
    cases hs with
    | cons hp hrest =>
      rename_i q r
      have h1 := (hd d List.mem_cons_self)
      simp only [dimsBounds, List.map_cons, cropR, h1.1, h1.2, if_true, regionOf, List.cons.injEq, Prod.mk.injEq] at hp ⊢
      refine ⟨⟨by omega, by omega⟩, ?_⟩
      exact cropR_sub num ds r hrest fun d' hd' => hd d' (List.mem_cons_of_mem _ hd')

/-- The size of buffers that are connected. -/
def SizeOK (attrs : Nat → Attrs) (K F : Nat → Prop) (T : List Call) (regs : Nat → Region) (D : List Nat) : Prop :=
  ∀ x y, (Edge attrs K F T x y ∨ Edge attrs K F T y x) → [y, x].Sublist D → Region.Sub (regs x) (regs y)

theorem upd_upd {α : Type} (m : Nat → Option α) (x : Nat) (a b : Option α) : upd (upd m x a) x b = upd m x b := by
  funext y
  simp only [upd]
  split <;> rfl

mutual
/-- The statement with shared memory runs if the original one does, and the values that are used later are the same. -/
theorem sim (hT : Calls attrs K F In T) (hS : SizeOK attrs K F T regs D) : ∀ (s s' : Stmt) (G : List Nat) (rt σ : Nat → Nat) (v v' : Nat → Option View)
    (m m' m1 : MemV V) (k : Nat), Al attrs K F T G s s' → Scoped h.num regs G s → Names K In D G (decls s) (allocs s) →
    (∀ (j : Nat) (c : Call), (trace rt s)[j]? = some c → T[k + j]? = some c) → EnvOK attrs K F In T regs G rt σ v v' →
    Wr In T k m → MR K F In T k G σ m m' → Run h attrs s v m m1 →
    ∃ m1', Run h attrs s' v' m' m1' ∧ MR K F In T (k + (trace rt s).length) G σ m1 m1' ∧ Wr In T (k + (trace rt s).length) m1
  | .call t ins outs sc, s', G, rt, σ, v, v', m, m', m1, k, hA, hs, _, ht, he, hw, hm, hr => by
    rw [Al] at hA
    · subst hA
      rw [Scoped] at hs
      have := sim_call (h := h) (regs := regs) hT hs.1 hs.2 (by simpa using ht 0 _ (by rw [trace]; rfl)) he hw hm hr
      simpa [trace] using this
    all_goals intros; simp_all
  | .block ss, s', G, rt, σ, v, v', m, m', m1, k, hA, hs, hn, ht, he, hw, hm, hr => by
    rw [Al] at hA
    obtain ⟨ss', hA, rfl⟩ := hA
    rw [Scoped] at hs
    rw [decls, allocs] at hn
    rw [Run] at hr
    simp only [trace] at ht ⊢
    obtain ⟨m1', r1, r2, r3⟩ := sims hT hS ss ss' G rt σ v v' m m' m1 k hA hs hn ht he hw hm hr
    exact ⟨m1', by rw [Run]; exact r1, r2, r3⟩
  | .allocate x st e dims body, s', G, rt, σ, v, v', m, m', m1, k, hA, hs, hn, ht, he, hw, hm, hr => by
    rw [Al] at hA
    obtain ⟨body', hA, hcase⟩ := hA
    rw [Scoped] at hs
    obtain ⟨hreg, hdef, hs⟩ := hs
    rw [decls, allocs] at hn
    rw [Run, hreg] at hr
    simp only [trace] at ht ⊢
    have hxG : x ∉ G := hn.fresh x List.mem_cons_self
    have hkx : K x := hn.known x List.mem_cons_self
    have hw1 : Wr In T k (fun r => if r = x then fun _ => none else m r : MemV V) := fun R idx val hv => by
      by_cases hRx : R = x
      · simp [hRx] at hv
      · simp only [hRx, if_false] at hv
        exact hw R idx val hv
    have key : ∀ (z : Nat) (m'' : MemV V), (z = x ∨ z ∈ G ∧ (K z ∨ In z)) → Cmp attrs K F T x z →
        (∀ R ∈ G, (K R ∨ In R) → ∀ idx, m'' (σ R) idx = m' (σ R) idx) →
        ∃ m1', Run h attrs body' (upd v' x (some ⟨z, regs x⟩)) m'' m1' ∧ MR K F In T (k + (trace (updN rt x x) body).length) G σ m1 m1' ∧
          Wr In T (k + (trace (updN rt x x) body).length) m1 := by
      intro z m'' hz hc hsame
      have hm1 : MR K F In T k (x :: G) (updN σ x z) (fun r => if r = x then fun _ => none else m r : MemV V) m'' := by
        intro R hR hk hl idx val hv
        by_cases hRx : R = x
        · simp [hRx] at hv
        · simp only [hRx, if_false] at hv
          have hRG := (List.mem_cons.mp hR).resolve_left hRx
          simp only [updN, hRx, if_false]
          rw [hsame R hRG hk]
          exact hm R hRG hk hl idx val hv
      obtain ⟨m1', r1, r2, r3⟩ := sim hT hS body body' (x :: G) (updN rt x x) (updN σ x z) _ _ _ m'' m1 k hA hs hn.alloc ht
        (he.alloc hxG hkx hz hc) hw1 hm1 hr
      refine ⟨m1', r1, ?_, r3⟩
      intro R hR hk hl idx val hv
      have hRx : R ≠ x := fun e => hxG (e ▸ hR)
      have := r2 R (List.mem_cons_of_mem _ hR) hk hl idx val hv
      simpa [updN, hRx] using this
    have alias_ : ∀ y ∈ G, (Edge attrs K F T x y ∨ Edge attrs K F T y x) → ∃ reg, v' y = some ⟨σ y, reg⟩ ∧ cropR h.num reg (dimsBounds dims) = regs x ∧
        (σ y ∈ G ∧ (K (σ y) ∨ In (σ y))) ∧ Cmp attrs K F T x (σ y) := by
      intro y hy hE
      have hky : K y := by
        rcases hE with e | e
        · obtain ⟨-, -, -, -, -, -, kb⟩ := e.facts; exact kb
        · obtain ⟨-, -, -, -, ka, -⟩ := e.facts; exact ka
      obtain ⟨reg, a, b, -, -⟩ := he.view y hy
      obtain ⟨c, d⟩ := he.root y hy (.inl hky)
      have hregy : reg = regs y := by
        rw [d hky] at a
        simp only [Option.some.injEq, View.mk.injEq] at a
        exact a.2.symm
      obtain ⟨e1, e2, e3⟩ := he.cmp y hy (.inl hky)
      refine ⟨reg, by rw [b, c], ?_, ⟨e2, e3⟩, ?_⟩
      · rw [hregy, ← hreg]
        exact cropR_sub h.num dims _ (by rw [hreg]; exact hS x y hE (hn.before y hy hky x List.mem_cons_self)) hdef
      · refine Cmp.trans hT ?_ e1
        rcases hE with e | e
        · exact .inl (.single e)
        · exact .inr (.single e)
    rcases hcase with rfl | ⟨y, hy, hE, rfl⟩ | ⟨y, hy, hE, rfl⟩
    · obtain ⟨m1', r1, r2, r3⟩ := key x (fun r => if r = x then fun _ => none else m' r) (.inl rfl) (.refl x) (fun R hR hk idx => by
        have : σ R ≠ x := fun e => hxG (e ▸ (he.cmp R hR hk).2.1)
        simp [this])
      exact ⟨m1', by rw [Run, hreg]; exact r1, r2, r3⟩
    · obtain ⟨reg, a, b, c, d⟩ := alias_ y hy (.inr hE)
      obtain ⟨m1', r1, r2, r3⟩ := key (σ y) m' (.inr c) d (fun _ _ _ _ => rfl)
      exact ⟨m1', by rw [Run]; exact ⟨_, a, by rw [b]; exact r1⟩, r2, r3⟩
    · obtain ⟨reg, a, b, c, d⟩ := alias_ y hy (.inl hE)
      obtain ⟨m1', r1, r2, r3⟩ := key (σ y) m' (.inr c) d (fun _ _ _ _ => rfl)
      refine ⟨m1', ?_, r2, r3⟩
      rw [Run]
      refine ⟨_, a, ?_⟩
      rw [Run]
      exact ⟨_, by simp [upd]; rfl, by rw [b, upd_upd]; exact r1⟩
  | .cropBuffer x src bs body, s', G, rt, σ, v, v', m, m', m1, k, hA, hs, hn, ht, he, hw, hm, hr => by
    rw [Al] at hA
    obtain ⟨body', hA, rfl⟩ := hA
    rw [Scoped] at hs
    rw [decls, allocs] at hn
    rw [Run] at hr
    simp only [trace] at ht ⊢
    obtain ⟨hn', hroot⟩ := hn.decl (allocs_decls body)
    obtain ⟨reg, a, b, -, -⟩ := he.view src hs.1
    obtain ⟨u, hu, hr⟩ := hr
    rw [a] at hu
    cases hu
    obtain ⟨m1', r1, r2, r3⟩ := sim hT hS body body' (x :: G) _ σ _ _ m m' m1 k hA hs.2 hn' ht
      (he.decl hs.1 (hn.fresh x List.mem_cons_self) hroot _) hw (fun R hR hk => hm R ((List.mem_cons.mp hR).resolve_left fun e => hroot (e ▸ hk)) hk) hr
    exact ⟨m1', by rw [Run]; exact ⟨_, b, r1⟩, fun R hR => r2 R (List.mem_cons_of_mem _ hR), r3⟩
  | .cropDim x src d bs body, s', G, rt, σ, v, v', m, m', m1, k, hA, hs, hn, ht, he, hw, hm, hr => by
    rw [Al] at hA
    obtain ⟨body', hA, rfl⟩ := hA
    rw [Scoped] at hs
    rw [decls, allocs] at hn
    rw [Run] at hr
    simp only [trace] at ht ⊢
    obtain ⟨hn', hroot⟩ := hn.decl (allocs_decls body)
    obtain ⟨reg, a, b, -, -⟩ := he.view src hs.1
    obtain ⟨u, hu, hr⟩ := hr
    rw [a] at hu
    cases hu
    obtain ⟨m1', r1, r2, r3⟩ := sim hT hS body body' (x :: G) _ σ _ _ m m' m1 k hA hs.2 hn' ht
      (he.decl hs.1 (hn.fresh x List.mem_cons_self) hroot _) hw (fun R hR hk => hm R ((List.mem_cons.mp hR).resolve_left fun e => hroot (e ▸ hk)) hk) hr
    exact ⟨m1', by rw [Run]; exact ⟨_, b, r1⟩, fun R hR => r2 R (List.mem_cons_of_mem _ hR), r3⟩
  | .cloneBuffer x src body, s', G, rt, σ, v, v', m, m', m1, k, hA, hs, hn, ht, he, hw, hm, hr => by
    rw [Al] at hA
    obtain ⟨body', hA, rfl⟩ := hA
    rw [Scoped] at hs
    rw [decls, allocs] at hn
    rw [Run] at hr
    simp only [trace] at ht ⊢
    obtain ⟨hn', hroot⟩ := hn.decl (allocs_decls body)
    obtain ⟨reg, a, b, -, -⟩ := he.view src hs.1
    obtain ⟨u, hu, hr⟩ := hr
    rw [a] at hu
    cases hu
    obtain ⟨m1', r1, r2, r3⟩ := sim hT hS body body' (x :: G) _ σ _ _ m m' m1 k hA hs.2 hn' ht
      (he.decl hs.1 (hn.fresh x List.mem_cons_self) hroot _) hw (fun R hR hk => hm R ((List.mem_cons.mp hR).resolve_left fun e => hroot (e ▸ hk)) hk) hr
    exact ⟨m1', by rw [Run]; exact ⟨_, b, r1⟩, fun R hR => r2 R (List.mem_cons_of_mem _ hR), r3⟩
  | .undef, _, _, _, _, _, _, _, _, _, _, _, hs, _, _, _, _, _, _ => by simp [Scoped] at hs
  | .copy .., _, _, _, _, _, _, _, _, _, _, _, hs, _, _, _, _, _, _ => by simp [Scoped] at hs
  | .lets .., _, _, _, _, _, _, _, _, _, _, _, hs, _, _, _, _, _, _ => by simp [Scoped] at hs
  | .loop .., _, _, _, _, _, _, _, _, _, _, _, hs, _, _, _, _, _, _ => by simp [Scoped] at hs
  | .makeBuffer .., _, _, _, _, _, _, _, _, _, _, _, hs, _, _, _, _, _, _ => by simp [Scoped] at hs
  | .constantBuffer .., _, _, _, _, _, _, _, _, _, _, _, hs, _, _, _, _, _, _ => by simp [Scoped] at hs
  | .sliceBuffer .., _, _, _, _, _, _, _, _, _, _, _, hs, _, _, _, _, _, _ => by simp [Scoped] at hs
  | .sliceDim .., _, _, _, _, _, _, _, _, _, _, _, hs, _, _, _, _, _, _ => by simp [Scoped] at hs
  | .transpose .., _, _, _, _, _, _, _, _, _, _, _, hs, _, _, _, _, _, _ => by simp [Scoped] at hs
  | .async .., _, _, _, _, _, _, _, _, _, _, _, hs, _, _, _, _, _, _ => by simp [Scoped] at hs
  | .check .., _, _, _, _, _, _, _, _, _, _, _, hs, _, _, _, _, _, _ => by simp [Scoped] at hs
/-- See `sim`. -/
theorem sims (hT : Calls attrs K F In T) (hS : SizeOK attrs K F T regs D) : ∀ (ss ss' : Stmts) (G : List Nat) (rt σ : Nat → Nat) (v v' : Nat → Option View)
    (m m' m1 : MemV V) (k : Nat), Als attrs K F T G ss ss' → Scopeds h.num regs G ss → Names K In D G (declss ss) (allocss ss) →
    (∀ (j : Nat) (c : Call), (traces rt ss)[j]? = some c → T[k + j]? = some c) → EnvOK attrs K F In T regs G rt σ v v' →
    Wr In T k m → MR K F In T k G σ m m' → RunAll h attrs ss v m m1 →
    ∃ m1', RunAll h attrs ss' v' m' m1' ∧ MR K F In T (k + (traces rt ss).length) G σ m1 m1' ∧ Wr In T (k + (traces rt ss).length) m1
  | .nil, ss', G, rt, σ, v, v', m, m', m1, k, hA, _, _, _, _, hw, hm, hr => by
    rw [Als] at hA
    subst hA
    rw [RunAll] at hr
    subst hr
    exact ⟨m', by rw [RunAll], by simpa [traces] using hm, by simpa [traces] using hw⟩
  | .cons s ss, ss', G, rt, σ, v, v', m, m', m1, k, hA, hs, hn, ht, he, hw, hm, hr => by
    rw [Als] at hA
    obtain ⟨s1, ss1, hA1, hA2, rfl⟩ := hA
    rw [Scopeds] at hs
    rw [declss, allocss] at hn
    rw [RunAll] at hr
    obtain ⟨m2, hr1, hr2⟩ := hr
    rw [traces] at ht
    obtain ⟨m2', a1, a2, a3⟩ := sim hT hS s s1 G rt σ v v' m m' m2 k hA1 hs.1 (hn.left (allocss_declss ss))
      (fun j c hj => ht j c (by rw [List.getElem?_append_left (List.getElem?_eq_some_iff.mp hj).1]; exact hj)) he hw hm hr1
    obtain ⟨m1', b1, b2, b3⟩ := sims hT hS ss ss1 G rt σ v v' m2 m2' m1 (k + (trace rt s).length) hA2 hs.2 (hn.right (allocs_decls s))
      (fun j c hj => by
        have := ht ((trace rt s).length + j) c (by rw [List.getElem?_append_right (by omega)]; simpa using hj)
        rwa [← Nat.add_assoc] at this) he a3 a2 hr2
    refine ⟨m1', by rw [RunAll]; exact ⟨m2', a1, b1⟩, ?_, ?_⟩
    · rw [traces, List.length_append, ← Nat.add_assoc]; exact b2
    · rw [traces, List.length_append, ← Nat.add_assoc]; exact b3
end

end

end Slinky.AIP
