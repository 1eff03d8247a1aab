import Verif.OptSymbolsThm

/-!
# C42: what is mutated in place, and what are closures
-/

namespace Slinky

/-! ## The bound of the depth -/

theorem flattenBlocks_height {ss : List Stmt} {k : Nat} (h : ∀ s ∈ ss, s.height ≤ k) : ∀ s ∈ flattenBlocks ss, s.height ≤ k := by
  have hs : ∀ {ss : Stmts} {k : Nat}, ss.height ≤ k → ∀ s ∈ ss.toList, s.height ≤ k := by
    intro ss
    induction ss using Stmts.rec (motive_1 := fun _ => True) with
    | nil => intro _ _ s hs; simp [Stmts.toList] at hs
    | cons s ss _ ih =>
      intro k h u hu
      simp only [Stmts.height, Nat.max_le] at h
      simp only [Stmts.toList, List.mem_cons] at hu
      rcases hu with rfl | hu
      · exact h.1
      · exact ih h.2 u hu
    | _ => trivial
  refine flattenBlocks_all (P := fun s => s.height ≤ k) (fun ss hb s hs' => ?_) h
  simp only [Stmt.height] at hb
  have := hs (Nat.le_refl _) s hs'
  omega

theorem Stmts.height_iff : ∀ {ss : Stmts} {k : Nat}, ss.height ≤ k ↔ ∀ s ∈ ss.toList, s.height ≤ k
  | .nil, _ => by simp [Stmts.height, Stmts.toList]
  | .cons s ss, k => by simp [Stmts.height, Stmts.toList, Stmts.height_iff (ss := ss)]

theorem blockMake_height {ss : List Stmt} {k : Nat} (h : ∀ s ∈ ss, s.height ≤ k) : (blockMake ss).height ≤ k + 1 := by
  have h1 : ∀ s ∈ eraseUndefs (flattenBlocks ss), s.height ≤ k := fun s hs => flattenBlocks_height h s (List.mem_of_mem_filter hs)
  unfold blockMake
  split
  · simp [Stmt.height]
  · rename_i s e; have := h1 s (by simp [e]); omega
  · simp only [Stmt.height]
    have : (Stmts.ofList (eraseUndefs (flattenBlocks ss))).height ≤ k := Stmts.height_iff.2 (by rw [Stmts.toList_ofList]; exact h1)
    omega

section
variable {t : Nat} {r : Expr}

mutual
theorem substS_height : ∀ (s : Stmt), (substS t r s).height ≤ s.height
  | .undef => by simp [substS]
  | .call .. => by simp [substS, Stmt.height]
  | .copy .. => by simp only [substS]; split <;> simp [Stmt.height]
  | .check _ => by simp [substS, Stmt.height]
  | .block .nil => by simp [substS]
  | .block (.cons s ss) => by
    simp only [substS, Stmt.height]
    refine blockMake_height fun u hu => ?_
    simp only [Stmts.height]
    rcases List.mem_cons.1 hu with rfl | hu
    · exact le_trans (substS_height s) (Nat.le_max_left ..)
    · exact le_trans (Stmts.height_iff.1 (substSs_height ss) u hu) (Nat.le_max_right ..)
  | .lets bs b c => by have := substS_height b; simp only [substS, Stmt.height]; split <;> omega
  | .loop _ _ _ _ b => by have := substS_height b; simp only [substS, Stmt.height]; split <;> omega
  | .allocate _ _ _ _ b => by have := substS_height b; simp only [substS, Stmt.height]; split <;> omega
  | .makeBuffer _ _ _ _ b => by have := substS_height b; simp only [substS, Stmt.height]; split <;> omega
  | .constantBuffer _ _ b => by have := substS_height b; simp only [substS, Stmt.height]; split <;> omega
  | .cloneBuffer _ _ b => by have := substS_height b; simp only [substS, Stmt.height]; split <;> omega
  | .cropBuffer _ _ _ b => by have := substS_height b; simp only [substS, Stmt.height]; split <;> omega
  | .cropDim _ _ _ _ b => by have := substS_height b; simp only [substS, Stmt.height]; split <;> omega
  | .sliceBuffer _ _ _ b => by have := substS_height b; simp only [substS, Stmt.height]; split <;> omega
  | .sliceDim _ _ _ _ b => by have := substS_height b; simp only [substS, Stmt.height]; split <;> omega
  | .transpose _ _ _ b => by have := substS_height b; simp only [substS, Stmt.height]; split <;> omega
  | .async none _ _ => by simp [substS]
  | .async (some _) a b => by
    have h1 := substS_height a; have h2 := substS_height b
    simp only [substS, Stmt.height]
    split <;> omega
termination_by structural s => s
theorem substSs_height : ∀ (ss : Stmts), (substSs t r ss).height ≤ ss.height
  | .nil => by simp [substSs]
  | .cons s ss => by
    have h1 := substS_height s; have h2 := substSs_height ss
    simp only [substSs, Stmts.height]
    omega
termination_by structural s => s
end

end

theorem rsMutator_height {cm : CanMutate} {x src : Nat} {body : Stmt} : (rsMutator cm x src body).2.height ≤ body.height := by
  unfold rsMutator
  split
  · simp only [substituteS]
    split
    · exact Nat.le_refl _
    · exact substS_height _
  · exact Nat.le_refl _

theorem rsList_congr {f g : CanMutate → Stmt → Stmt × CanMutate} : ∀ {ss : Stmts}, (∀ s ∈ ss.toList, ∀ cm, f cm s = g cm s) → ∀ {cm}, rsList f cm ss = rsList g cm ss
  | .nil, _, _ => rfl
  | .cons s ss, h, cm => by
    simp only [rsList]
    rw [h s (by simp [Stmts.toList]) cm, rsList_congr fun s hs => h s (by simp [Stmts.toList, hs])]

/-- The bound of the depth makes no difference. -/
theorem rsS_fuel {serial : Expr → Bool} : ∀ {n k : Nat} {cm : CanMutate} {s : Stmt}, s.height ≤ n → s.height ≤ k → rsS serial n cm s = rsS serial k cm s
  | 0, _, _, s, h, _ => by cases s <;> simp [Stmt.height] at h
  | _ + 1, 0, _, s, _, h => by cases s <;> simp [Stmt.height] at h
  | n + 1, k + 1, cm, s, h1, h2 => by
    have IH : ∀ (cm : CanMutate) (s : Stmt), s.height ≤ n → s.height ≤ k → rsS serial n cm s = rsS serial k cm s := fun cm s => rsS_fuel
    have IM : ∀ (cm cm' : CanMutate) (x src : Nat) (s : Stmt), s.height + 1 ≤ n + 1 → s.height + 1 ≤ k + 1 →
        rsS serial n cm (rsMutator cm' x src s).2 = rsS serial k cm (rsMutator cm' x src s).2 := fun cm cm' x src s g1 g2 => by
      have := rsMutator_height (cm := cm') (x := x) (src := src) (body := s)
      exact IH _ _ (by omega) (by omega)
    have IB : ∀ (cm : CanMutate) (s : Stmt), s.height + 1 ≤ n + 1 → s.height + 1 ≤ k + 1 → rsS serial n cm s = rsS serial k cm s :=
      fun cm s g1 g2 => IH cm s (by omega) (by omega)
    cases s with
    | block ss =>
      simp only [Stmt.height] at h1 h2
      have e : rsList (rsS serial n) cm ss = rsList (rsS serial k) cm ss := by
        refine rsList_congr fun s hs cm => ?_
        have g1 := Stmts.height_iff.1 (Nat.le_of_succ_le_succ h1) s hs
        have g2 := Stmts.height_iff.1 (Nat.le_of_succ_le_succ h2) s hs
        exact IH cm s g1 g2
      simp only [rsS, e]
    | async x t b =>
      simp only [Stmt.height] at h1 h2
      simp only [rsS]
      rw [IH _ t (by omega) (by omega), IH _ b (by omega) (by omega)]
    | loop x wk bs st b =>
      simp only [Stmt.height] at h1 h2
      simp only [rsS]
      rw [IB cm b h1 h2, IB (fun _ => false) b h1 h2]
    | cropBuffer => simp only [Stmt.height] at h1 h2; simp only [rsS]; rw [IM _ _ _ _ _ h1 h2]
    | cropDim => simp only [Stmt.height] at h1 h2; simp only [rsS]; rw [IM _ _ _ _ _ h1 h2]
    | sliceBuffer => simp only [Stmt.height] at h1 h2; simp only [rsS]; rw [IM _ _ _ _ _ h1 h2]
    | sliceDim => simp only [Stmt.height] at h1 h2; simp only [rsS]; rw [IM _ _ _ _ _ h1 h2]
    | transpose => simp only [Stmt.height] at h1 h2; simp only [rsS]; rw [IM _ _ _ _ _ h1 h2]
    | lets => simp only [Stmt.height] at h1 h2; simp only [rsS]; rw [IB _ _ h1 h2]
    | allocate => simp only [Stmt.height] at h1 h2; simp only [rsS]; rw [IB _ _ h1 h2]
    | makeBuffer => simp only [Stmt.height] at h1 h2; simp only [rsS]; rw [IB _ _ h1 h2]
    | constantBuffer => simp only [Stmt.height] at h1 h2; simp only [rsS]; rw [IB _ _ h1 h2]
    | cloneBuffer => simp only [Stmt.height] at h1 h2; simp only [rsS]; rw [IB _ _ h1 h2]
    | undef => rfl
    | call => rfl
    | copy => rfl
    | check => rfl

/-! ## Closures -/

theorem Stmts.parClosed_iff : ∀ {ss : Stmts}, ss.ParClosed ↔ ∀ s ∈ ss.toList, s.ParClosed
  | .nil => by simp [Stmts.ParClosed, Stmts.toList]
  | .cons s ss => by simp [Stmts.ParClosed, Stmts.toList, Stmts.parClosed_iff (ss := ss)]

theorem blockMake_parClosed {ss : List Stmt} (h : ∀ s ∈ ss, s.ParClosed) : (blockMake ss).ParClosed := by
  refine blockMake_all (P := Stmt.ParClosed) trivial (fun ss hb s hs => Stmts.parClosed_iff.1 (by simpa only [Stmt.ParClosed] using hb) s hs) (fun ss _ hs => ?_) h
  simp only [Stmt.ParClosed]
  rw [Stmts.parClosed_iff, Stmts.toList_ofList]
  exact fun s h => (hs s h).2

theorem mkClosure_isClosure {s : Stmt} (h : s.BufOK) : (mkClosure s).IsClosure := ⟨_, s, rfl, List.nodup_dedup _, fun _ => mem_deps h⟩

theorem rsList_mem {f : CanMutate → Stmt → Stmt × CanMutate} : ∀ {ss : Stmts} {cm : CanMutate} {s' : Stmt}, s' ∈ (rsList f cm ss).1.toList →
    ∃ s ∈ ss.toList, ∃ cm', s' = (f cm' s).1
  | .nil, _, _, h => by simp [rsList, Stmts.toList] at h
  | .cons s ss, cm, s', h => by
    simp only [rsList, Stmts.toList, List.mem_cons] at h
    rcases h with rfl | h
    · exact ⟨s, by simp [Stmts.toList], cm, rfl⟩
    · obtain ⟨u, h1, h2⟩ := rsList_mem h
      exact ⟨u, by simp [Stmts.toList, h1], h2⟩

theorem rsS_parClosed {serial : Expr → Bool} (hser : ∀ wk, serial wk = true → wk.AlwaysSerial) : ∀ (n : Nat) {cm : CanMutate} {s : Stmt} {T M : Nat → Prop},
    (∀ y, M y → T y) → s.OptOK T M → s.height ≤ n → (rsS serial n cm s).1.ParClosed
  | 0, _, s, _, _, _, _, h => by cases s <;> simp [Stmt.height] at h
  | n + 1, cm, s, T, M, hM, h, hn => by
    have IH : ∀ (cm : CanMutate) (s : Stmt) (T M : Nat → Prop), (∀ y, M y → T y) → s.OptOK T M → s.height ≤ n → (rsS serial n cm s).1.ParClosed :=
      fun cm s T M => rsS_parClosed hser n
    have hM' : ∀ x y, M y → withSym T x y := fun x y hy => Or.inr (hM y hy)
    have IM : ∀ (cm cm' : CanMutate) {x src : Nat} {body : Stmt}, ¬ T x → T src → body.OptOK (withSym T x) (withSym M x) → body.height + 1 ≤ n + 1 →
        (rsS serial n cm (rsMutator cm' x src body).2).1.ParClosed := fun cm cm' x src body h1 h2 h3 hh => by
      obtain ⟨T', M', hm, _⟩ := rsMutator_ok (cm := cm') hM h1 h2 h3
      have := rsMutator_height (cm := cm') (x := x) (src := src) (body := body)
      exact IH _ _ T' M' hm.sub hm.opt (by omega)
    cases s with
    | undef => trivial
    | call => trivial
    | copy => trivial
    | check => trivial
    | lets bs body c =>
      simp only [Stmt.OptOK] at h
      simp only [Stmt.height] at hn
      exact IH cm body _ M (fun y hy => Or.inr (hM y hy)) h.2.2 (by omega)
    | block ss =>
      simp only [Stmt.height] at hn
      refine blockMake_parClosed fun s' hs' => ?_
      obtain ⟨s, h1, cm', rfl⟩ := rsList_mem hs'
      exact IH cm' s T M hM (Stmts.optOK_iff.1 (block_opt h) s h1).2 (Stmts.height_iff.1 (Nat.le_of_succ_le_succ hn) s h1)
    | loop x wk b st body =>
      simp only [Stmt.OptOK] at h
      simp only [Stmt.height] at hn
      simp only [rsS]
      split
      · rename_i hs
        exact ⟨Or.inl (hser wk hs), IH cm body _ M (hM' x) h.2.2.2.2.2 (by omega)⟩
      · exact ⟨Or.inr (mkClosure_isClosure (rsS_ok n (hM' x) h.2.2.2.2.2).out.buf), IH _ body _ M (hM' x) h.2.2.2.2.2 (by omega)⟩
    | async x t b =>
      simp only [Stmt.OptOK] at h
      simp only [Stmt.height] at hn
      exact ⟨mkClosure_isClosure (rsS_ok n hM h.2.2.1).out.buf, mkClosure_isClosure (rsS_ok n hM h.2.2.2).out.buf,
        IH _ t T M hM h.2.2.1 (by omega), IH _ b T M hM h.2.2.2 (by omega)⟩
    | allocate x _ _ _ body =>
      simp only [Stmt.OptOK] at h; simp only [Stmt.height] at hn
      exact IH _ body _ M (hM' x) h.2.2.2 (by omega)
    | makeBuffer x _ _ _ body =>
      simp only [Stmt.OptOK] at h; simp only [Stmt.height] at hn
      exact IH _ body _ M (hM' x) h.2.2.2.2 (by omega)
    | constantBuffer x _ body =>
      simp only [Stmt.OptOK] at h; simp only [Stmt.height] at hn
      exact IH _ body _ M (hM' x) h.2 (by omega)
    | cloneBuffer x _ body =>
      simp only [Stmt.OptOK] at h; simp only [Stmt.height] at hn
      exact IH _ body _ M (hM' x) h.2.2 (by omega)
    | cropBuffer x src bs body =>
      simp only [Stmt.OptOK] at h; simp only [Stmt.height] at hn
      exact IM _ _ h.1 h.2.1 h.2.2.2.2 (by omega)
    | cropDim x src d b body =>
      simp only [Stmt.OptOK] at h; simp only [Stmt.height] at hn
      exact IM _ _ h.1 h.2.1 h.2.2.2 (by omega)
    | sliceBuffer x src es body =>
      simp only [Stmt.OptOK] at h; simp only [Stmt.height] at hn
      exact IM _ _ h.1 h.2.1 h.2.2.2 (by omega)
    | sliceDim x src d e body =>
      simp only [Stmt.OptOK] at h; simp only [Stmt.height] at hn
      exact IM _ _ h.1 h.2.1 h.2.2.2 (by omega)
    | transpose x src ds body =>
      simp only [Stmt.OptOK] at h; simp only [Stmt.height] at hn
      exact IM _ _ h.1 h.2.1 h.2.2.2 (by omega)

/-! ## In place -/

mutual
theorem Stmt.InPlaceOwned.mono : ∀ {s : Stmt} {D D' : Nat → Prop}, s.InPlaceOwned D → (∀ y, D y → D' y) → s.InPlaceOwned D'
  | .undef, _, _, _, _ => trivial
  | .call .., _, _, _, _ => trivial
  | .copy .., _, _, _, _ => trivial
  | .check _, _, _, _, _ => trivial
  | .lets bs b c, D, D', h, hd => by
    simp only [Stmt.InPlaceOwned] at h ⊢; exact h.mono fun y hy => hy.imp id (hd y)
  | .block ss, D, D', h, hd => by simp only [Stmt.InPlaceOwned] at h ⊢; exact h.mono hd
  | .loop x wk _ _ b, D, D', h, hd => by
    simp only [Stmt.InPlaceOwned] at h ⊢
    exact ⟨fun hs => (h.1 hs).mono fun y hy => hy.imp id (hd y), fun hs => (h.2 hs).mono fun y hy => hy⟩
  | .allocate x _ _ _ b, D, D', h, hd => by simp only [Stmt.InPlaceOwned] at h ⊢; exact h.mono fun y hy => hy.imp id (hd y)
  | .makeBuffer x _ _ _ b, D, D', h, hd => by simp only [Stmt.InPlaceOwned] at h ⊢; exact h.mono fun y hy => hy.imp id (hd y)
  | .constantBuffer x _ b, D, D', h, hd => by simp only [Stmt.InPlaceOwned] at h ⊢; exact h.mono fun y hy => ⟨hy.1, hd y hy.2⟩
  | .cloneBuffer x _ b, D, D', h, hd => by simp only [Stmt.InPlaceOwned] at h ⊢; exact h.mono fun y hy => hy.imp id (hd y)
  | .cropBuffer x src _ b, D, D', h, hd => by simp only [Stmt.InPlaceOwned] at h ⊢; exact ⟨fun e => hd x (h.1 e), h.2.mono fun y hy => hy.imp id (hd y)⟩
  | .cropDim x src _ _ b, D, D', h, hd => by simp only [Stmt.InPlaceOwned] at h ⊢; exact ⟨fun e => hd x (h.1 e), h.2.mono fun y hy => hy.imp id (hd y)⟩
  | .sliceBuffer x src _ b, D, D', h, hd => by simp only [Stmt.InPlaceOwned] at h ⊢; exact ⟨fun e => hd x (h.1 e), h.2.mono fun y hy => hy.imp id (hd y)⟩
  | .sliceDim x src _ _ b, D, D', h, hd => by simp only [Stmt.InPlaceOwned] at h ⊢; exact ⟨fun e => hd x (h.1 e), h.2.mono fun y hy => hy.imp id (hd y)⟩
  | .transpose x src _ b, D, D', h, hd => by simp only [Stmt.InPlaceOwned] at h ⊢; exact ⟨fun e => hd x (h.1 e), h.2.mono fun y hy => hy.imp id (hd y)⟩
  | .async _ t b, D, D', h, hd => by simp only [Stmt.InPlaceOwned] at h ⊢; exact h
termination_by structural s => s
theorem Stmts.InPlaceOwned.mono : ∀ {s : Stmts} {D D' : Nat → Prop}, s.InPlaceOwned D → (∀ y, D y → D' y) → s.InPlaceOwned D'
  | .nil, _, _, _, _ => trivial
  | .cons s ss, D, D', h, hd => by simp only [Stmts.InPlaceOwned] at h ⊢; exact ⟨h.1.mono hd, h.2.mono hd⟩
termination_by structural s => s
end

theorem Stmts.inPlace_iff {D : Nat → Prop} : ∀ {ss : Stmts}, ss.InPlaceOwned D ↔ ∀ s ∈ ss.toList, s.InPlaceOwned D
  | .nil => by simp [Stmts.InPlaceOwned, Stmts.toList]
  | .cons s ss => by simp [Stmts.InPlaceOwned, Stmts.toList, Stmts.inPlace_iff (ss := ss)]

theorem blockMake_inPlace {D : Nat → Prop} {ss : List Stmt} (h : ∀ s ∈ ss, s.InPlaceOwned D) : (blockMake ss).InPlaceOwned D := by
  refine blockMake_all (P := fun s => s.InPlaceOwned D) (by simp [Stmt.InPlaceOwned])
    (fun ss hb s hs => Stmts.inPlace_iff.1 (by simpa only [Stmt.InPlaceOwned] using hb) s hs) (fun ss _ hs => ?_) h
  simp only [Stmt.InPlaceOwned]
  rw [Stmts.inPlace_iff, Stmts.toList_ofList]
  exact fun s h => (hs s h).2

theorem mkClosure_inPlace {D : Nat → Prop} {s : Stmt} (h : s.InPlaceOwned D) : (mkClosure s).InPlaceOwned D := by
  simp only [mkClosure, Stmt.InPlaceOwned]
  exact h.mono fun y hy => Or.inr hy

/-- What is proved: the mutations in place are of symbols in `D`, and `can_mutate` is the same for the symbols in scope. -/
structure IpOK (T D : Nat → Prop) (cm : CanMutate) (r : Stmt × CanMutate) : Prop where
  own : r.1.InPlaceOwned D
  same : ∀ y, T y → r.2 y = cm y

theorem rsS_ip {serial : Expr → Bool} (hser : ∀ wk, serial wk = true → wk.AlwaysSerial) : ∀ (n : Nat) {cm : CanMutate} {s : Stmt} {T M D : Nat → Prop},
    (∀ y, M y → T y) → s.OptOK T M → s.height ≤ n → (∀ y, cm y = true → T y → D y) → IpOK T D cm (rsS serial n cm s)
  | 0, _, s, _, _, _, _, _, h, _ => by cases s <;> simp [Stmt.height] at h
  | n + 1, cm, s, T, M, D, hM, h, hn, hc => by
    have IH : ∀ (cm : CanMutate) (s : Stmt) (T M D : Nat → Prop), (∀ y, M y → T y) → s.OptOK T M → s.height ≤ n → (∀ y, cm y = true → T y → D y) →
        IpOK T D cm (rsS serial n cm s) := fun cm s T M D => rsS_ip hser n
    have hM' : ∀ x y, M y → withSym T x y := fun x y hy => Or.inr (hM y hy)
    have hD : ∀ {x : Nat} {b : Bool}, ∀ y, Function.update cm x b y = true → withSym T x y → withSym D x y := fun {x b} y hy ht => by
      by_cases e : y = x
      · exact Or.inl e
      · rw [Function.update_of_ne e] at hy
        exact Or.inr (hc y hy (ht.resolve_left e))
    have hS : ∀ {x : Nat} {b : Bool} {cm' : CanMutate}, ¬ T x → (∀ y, withSym T x y → cm' y = Function.update cm x b y) → ∀ y, T y → cm' y = cm y :=
      fun {x b cm'} hx h y hy => by
        rw [h y (Or.inr hy), Function.update_of_ne]
        rintro rfl; exact hx hy
    have IM : ∀ {x src : Nat} {body : Stmt}, ¬ T x → T src → body.OptOK (withSym T x) (withSym M x) → body.height + 1 ≤ n + 1 →
        ((rsMutator cm x src body).1 = src → D (rsMutator cm x src body).1) ∧
        (rsS serial n (Function.update cm x true) (rsMutator cm x src body).2).1.InPlaceOwned (withSym D (rsMutator cm x src body).1) ∧
        ∀ y, T y → (rsS serial n (Function.update cm x true) (rsMutator cm x src body).2).2 y = cm y := fun {x src body} h1 h2 h3 hh => by
      obtain ⟨T', M', hm, hw⟩ := rsMutator_ok (cm := cm) hM h1 h2 h3
      have hht := rsMutator_height (cm := cm) (x := x) (src := src) (body := body)
      have hne : x ≠ src := fun e => h1 (e ▸ h2)
      rcases hw with ⟨hx, rfl⟩ | ⟨hcs, hx, rfl⟩
      · have ih := IH (Function.update cm x true) _ _ M' (withSym D x) hm.sub hm.opt (by omega) hD
        rw [hx]
        exact ⟨fun e => absurd e hne, ih.own, hS h1 ih.same⟩
      · have ih := IH (Function.update cm x true) _ T' M' (withSym D src) hm.sub hm.opt (by omega) fun y hy ht => by
          rw [Function.update_of_ne (by rintro rfl; exact h1 ht)] at hy
          exact Or.inr (hc y hy ht)
        rw [hx]
        refine ⟨fun _ => hc src hcs h2, ih.own, fun y hy => ?_⟩
        rw [ih.same y hy, Function.update_of_ne]
        rintro rfl; exact h1 hy
    cases s with
    | undef => exact ⟨trivial, fun _ _ => rfl⟩
    | call => exact ⟨trivial, fun _ _ => rfl⟩
    | copy => exact ⟨trivial, fun _ _ => rfl⟩
    | check => exact ⟨trivial, fun _ _ => rfl⟩
    | lets bs body c =>
      simp only [Stmt.OptOK] at h
      simp only [Stmt.height] at hn
      have ih := IH cm body _ M (fun y => y ∈ bs.syms ∨ D y) (fun y hy => Or.inr (hM y hy)) h.2.2 (by omega) fun y hy ht => ht.imp id (hc y hy)
      refine ⟨?_, fun y hy => ih.same y (Or.inr hy)⟩
      simp only [rsS, Stmt.InPlaceOwned, h.1]
      exact ih.own.mono fun y hy => hy.imp (fun e => ⟨trivial, e⟩) id
    | block ss =>
      simp only [Stmt.height] at hn
      have hss := block_opt h
      have key : ∀ (ss : Stmts) (cm : CanMutate), ss.height ≤ n → ss.OptOK T M → (∀ y, cm y = true → T y → D y) →
          (∀ s ∈ (rsList (rsS serial n) cm ss).1.toList, s.InPlaceOwned D) ∧ ∀ y, T y → (rsList (rsS serial n) cm ss).2 y = cm y := by
        intro ss
        induction ss using Stmts.rec (motive_1 := fun _ => True) with
        | nil => exact fun _ _ _ _ => ⟨by simp [rsList, Stmts.toList], fun _ _ => rfl⟩
        | cons s ss _ ih =>
          intro cm hh ho hc
          simp only [Stmts.OptOK] at ho
          simp only [Stmts.height, Nat.max_le] at hh
          have h1 := IH cm s T M D hM ho.2.1 hh.1 hc
          obtain ⟨h2, h3⟩ := ih (rsS serial n cm s).2 hh.2 ho.2.2 fun y hy ht => hc y (by rw [← h1.same y ht]; exact hy) ht
          refine ⟨fun u hu => ?_, fun y hy => ?_⟩
          · simp only [rsList, Stmts.toList, List.mem_cons] at hu
            rcases hu with rfl | hu
            · exact h1.own
            · exact h2 u hu
          · simp only [rsList]; rw [h3 y hy, h1.same y hy]
        | _ => trivial
      obtain ⟨h1, h2⟩ := key ss cm (by omega) hss hc
      exact ⟨blockMake_inPlace h1, h2⟩
    | loop x wk b st body =>
      simp only [Stmt.OptOK] at h
      simp only [Stmt.height] at hn
      have hx := h.1
      simp only [rsS]
      split
      · rename_i hs
        have ih := IH cm body _ M (withSym D x) (hM' x) h.2.2.2.2.2 (by omega) fun y hy ht => ht.imp id (hc y hy)
        exact ⟨⟨fun _ => ih.own, fun hh => absurd (hser wk hs) hh⟩, fun y hy => ih.same y (Or.inr hy)⟩
      · have ih := IH (fun _ => false) body _ M (fun _ => False) (hM' x) h.2.2.2.2.2 (by omega) fun y hy ht => by cases hy
        exact ⟨⟨fun _ => (mkClosure_inPlace ih.own).mono fun y hy => hy.elim, fun _ => mkClosure_inPlace ih.own⟩, fun _ _ => rfl⟩
    | async x t b =>
      simp only [Stmt.OptOK] at h
      simp only [Stmt.height] at hn
      have it := IH (fun _ => false) t T M (fun _ => False) hM h.2.2.1 (by omega) fun y hy ht => by cases hy
      have ib := IH (fun _ => false) b T M (fun _ => False) hM h.2.2.2 (by omega) fun y hy ht => by cases hy
      exact ⟨⟨mkClosure_inPlace it.own, mkClosure_inPlace ib.own⟩, fun _ _ => rfl⟩
    | allocate x _ _ _ body =>
      simp only [Stmt.OptOK] at h; simp only [Stmt.height] at hn
      have ih := IH (Function.update cm x true) body _ M (withSym D x) (hM' x) h.2.2.2 (by omega) hD
      exact ⟨ih.own, hS h.1 ih.same⟩
    | makeBuffer x _ _ _ body =>
      simp only [Stmt.OptOK] at h; simp only [Stmt.height] at hn
      have ih := IH (Function.update cm x true) body _ M (withSym D x) (hM' x) h.2.2.2.2 (by omega) hD
      exact ⟨ih.own, hS h.1 ih.same⟩
    | constantBuffer x _ body =>
      simp only [Stmt.OptOK] at h; simp only [Stmt.height] at hn
      have ih := IH (Function.update cm x false) body _ M (fun y => y ≠ x ∧ D y) (hM' x) h.2 (by omega) fun y hy ht => by
        by_cases e : y = x
        · subst e; simp at hy
        · rw [Function.update_of_ne e] at hy
          exact ⟨e, hc y hy (ht.resolve_left e)⟩
      exact ⟨ih.own, hS h.1 ih.same⟩
    | cloneBuffer x _ body =>
      simp only [Stmt.OptOK] at h; simp only [Stmt.height] at hn
      have ih := IH cm body _ M (withSym D x) (hM' x) h.2.2 (by omega) fun y hy ht => ht.imp id (hc y hy)
      exact ⟨ih.own, fun y hy => ih.same y (Or.inr hy)⟩
    | cropBuffer x src bs body =>
      simp only [Stmt.OptOK] at h; simp only [Stmt.height] at hn
      obtain ⟨h1, h2, h3⟩ := IM h.1 h.2.1 h.2.2.2.2 (by omega)
      exact ⟨⟨h1, h2⟩, h3⟩
    | cropDim x src d b body =>
      simp only [Stmt.OptOK] at h; simp only [Stmt.height] at hn
      obtain ⟨h1, h2, h3⟩ := IM h.1 h.2.1 h.2.2.2 (by omega)
      exact ⟨⟨h1, h2⟩, h3⟩
    | sliceBuffer x src es body =>
      simp only [Stmt.OptOK] at h; simp only [Stmt.height] at hn
      obtain ⟨h1, h2, h3⟩ := IM h.1 h.2.1 h.2.2.2 (by omega)
      exact ⟨⟨h1, h2⟩, h3⟩
    | sliceDim x src d e body =>
      simp only [Stmt.OptOK] at h; simp only [Stmt.height] at hn
      obtain ⟨h1, h2, h3⟩ := IM h.1 h.2.1 h.2.2.2 (by omega)
      exact ⟨⟨h1, h2⟩, h3⟩
    | transpose x src ds body =>
      simp only [Stmt.OptOK] at h; simp only [Stmt.height] at hn
      obtain ⟨h1, h2, h3⟩ := IM h.1 h.2.1 h.2.2.2 (by omega)
      exact ⟨⟨h1, h2⟩, h3⟩

end Slinky
