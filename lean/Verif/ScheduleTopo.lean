import Verif.Schedule
import Mathlib.Data.List.Count
import Mathlib.Data.List.Nodup

/-! # C48: the order of the funcs -/

namespace Slinky

namespace SPipe

variable {G : SPipe}

/-! ### Specification -/

/-- The func is needed for the outputs. -/
inductive Needed (G : SPipe) : Nat → Prop
  | out {f : Nat} : f ∈ G.outs → Needed G f
  | prod {f p : Nat} : Needed G f → p ∈ G.prods f → Needed G p

/-- The order of the funcs of a pipeline: every func that is needed once, and every func before its producers. -/
structure OrderOK (G : SPipe) (order : List Nat) : Prop where
  nodup : order.Nodup
  mem : ∀ f, f ∈ order ↔ Needed G f
  before : ∀ pre f post, order = pre ++ f :: post → ∀ p ∈ G.prods f, p ∈ post

/-- `deps` are the consumers of every func, as often as they have it as an input. -/
def DepsOK (G : SPipe) (order : List Nat) (deps : Nat → List Nat) : Prop :=
  ∀ p f, (deps p).count f = if f ∈ order then (G.prods f).count p else 0

/-- No func depends on itself. -/
def Acyclic (G : SPipe) : Prop := ∃ rank : Nat → Nat, ∀ f, Needed G f → ∀ p ∈ G.prods f, rank p < rank f

/-! ### Proof -/

/-- The invariant of the sort. -/
structure TInv (G : SPipe) (s : Topo) : Prop where
  vis : ∀ f, f ∈ s.visited ↔ f ∈ s.order
  nodup : s.order.Nodup
  proc : ∀ f ∈ s.processing, f ∉ s.order
  closed : ∀ pre f post, s.order = pre ++ f :: post → ∀ p ∈ G.prods f, p ∈ pre
  deps : ∀ f ∈ s.order, ∀ p, (s.deps p).count f = (G.prods f).count p
  only : ∀ p, ∀ f ∈ s.deps p, f ∈ s.order ∨ f ∈ s.processing

/-- What `topoImpl` does. -/
structure TStep (G : SPipe) (s s' : Topo) (f : Nat) : Prop where
  inv : TInv G s'
  proc : s'.processing = s.processing
  ext : s.order <+: s'.order
  mem : f ∈ s'.order
  keep : ∀ g ∈ s.processing, ∀ p, (s'.deps p).count g = (s.deps p).count g
  needed : ∀ P : Nat → Prop, (∀ f p, P f → p ∈ G.prods f → P p) → P f → (∀ g ∈ s.order, P g) → ∀ g ∈ s'.order, P g

/-- What the loop over the inputs of `f` does. -/
structure TLoop (G : SPipe) (s s' : Topo) (f : Nat) (ps : List Nat) : Prop where
  inv : TInv G s'
  proc : s'.processing = s.processing
  ext : s.order <+: s'.order
  mem : ∀ p ∈ ps, p ∈ s'.order
  keep : ∀ g ∈ s.processing, g ≠ f → ∀ p, (s'.deps p).count g = (s.deps p).count g
  self : ∀ p, (s'.deps p).count f = (s.deps p).count f + ps.count p
  needed : ∀ P : Nat → Prop, (∀ f p, P f → p ∈ G.prods f → P p) → (∀ p ∈ ps, P p) → (∀ g ∈ s.order, P g) → ∀ g ∈ s'.order, P g

theorem addDep_count (s : Topo) (p f q g : Nat) : ((s.addDep p f).deps q).count g = (s.deps q).count g + if q = p ∧ f = g then 1 else 0 := by
  simp only [Topo.addDep]
  by_cases h : q = p
  · simp only [h, if_true, List.count_append, List.count_singleton, true_and]
    by_cases hg : f = g <;> simp [hg]
  · simp [h]

theorem TInv.addDep {s : Topo} (h : TInv G s) {f : Nat} (hf : f ∈ s.processing) (p : Nat) : TInv G (s.addDep p f) := by
  refine ⟨h.vis, h.nodup, h.proc, h.closed, ?_, ?_⟩
  · intro g hg q
    rw [addDep_count, if_neg, Nat.add_zero]
    · exact h.deps g hg q
    · rintro ⟨-, rfl⟩
      exact h.proc _ hf hg
  · intro q g hg
    simp only [Topo.addDep] at hg
    split at hg
    · rcases List.mem_append.1 hg with hg | hg
      · exact h.only q g hg
      · simp only [List.mem_singleton] at hg
        subst hg
        exact Or.inr hf
    · exact h.only q g hg

theorem topoLoop_spec {n f : Nat} (ih : ∀ (s s' : Topo) (g : Nat), TInv G s → topoImpl G n s g = some s' → TStep G s s' g) :
    ∀ (ps : List Nat) (s s' : Topo), TInv G s → f ∈ s.processing → ps.foldlM (fun s p => topoImpl G n (s.addDep p f) p) s = some s' → TLoop G s s' f ps
  | [], s, s', hs, _, h => by
    simp only [List.foldlM_nil, pure, Option.some.injEq] at h
    subst h
    exact ⟨hs, rfl, List.prefix_refl _, by simp, fun _ _ _ _ => rfl, by simp, fun _ _ _ h => h⟩
  | p :: ps, s, s', hs, hf, h => by
    simp only [List.foldlM_cons, bind, Option.bind_eq_some_iff] at h
    obtain ⟨s₁, h1, h2⟩ := h
    have a := ih _ _ _ (hs.addDep hf p) h1
    have hf1 : f ∈ s₁.processing := by rw [a.proc]; exact hf
    have b := topoLoop_spec ih ps s₁ s' a.inv hf1 h2
    refine ⟨b.inv, b.proc.trans a.proc, a.ext.trans b.ext, ?_, ?_, ?_, ?_⟩
    · intro q hq
      rcases List.mem_cons.1 hq with rfl | hq
      · exact b.ext.subset a.mem
      · exact b.mem q hq
    · intro g hg hgf q
      rw [b.keep g (by rw [a.proc]; exact hg) hgf q, a.keep g hg q, addDep_count, if_neg (fun h => hgf h.2.symm), Nat.add_zero]
    · intro q
      rw [b.self q, a.keep f hf q, addDep_count, List.count_cons]
      by_cases hq : q = p
      · simp [hq]; omega
      · simp [hq, Ne.symm hq]
    · intro P hP hps hs'
      exact b.needed P hP (fun q hq => hps q (List.mem_cons_of_mem _ hq)) (a.needed P hP (hps p (List.mem_cons_self ..)) hs')

theorem topoImpl_spec : ∀ (n : Nat) (s s' : Topo) (f : Nat), TInv G s → topoImpl G n s f = some s' → TStep G s s' f
  | 0, _, _, _, _, h => by simp [topoImpl] at h
  | n + 1, s, s', f, hs, h => by
    rw [topoImpl] at h
    split at h
    · next hv =>
      cases h
      exact ⟨hs, rfl, List.prefix_refl _, (hs.vis f).1 hv, fun _ _ _ => rfl, fun _ _ _ h => h⟩
    split at h
    · cases h
    next hv hp =>
    simp only [Option.map_eq_some_iff] at h
    obtain ⟨s₁, h1, rfl⟩ := h
    have hno : f ∉ s.order := fun h => hv ((hs.vis f).2 h)
    have he : TInv G (s.enter f) := by
      refine ⟨hs.vis, hs.nodup, ?_, hs.closed, hs.deps, ?_⟩
      · intro g hg
        rcases List.mem_cons.1 hg with rfl | hg
        · exact hno
        · exact hs.proc g hg
      · intro p g hg
        exact (hs.only p g hg).imp id (List.mem_cons_of_mem _)
    have a := topoLoop_spec (f := f) (fun s s' g hs h => topoImpl_spec n s s' g hs h) (G.prods f) (s.enter f) s₁ he (List.mem_cons_self ..) h1
    have hno1 : f ∉ s₁.order := a.inv.proc f (by rw [a.proc]; exact List.mem_cons_self ..)
    have hproc : (s₁.leave f).processing = s.processing := by
      simp only [Topo.leave, a.proc, Topo.enter, List.filter_cons, ne_eq, not_true, decide_false, Bool.false_eq_true, if_false]
      rw [List.filter_eq_self]
      intro g hg
      simp only [decide_eq_true_eq]
      rintro rfl
      exact hp hg
    have hdep0 : ∀ p, (s.deps p).count f = 0 := by
      intro p
      rw [List.count_eq_zero]
      intro h
      rcases hs.only p f h with h | h
      · exact hno h
      · exact hp h
    refine ⟨⟨?_, ?_, ?_, ?_, ?_, ?_⟩, hproc, ?_, ?_, ?_, ?_⟩
    · intro g
      simp only [Topo.leave, List.mem_cons, a.inv.vis g, List.mem_append, List.not_mem_nil, or_false]
      exact or_comm
    · simp only [Topo.leave, List.nodup_append, List.nodup_cons, List.not_mem_nil, not_false_eq_true, List.nodup_nil, and_true, true_and, List.mem_singleton]
      refine ⟨a.inv.nodup, ?_⟩
      rintro g hg _ rfl rfl
      exact hno1 hg
    · intro g hg
      rw [hproc] at hg
      simp only [Topo.leave, List.mem_append, List.mem_singleton, not_or]
      refine ⟨a.inv.proc g (by rw [a.proc]; exact List.mem_cons_of_mem _ hg), ?_⟩
      rintro rfl
      exact hp hg
    · intro pre g post hpre p hpg
      simp only [Topo.leave] at hpre
      rcases List.eq_nil_or_concat post with rfl | ⟨post', b, rfl⟩
      · have := List.append_inj' hpre rfl
        obtain ⟨h1, h2⟩ := this
        simp only [List.cons.injEq, and_true] at h2
        subst h2
        rw [← h1]
        exact a.mem p hpg
      · have hpre' : s₁.order ++ [f] = (pre ++ g :: post') ++ [b] := by simpa using hpre
        obtain ⟨h1, -⟩ := List.append_inj' hpre' rfl
        exact a.inv.closed pre g post' h1 p hpg
    · intro g hg p
      simp only [Topo.leave, List.mem_append, List.mem_singleton] at hg ⊢
      rcases hg with hg | rfl
      · exact a.inv.deps g hg p
      · rw [a.self p]
        simp only [Topo.enter, hdep0, Nat.zero_add]
    · intro p g hg
      simp only [Topo.leave] at hg
      rw [hproc]
      rcases a.inv.only p g hg with h | h
      · exact Or.inl (by simp [Topo.leave, h])
      · rw [a.proc] at h
        rcases List.mem_cons.1 h with rfl | h
        · exact Or.inl (by simp [Topo.leave])
        · exact Or.inr h
    · exact a.ext.trans (List.prefix_append _ _)
    · simp [Topo.leave]
    · intro g hg p
      simp only [Topo.leave]
      rw [a.keep g (List.mem_cons_of_mem _ hg) (fun h => hp (h ▸ hg)) p]
      rfl
    · intro P hP hf hs' g hg
      simp only [Topo.leave, List.mem_append, List.mem_singleton] at hg
      rcases hg with hg | rfl
      · exact a.needed P hP (fun p hp => hP f p hf hp) hs' g hg
      · exact hf

theorem topoRun_spec (n : Nat) : ∀ (fs : List Nat) (s s' : Topo), TInv G s → s.processing = [] → fs.foldlM (fun s f => topoImpl G n s f) s = some s' →
    TInv G s' ∧ s'.processing = [] ∧ s.order <+: s'.order ∧ (∀ f ∈ fs, f ∈ s'.order) ∧
      ∀ P : Nat → Prop, (∀ f p, P f → p ∈ G.prods f → P p) → (∀ f ∈ fs, P f) → (∀ g ∈ s.order, P g) → ∀ g ∈ s'.order, P g
  | [], s, s', hs, hp, h => by
    simp only [List.foldlM_nil, pure, Option.some.injEq] at h
    subst h
    exact ⟨hs, hp, List.prefix_refl _, by simp, fun _ _ _ h => h⟩
  | f :: fs, s, s', hs, hp, h => by
    simp only [List.foldlM_cons, bind, Option.bind_eq_some_iff] at h
    obtain ⟨s₁, h1, h2⟩ := h
    have a := topoImpl_spec n s s₁ f hs h1
    obtain ⟨b1, b2, b3, b4, b5⟩ := topoRun_spec n fs s₁ s' a.inv (a.proc.trans hp) h2
    refine ⟨b1, b2, a.ext.trans b3, ?_, ?_⟩
    · intro g hg
      rcases List.mem_cons.1 hg with rfl | hg
      · exact b3.subset a.mem
      · exact b4 g hg
    · intro P hP hfs hs'
      exact b5 P hP (fun g hg => hfs g (List.mem_cons_of_mem _ hg)) (a.needed P hP (hfs f (List.mem_cons_self ..)) hs')

/-- C48: if `topological_sort` returns, every func that is needed is in the order exactly once, before its producers, and `deps` are exactly the consumers. -/
theorem topoSort_spec {n : Nat} {order : List Nat} {deps : Nat → List Nat} (h : topoSort G n = some (order, deps)) : OrderOK G order ∧ DepsOK G order deps := by
  simp only [topoSort, Option.map_eq_some_iff, Prod.mk.injEq] at h
  obtain ⟨s, hs, rfl, rfl⟩ := h
  have h0 : TInv G ⟨[], [], [], fun _ => []⟩ := ⟨by simp, by simp, by simp, by simp, by simp, by simp⟩
  obtain ⟨b1, b2, -, b4, b5⟩ := topoRun_spec n G.outs _ s h0 rfl hs
  have hcl : ∀ f ∈ s.order, ∀ p ∈ G.prods f, p ∈ s.order := by
    intro f hf p hp
    obtain ⟨pre, post, hpp⟩ := List.append_of_mem hf
    rw [hpp]
    exact List.mem_append_left _ (b1.closed pre f post hpp p hp)
  refine ⟨⟨List.nodup_reverse.2 b1.nodup, ?_, ?_⟩, ?_⟩
  · intro f
    rw [List.mem_reverse]
    constructor
    · exact b5 (Needed G) (fun f p hf hp => .prod hf hp) (fun f hf => .out hf) (by simp) f
    · intro h
      induction h with
      | out h => exact b4 _ h
      | prod _ hp ih => exact hcl _ ih _ hp
  · intro pre f post hpp p hp
    have : s.order = post.reverse ++ f :: pre.reverse := by
      have := congrArg List.reverse hpp
      simpa using this
    have := b1.closed _ f _ this p hp
    simpa using this
  · intro p f
    simp only [List.mem_reverse]
    split
    · next hf => exact b1.deps f hf p
    · next hf =>
      rw [List.count_eq_zero]
      intro h
      rcases b1.only p f h with h | h
      · exact hf h
      · rw [b2] at h; simp at h

/-! ### Termination -/

theorem topoImpl_mono : ∀ (n : Nat) (s s' : Topo) (f : Nat), topoImpl G n s f = some s' → topoImpl G (n + 1) s f = some s'
  | 0, _, _, _, h => by simp [topoImpl] at h
  | n + 1, s, s', f, h => by
    rw [topoImpl] at h ⊢
    split
    · next hv => rw [if_pos hv] at h; exact h
    next hv =>
    rw [if_neg hv] at h
    split
    · next hp => rw [if_pos hp] at h; exact h
    next hp =>
    rw [if_neg hp] at h
    simp only [Option.map_eq_some_iff] at h ⊢
    obtain ⟨s₁, h1, h2⟩ := h
    refine ⟨s₁, ?_, h2⟩
    clear h2
    generalize s.enter f = t at h1
    revert t
    induction G.prods f with
    | nil => intro t h1; exact h1
    | cons p ps ih =>
      intro t h1
      simp only [List.foldlM_cons, bind, Option.bind_eq_some_iff] at h1 ⊢
      obtain ⟨t₁, h3, h4⟩ := h1
      exact ⟨t₁, topoImpl_mono n _ _ _ h3, ih t₁ h4⟩

theorem topoImpl_mono' {n m : Nat} (hnm : n ≤ m) {s s' : Topo} {f : Nat} (h : topoImpl G n s f = some s') : topoImpl G m s f = some s' := by
  induction hnm with
  | refl => exact h
  | step _ ih => exact topoImpl_mono _ _ _ _ ih

theorem topoImpl_total {rank : Nat → Nat} (hr : ∀ f, Needed G f → ∀ p ∈ G.prods f, rank p < rank f) :
    ∀ (n : Nat) (s : Topo) (f : Nat), Needed G f → rank f < n → TInv G s → (∀ g ∈ s.processing, rank f < rank g) → ∃ s', topoImpl G n s f = some s'
  | 0, _, _, _, h, _, _ => by omega
  | n + 1, s, f, hf, hn, hs, hp => by
    rw [topoImpl]
    split
    · exact ⟨s, rfl⟩
    next hv =>
    have hpr : f ∉ s.processing := fun h => absurd (hp f h) (by omega)
    rw [if_neg hpr]
    have hno : f ∉ s.order := fun h => hv ((hs.vis f).2 h)
    have he : TInv G (s.enter f) := by
      refine ⟨hs.vis, hs.nodup, ?_, hs.closed, hs.deps, ?_⟩
      · intro g hg
        rcases List.mem_cons.1 hg with rfl | hg
        · exact hno
        · exact hs.proc g hg
      · intro p g hg
        exact (hs.only p g hg).imp id (List.mem_cons_of_mem _)
    have key : ∀ (ps : List Nat) (t : Topo), (∀ p ∈ ps, p ∈ G.prods f) → TInv G t → t.processing = f :: s.processing →
        ∃ t', ps.foldlM (fun s p => topoImpl G n (s.addDep p f) p) t = some t' := by
      intro ps
      induction ps with
      | nil => intro t _ _ _; exact ⟨t, rfl⟩
      | cons p ps ih =>
        intro t hps ht htp
        have hpf := hps p (List.mem_cons_self ..)
        have hrk := hr f hf p hpf
        have htf : f ∈ t.processing := by rw [htp]; exact List.mem_cons_self ..
        obtain ⟨t₁, h1⟩ := topoImpl_total hr n (t.addDep p f) p (.prod hf hpf) (by omega) (ht.addDep htf p) (by
          intro g hg
          simp only [Topo.addDep, htp, List.mem_cons] at hg
          rcases hg with rfl | hg
          · exact hrk
          · exact Nat.lt_trans hrk (hp g hg))
        have a := topoImpl_spec n _ _ _ (ht.addDep htf p) h1
        obtain ⟨t', h2⟩ := ih t₁ (fun q hq => hps q (List.mem_cons_of_mem _ hq)) a.inv (a.proc.trans htp)
        exact ⟨t', by simp only [List.foldlM_cons, bind, Option.bind_eq_some_iff]; exact ⟨t₁, h1, h2⟩⟩
    obtain ⟨t', ht'⟩ := key (G.prods f) (s.enter f) (fun _ h => h) he rfl
    exact ⟨t'.leave f, by rw [ht']; rfl⟩

/-- C48: `topological_sort` returns if no func depends on itself. -/
theorem topoSort_total (h : Acyclic G) : ∃ N r, ∀ n, N ≤ n → topoSort G n = some r := by
  obtain ⟨rank, hr⟩ := h
  have h0 : TInv G ⟨[], [], [], fun _ => []⟩ := ⟨by simp, by simp, by simp, by simp, by simp, by simp⟩
  have key : ∀ (fs : List Nat) (s : Topo), (∀ f ∈ fs, f ∈ G.outs) → TInv G s → s.processing = [] →
      ∃ N s', ∀ n, N ≤ n → fs.foldlM (fun s f => topoImpl G n s f) s = some s' := by
    intro fs
    induction fs with
    | nil => intro s _ _ _; exact ⟨0, s, fun _ _ => rfl⟩
    | cons f fs ih =>
      intro s hfs hs hp
      obtain ⟨s₁, h1⟩ := topoImpl_total hr (rank f + 1) s f (.out (hfs f (List.mem_cons_self ..))) (by omega) hs (by rw [hp]; simp)
      have a := topoImpl_spec _ _ _ _ hs h1
      obtain ⟨N, s', h2⟩ := ih s₁ (fun g hg => hfs g (List.mem_cons_of_mem _ hg)) a.inv (a.proc.trans hp)
      refine ⟨max N (rank f + 1), s', fun n hn => ?_⟩
      simp only [List.foldlM_cons, bind, Option.bind_eq_some_iff]
      exact ⟨s₁, topoImpl_mono' (by omega) h1, h2 n (by omega)⟩
  obtain ⟨N, s', h⟩ := key G.outs _ (fun _ h => h) h0 rfl
  exact ⟨N, _, fun n hn => by simp only [topoSort, topoRun, h n hn, Option.map_some]; rfl⟩

/-- C48: if `topological_sort` returns, no func depends on itself. -/
theorem topoSort_acyclic {n : Nat} {order : List Nat} {deps : Nat → List Nat} (h : topoSort G n = some (order, deps)) : Acyclic G := by
  obtain ⟨ho, -⟩ := topoSort_spec h
  refine ⟨fun f => order.length - order.idxOf f, fun f hf p hp => ?_⟩
  obtain ⟨pre, post, hpp⟩ := List.append_of_mem ((ho.mem f).2 hf)
  have hpost := ho.before pre f post hpp p hp
  have hnd := ho.nodup
  rw [hpp] at hnd
  rw [List.nodup_append] at hnd
  have hfpre : f ∉ pre := fun h => hnd.2.2 f h f (List.mem_cons_self ..) rfl
  have hppre : p ∉ pre := fun h => hnd.2.2 p h p (List.mem_cons_of_mem _ hpost) rfl
  have hpf : p ≠ f := by
    rintro rfl
    exact (List.nodup_cons.1 hnd.2.1).1 hpost
  have hlt : order.idxOf p < order.length := List.idxOf_lt_length_iff.2 (by rw [hpp]; exact List.mem_append_right _ (List.mem_cons_of_mem _ hpost))
  have h1 : order.idxOf f = pre.length := by rw [hpp, List.idxOf_append_of_notMem hfpre, List.idxOf_cons_self, Nat.add_zero]
  have h2 : order.idxOf p = pre.length + (post.idxOf p + 1) := by
    rw [hpp, List.idxOf_append_of_notMem hppre, List.idxOf_cons_ne _ hpf.symm]
  show order.length - order.idxOf p < order.length - order.idxOf f
  omega

end SPipe

end Slinky
