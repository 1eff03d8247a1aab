import Verif.Sanitize

/-!
# C61: the expressions of users. Theorems
-/

namespace Slinky.SZ

open Slinky

variable {w : World}

/-! ## The replacements -/

/-- The state is a map to distinct new symbols. -/
structure San.Inv (n : Nat) (s : San) : Prop where
  keys : s.repl.Pairwise fun a b => a.1 ≠ b.1
  syms : s.repl.Pairwise fun a b => a.2 ≠ b.2
  low : ∀ p ∈ s.repl, n ≤ p.2
  high : ∀ p ∈ s.repl, p.2 < s.next
  next : n ≤ s.next

/-- There are only more replacements. -/
def San.Le (s s' : San) : Prop := ∀ p ∈ s.repl, p ∈ s'.repl

theorem San.Le.refl (s : San) : s.Le s := fun _ h => h
theorem San.Le.trans {a b c : San} (h1 : a.Le b) (h2 : b.Le c) : a.Le c := fun p h => h2 p (h1 p h)

theorem var_spec {n : Nat} {s : San} (hi : s.Inv n) (e : Expr) : (s.var e).2.Inv n ∧ s.Le (s.var e).2 ∧ (e, (s.var e).1) ∈ (s.var e).2.repl := by
  unfold San.var
  split
  · rename_i p hp
    have h1 := List.mem_of_find?_eq_some hp
    have h2 := List.find?_some hp
    simp only [decide_eq_true_eq] at h2
    exact ⟨hi, .refl s, by subst h2; exact h1⟩
  · rename_i hp
    rw [List.find?_eq_none] at hp
    refine ⟨⟨?_, ?_, ?_, ?_, ?_⟩, fun p h => by simp [h], by simp⟩
    · rw [List.pairwise_append]
      exact ⟨hi.keys, by simp, fun a ha b hb => by
        simp only [List.mem_singleton] at hb; subst hb
        simpa using hp a ha⟩
    · rw [List.pairwise_append]
      exact ⟨hi.syms, by simp, fun a ha b hb => by
        simp only [List.mem_singleton] at hb; subst hb
        have := hi.high a ha
        simp only; omega⟩
    · intro p hp'
      simp only [List.mem_append, List.mem_singleton] at hp'
      rcases hp' with h | rfl
      · exact hi.low p h
      · exact hi.next
    · intro p hp'
      simp only [List.mem_append, List.mem_singleton] at hp'
      rcases hp' with h | rfl
      · have := hi.high p h; simp only; omega
      · simp
    · have := hi.next; simp only; omega

mutual
/-- The expression where metadata is replaced, if the variables are known. -/
def putE (g : Expr → Nat) : Expr → Expr
  | .undef => .undef
  | .const c => .const c
  | .var x f d => if f = .none then .var x f d else .v (g (.var x f d))
  | .lets bs b => .lets (putB g bs) (putE g b)
  | .bin op a b => .bin op (putE g a) (putE g b)
  | .not a => .not (putE g a)
  | .select c t f => .select (putE g c) (putE g t) (putE g f)
  | .call fn as => if fn = .bufferAt then .v (g (.call fn as)) else .call fn (putA g as)
/-- See `putE`. -/
def putA (g : Expr → Nat) : Exprs → Exprs
  | .nil => .nil
  | .cons e es => .cons (putE g e) (putA g es)
/-- See `putE`. -/
def putB (g : Expr → Nat) : Binds → Binds
  | .nil => .nil
  | .cons x e bs => .cons x (putE g e) (putB g bs)
end

/-- What a step of the sanitizer does: it adds replacements for the metadata `ks`. -/
structure Step (n : Nat) (s s' : San) (ks : List Expr) : Prop where
  inv : s'.Inv n
  le : s.Le s'
  keys : ∀ k ∈ ks, ∃ m, (k, m) ∈ s'.repl
  only : ∀ p ∈ s'.repl, p ∈ s.repl ∨ p.1 ∈ ks

theorem Step.nil {n : Nat} {s : San} (hi : s.Inv n) : Step n s s [] := ⟨hi, .refl s, by simp, fun _ h => .inl h⟩

theorem Step.append {n : Nat} {a b c : San} {k1 k2 : List Expr} (h1 : Step n a b k1) (h2 : Step n b c k2) : Step n a c (k1 ++ k2) where
  inv := h2.inv
  le := h1.le.trans h2.le
  keys := by
    intro k hk
    simp only [List.mem_append] at hk
    rcases hk with hk | hk
    · obtain ⟨m, hm⟩ := h1.keys k hk; exact ⟨m, h2.le _ hm⟩
    · exact h2.keys k hk
  only := by
    intro p hp
    rcases h2.only p hp with h | h
    · rcases h1.only p h with h | h
      · exact .inl h
      · exact .inr (by simp [h])
    · exact .inr (by simp [h])

theorem Step.var {n : Nat} {s : San} (hi : s.Inv n) (e : Expr) : Step n s (s.var e).2 [e] := by
  obtain ⟨h1, h2, h3⟩ := var_spec hi e
  refine ⟨h1, h2, by simp only [List.mem_singleton]; rintro k rfl; exact ⟨_, h3⟩, ?_⟩
  unfold San.var
  split
  · exact fun p h => .inl h
  · intro p hp
    simp only [List.mem_append, List.mem_singleton] at hp
    rcases hp with h | rfl
    · exact .inl h
    · exact .inr (by simp)

/-- The variables of the replacements. -/
def Maps (g : Expr → Nat) (s : San) : Prop := ∀ p ∈ s.repl, g p.1 = p.2

theorem Maps.le {g : Expr → Nat} {s s' : San} (h : Maps g s') (hl : s.Le s') : Maps g s := fun p hp => h p (hl p hp)

mutual
theorem sanE_spec {n : Nat} : ∀ (e : Expr) (s : San), s.Inv n → Step n s (sanE e s).2 (metaE e) ∧ ∀ g, Maps g (sanE e s).2 → (sanE e s).1 = putE g e
  | .undef, s, hi => by simp only [sanE, metaE, putE]; exact ⟨.nil hi, fun _ _ => trivial⟩
  | .const c, s, hi => by simp only [sanE, metaE, putE]; exact ⟨.nil hi, fun _ _ => trivial⟩
  | .var x f d, s, hi => by
    simp only [sanE, metaE, putE]
    split
    · exact ⟨.nil hi, fun _ _ => rfl⟩
    · exact ⟨.var hi _, fun g hg => congrArg Expr.v (hg (_, _) (var_spec hi (.var x f d)).2.2).symm⟩
  | .lets bs b, s, hi => by
    simp only [sanE, metaE, putE]
    obtain ⟨h1, e1⟩ := sanB_spec bs s hi
    obtain ⟨h2, e2⟩ := sanE_spec b _ h1.inv
    exact ⟨h1.append h2, fun g hg => by rw [e1 g (hg.le h2.le), e2 g hg]⟩
  | .bin op a b, s, hi => by
    simp only [sanE, metaE, putE]
    obtain ⟨h1, e1⟩ := sanE_spec a s hi
    obtain ⟨h2, e2⟩ := sanE_spec b _ h1.inv
    exact ⟨h1.append h2, fun g hg => by rw [e1 g (hg.le h2.le), e2 g hg]⟩
  | .not a, s, hi => by
    simp only [sanE, metaE, putE]
    obtain ⟨h1, e1⟩ := sanE_spec a s hi
    exact ⟨h1, fun g hg => by rw [e1 g hg]⟩
  | .select c t f, s, hi => by
    simp only [sanE, metaE, putE]
    obtain ⟨h1, e1⟩ := sanE_spec c s hi
    obtain ⟨h2, e2⟩ := sanE_spec t _ h1.inv
    obtain ⟨h3, e3⟩ := sanE_spec f _ h2.inv
    exact ⟨(h1.append h2).append h3, fun g hg => by rw [e1 g ((hg.le h3.le).le h2.le), e2 g (hg.le h3.le), e3 g hg]⟩
  | .call fn as, s, hi => by
    simp only [sanE, metaE, putE]
    split
    · exact ⟨.var hi _, fun g hg => congrArg Expr.v (hg (_, _) (var_spec hi (.call fn as)).2.2).symm⟩
    · obtain ⟨h1, e1⟩ := sanA_spec as s hi
      exact ⟨h1, fun g hg => by rw [e1 g hg]⟩
theorem sanA_spec {n : Nat} : ∀ (es : Exprs) (s : San), s.Inv n → Step n s (sanA es s).2 (metaA es) ∧ ∀ g, Maps g (sanA es s).2 → (sanA es s).1 = putA g es
  | .nil, s, hi => by simp only [sanA, metaA, putA]; exact ⟨.nil hi, fun _ _ => trivial⟩
  | .cons e es, s, hi => by
    simp only [sanA, metaA, putA]
    obtain ⟨h1, e1⟩ := sanE_spec e s hi
    obtain ⟨h2, e2⟩ := sanA_spec es _ h1.inv
    exact ⟨h1.append h2, fun g hg => by rw [e1 g (hg.le h2.le), e2 g hg]⟩
theorem sanB_spec {n : Nat} : ∀ (bs : Binds) (s : San), s.Inv n → Step n s (sanB bs s).2 (metaB bs) ∧ ∀ g, Maps g (sanB bs s).2 → (sanB bs s).1 = putB g bs
  | .nil, s, hi => by simp only [sanB, metaB, putB]; exact ⟨.nil hi, fun _ _ => trivial⟩
  | .cons x e bs, s, hi => by
    simp only [sanB, metaB, putB]
    obtain ⟨h1, e1⟩ := sanE_spec e s hi
    obtain ⟨h2, e2⟩ := sanB_spec bs _ h1.inv
    exact ⟨h1.append h2, fun g hg => by rw [e1 g (hg.le h2.le), e2 g hg]⟩
end

theorem sanL_spec {n : Nat} : ∀ (es : List Expr) (s : San), s.Inv n →
    Step n s (sanL es s).2 (es.flatMap metaE) ∧ ∀ g, Maps g (sanL es s).2 → (sanL es s).1 = es.map (putE g)
  | [], s, hi => ⟨.nil hi, fun _ _ => rfl⟩
  | e :: es, s, hi => by
    obtain ⟨h1, e1⟩ := sanE_spec e s hi
    obtain ⟨h2, e2⟩ := sanL_spec es _ h1.inv
    simp only [sanL, List.flatMap_cons, List.map_cons]
    exact ⟨h1.append h2, fun g hg => by rw [e1 g (hg.le h2.le), e2 g hg]⟩

theorem key_unique : ∀ {L : List (Expr × Nat)}, L.Pairwise (fun a b => a.1 ≠ b.1) → ∀ p q, p ∈ L → q ∈ L → p.1 = q.1 → p = q
  | [], _, p, _, hp, _, _ => by simp at hp
  | a :: L, h, p, q, hp, hq, e => by
    rw [List.pairwise_cons] at h
    rcases List.mem_cons.1 hp with rfl | hp' <;> rcases List.mem_cons.1 hq with rfl | hq'
    · rfl
    · exact absurd e (h.1 q hq')
    · exact absurd e.symm (h.1 p hp')
    · exact key_unique h.2 p q hp' hq' e

/-- The variables of a map. -/
theorem maps_exists {n : Nat} {s : San} (hi : s.Inv n) : ∃ g, Maps g s := by
  refine ⟨fun e => ((s.repl.find? fun p => decide (p.1 = e)).map Prod.snd).getD 0, fun p hp => ?_⟩
  cases h : s.repl.find? (fun q => decide (q.1 = p.1)) with
  | none =>
    rw [List.find?_eq_none] at h
    simpa using h p hp
  | some q =>
    have h1 := List.mem_of_find?_eq_some h
    have h2 := List.find?_some h
    simp only [decide_eq_true_eq] at h2
    simp only [h, Option.map_some, Option.getD_some]
    rw [key_unique hi.keys q p h1 hp h2]

/-! ## Values -/

variable {buf : Nat → Bool} {glob : Nat → Prop} {n : Nat} {g : Expr → Nat}

theorem putE_defined (e : Expr) : (putE g e).defined = e.defined := by
  cases e <;> simp only [putE] <;> first | rfl | (split <;> rfl)

/-- The environments: `ρ` in the pipeline, `ρ'` as the user sees it. -/
structure Rel (w : World) (l : List Ev) (buf : Nat → Bool) (glob : Nat → Prop) (n : Nat) (g : Expr → Nat) (K : List Expr) (ρ ρ' : SEnv) : Prop where
  same : ∀ y, y < n → buf y = false → ρ y = ρ' y
  val : ∀ k ∈ K, evalS w l ρ (.v (g k)) = evalS w l ρ' k
  low : ∀ k ∈ K, n ≤ g k
  free : ∀ k ∈ K, ∀ y, FreeIn y k → buf y = true ∨ glob y

theorem Rel.set {l : List Ev} {K : List Expr} {ρ ρ' : SEnv} (h : Rel w l buf glob n g K ρ ρ') {x : Nat} (hx : x < n) (hb : buf x = false) (hg : ¬ glob x) (v : Val) :
    Rel w l buf glob n g K (ρ.set x v) (ρ'.set x v) where
  same := by
    intro y hy hyb
    simp only [SEnv.set]
    split
    · rfl
    · exact h.same y hy hyb
  val := by
    intro k hk
    have e1 : evalS w l (ρ.set x v) (.v (g k)) = evalS w l ρ (.v (g k)) := by
      have := h.low k hk
      have hne : g k ≠ x := by omega
      simp only [Expr.v, evalS, SEnv.set, if_neg hne]
    have e2 : evalS w l (ρ'.set x v) k = evalS w l ρ' k := evalS_free fun y hy => by
      have hne : y ≠ x := by
        rintro rfl
        rcases h.free k hk y hy with h1 | h1
        · rw [hb] at h1; cases h1
        · exact hg h1
      simp only [SEnv.set, if_neg hne]
    rw [e1, e2, h.val k hk]
  low := h.low
  free := h.free

theorem putE_bindable (x : Nat) (e : Expr) (v : Val) (hv : ∀ b, v = .buf b → ∀ y d f, e = .var y f d → f = .none)
    (hv' : ∀ b, v = .buf b → ∀ fn as, e = .call fn as → fn ≠ .bufferAt) : bindable x (putE g e) v = bindable x e v := by
  cases v with
  | undef => rfl
  | int i => rfl
  | buf b =>
    cases e with
    | var y f d =>
      obtain rfl := hv b rfl y d f rfl
      simp only [putE, if_true]
    | call fn as => simp only [putE, if_neg (hv' b rfl fn as rfl), bindable]
    | _ => rfl

theorem evalS_var_int {l : List Ev} {ρ : SEnv} {y : Nat} {f : Field} {d : Int} {b : Buf} (h : evalS w l ρ (.var y f d) = some (.buf b)) : f = .none := by
  cases f <;> first | rfl | (simp only [evalS] at h; split at h <;> simp at h)

theorem evalS_call_int {l : List Ev} {ρ : SEnv} {fn : Fn} {as : Exprs} {b : Buf} : evalS w l ρ (.call fn as) ≠ some (.buf b) := by
  intro h
  cases fn
  case abs =>
    cases as with
    | nil => simp [evalS] at h
    | cons e es =>
      cases es with
      | nil =>
        simp only [evalS, Option.bind_eq_some_iff, Option.map_eq_some_iff] at h
        obtain ⟨_, _, _, _, h⟩ := h; cases h
      | cons e es => simp [evalS] at h
  all_goals
    simp only [evalS, Fn.isHost, if_true, Option.map_eq_some_iff, Option.bind_eq_some_iff] at h
    first
      | (obtain ⟨_, _, _, _, _, _, h⟩ := h; cases h)
      | (obtain ⟨_, _, h⟩ := h; cases h)
      | (simp at h)

mutual
theorem putE_eval {l : List Ev} {K : List Expr} : ∀ (e : Expr) (ρ ρ' : SEnv), UserE buf glob n e → (∀ k ∈ metaE e, k ∈ K) → Rel w l buf glob n g K ρ ρ' →
    evalS w l ρ (putE g e) = evalS w l ρ' e
  | .undef, ρ, ρ', _, _, _ => by simp only [putE, evalS]
  | .const c, ρ, ρ', _, _, _ => by simp only [putE, evalS]
  | .var x f d, ρ, ρ', hu, hk, hr => by
    simp only [UserE] at hu
    simp only [putE]
    split
    · rename_i hf
      subst hf
      simp only [evalS, hr.same x hu.1 (hu.2.1 rfl)]
    · rename_i hf
      exact hr.val _ (hk _ (by simp [metaE, hf]))
  | .lets bs b, ρ, ρ', hu, hk, hr => by
    simp only [UserE] at hu
    simp only [metaE, List.mem_append] at hk
    simp only [putE, evalS]
    have := putB_eval bs ρ ρ' hu.1 (fun k h => hk k (.inl h)) hr
    rcases this with ⟨h1, h2⟩ | ⟨a, c, h1, h2, h3⟩
    · rw [h1, h2]; rfl
    · rw [h1, h2]
      exact putE_eval b a c hu.2 (fun k h => hk k (.inr h)) h3
  | .bin op a b, ρ, ρ', hu, hk, hr => by
    simp only [UserE] at hu
    simp only [metaE, List.mem_append] at hk
    simp only [putE, evalS]
    rw [putE_eval a ρ ρ' hu.1 (fun k h => hk k (.inl h)) hr, putE_eval b ρ ρ' hu.2 (fun k h => hk k (.inr h)) hr]
  | .not a, ρ, ρ', hu, hk, hr => by
    simp only [UserE] at hu
    simp only [metaE] at hk
    simp only [putE, evalS]
    rw [putE_eval a ρ ρ' hu hk hr]
  | .select c t f, ρ, ρ', hu, hk, hr => by
    simp only [UserE] at hu
    simp only [metaE, List.mem_append] at hk
    simp only [putE, evalS]
    rw [putE_eval c ρ ρ' hu.1 (fun k h => hk k (.inl (.inl h))) hr, putE_eval t ρ ρ' hu.2.1 (fun k h => hk k (.inl (.inr h))) hr,
      putE_eval f ρ ρ' hu.2.2 (fun k h => hk k (.inr h)) hr]
  | .call fn as, ρ, ρ', hu, hk, hr => by
    simp only [putE]
    split
    · rename_i hf
      exact hr.val _ (hk _ (by simp [metaE, hf]))
    · rename_i hf
      simp only [UserE, if_neg hf] at hu
      simp only [metaE, if_neg hf] at hk
      have h1 := putShort_eval as true ρ ρ' hu hk hr
      have h2 := putShort_eval as false ρ ρ' hu hk hr
      have h3 := putA_eval as ρ ρ' hu hk hr
      cases fn
      case abs =>
        cases as with
        | nil => simp only [putA, evalS]
        | cons e es =>
          simp only [UserA] at hu
          simp only [metaA, List.mem_append] at hk
          cases es with
          | nil => simp only [putA, evalS]; rw [putE_eval e ρ ρ' hu.1 (fun k h => hk k (.inl h)) hr]
          | cons e' es => simp only [putA, evalS]
      all_goals simp only [evalS, h1, h2, h3]
theorem putShort_eval {l : List Ev} {K : List Expr} : ∀ (es : Exprs) (c : Bool) (ρ ρ' : SEnv), UserA buf glob n es → (∀ k ∈ metaA es, k ∈ K) → Rel w l buf glob n g K ρ ρ' →
    evalShortS w l c ρ (putA g es) = evalShortS w l c ρ' es
  | .nil, c, ρ, ρ', _, _, _ => by simp only [putA, evalShortS]
  | .cons e es, c, ρ, ρ', hu, hk, hr => by
    simp only [UserA] at hu
    simp only [metaA, List.mem_append] at hk
    simp only [putA, evalShortS]
    rw [putE_eval e ρ ρ' hu.1 (fun k h => hk k (.inl h)) hr, putShort_eval es c ρ ρ' hu.2 (fun k h => hk k (.inr h)) hr]
theorem putA_eval {l : List Ev} {K : List Expr} : ∀ (es : Exprs) (ρ ρ' : SEnv), UserA buf glob n es → (∀ k ∈ metaA es, k ∈ K) → Rel w l buf glob n g K ρ ρ' →
    evalArgsS w l ρ (putA g es) = evalArgsS w l ρ' es
  | .nil, ρ, ρ', _, _, _ => by simp only [putA, evalArgsS]
  | .cons e es, ρ, ρ', hu, hk, hr => by
    simp only [UserA] at hu
    simp only [metaA, List.mem_append] at hk
    simp only [putA, evalArgsS, putE_defined]
    rw [putE_eval e ρ ρ' hu.1 (fun k h => hk k (.inl h)) hr, putA_eval es ρ ρ' hu.2 (fun k h => hk k (.inr h)) hr]
theorem putB_eval {l : List Ev} {K : List Expr} : ∀ (bs : Binds) (ρ ρ' : SEnv), UserB buf glob n bs → (∀ k ∈ metaB bs, k ∈ K) → Rel w l buf glob n g K ρ ρ' →
    (evalBindsS w l ρ (putB g bs) = none ∧ evalBindsS w l ρ' bs = none) ∨
      ∃ a c, evalBindsS w l ρ (putB g bs) = some a ∧ evalBindsS w l ρ' bs = some c ∧ Rel w l buf glob n g K a c
  | .nil, ρ, ρ', _, _, hr => .inr ⟨ρ, ρ', by simp only [putB, evalBindsS], by simp only [evalBindsS], hr⟩
  | .cons x e bs, ρ, ρ', hu, hk, hr => by
    simp only [UserB] at hu
    simp only [metaB, List.mem_append] at hk
    simp only [putB, evalBindsS]
    rw [putE_eval e ρ ρ' hu.1 (fun k h => hk k (.inl h)) hr]
    cases hv : evalS w l ρ' e with
    | none => exact .inl ⟨rfl, rfl⟩
    | some v =>
      simp only [Option.bind_some]
      have hb : bindable x (putE g e) v = bindable x e v := by
        refine putE_bindable x e v ?_ ?_
        · rintro b rfl y d f rfl
          exact evalS_var_int hv
        · rintro b rfl fn as rfl
          exact absurd hv evalS_call_int
      rw [hb]
      split
      · exact putB_eval bs _ _ hu.2.2.2.2 (fun k h => hk k (.inr h)) (hr.set hu.2.1 hu.2.2.1 hu.2.2.2.1 v)
      · exact .inl ⟨rfl, rfl⟩
end

/-! ## The start of the pipeline -/

/-- The lets of the replacements. -/
theorem define_eval {l : List Ev} : ∀ (L : List (Expr × Nat)) (ρ0 : SEnv), L.Pairwise (fun a b => a.2 ≠ b.2) →
    (∀ p ∈ L, ∀ q ∈ L, ¬ FreeIn q.2 p.1) → (∀ p ∈ L, ∃ i, evalS w l ρ0 p.1 = some (.int i)) →
    ∃ ρ1, evalBindsS w l ρ0 (.ofList (L.map fun p => (p.2, p.1))) = some ρ1 ∧ (∀ y, (∀ p ∈ L, p.2 ≠ y) → ρ1 y = ρ0 y) ∧
      ∀ p ∈ L, evalS w l ρ0 p.1 = some (ρ1 p.2)
  | [], ρ0, _, _, _ => ⟨ρ0, by simp [Binds.ofList, evalBindsS], fun _ _ => rfl, by simp⟩
  | p :: L, ρ0, hs, hf, hv => by
    rw [List.pairwise_cons] at hs
    obtain ⟨i, hi⟩ := hv p (by simp)
    have hsame : ∀ q ∈ L, evalS w l (ρ0.set p.2 (.int i)) q.1 = evalS w l ρ0 q.1 := fun q hq => evalS_free fun y hy => by
      have : y ≠ p.2 := by rintro rfl; exact hf q (by simp [hq]) p (by simp) hy
      simp only [SEnv.set, if_neg this]
    obtain ⟨ρ1, h1, h2, h3⟩ := define_eval L (ρ0.set p.2 (.int i)) hs.2 (fun a ha b hb => hf a (by simp [ha]) b (by simp [hb]))
      (fun q hq => by rw [hsame q hq]; exact hv q (by simp [hq]))
    refine ⟨ρ1, ?_, ?_, ?_⟩
    · simp only [List.map_cons, Binds.ofList, evalBindsS, hi, Option.bind_some, bindable, if_true]
      exact h1
    · intro y hy
      rw [h2 y fun q hq => hy q (by simp [hq])]
      have : y ≠ p.2 := Ne.symm (hy p (by simp))
      simp only [SEnv.set, if_neg this]
    · intro q hq
      rcases List.mem_cons.1 hq with rfl | hq
      · rw [hi, h2 _ fun r hr => Ne.symm (hs.1 r hr)]
        simp [SEnv.set]
      · rw [← hsame q hq, h3 q hq]

mutual
theorem meta_free : ∀ (e : Expr), UserE buf glob n e → ∀ k ∈ metaE e, k.LogFree ∧ ∀ y, FreeIn y k → y < n ∧ (buf y = true ∨ glob y)
  | .undef, _, k, hk => by simp [metaE] at hk
  | .const c, _, k, hk => by simp [metaE] at hk
  | .var x f d, hu, k, hk => by
    simp only [UserE] at hu
    simp only [metaE] at hk
    split at hk
    · simp at hk
    · rename_i hf
      simp only [List.mem_singleton] at hk
      subst hk
      refine ⟨trivial, fun y hy => ?_⟩
      simp only [FreeIn] at hy
      subst hy
      refine ⟨hu.1, .inl ?_⟩
      by_contra hb
      exact hf (hu.2.2 (by simpa using hb))
  | .lets bs b, hu, k, hk => by
    simp only [UserE] at hu
    simp only [metaE, List.mem_append] at hk
    rcases hk with hk | hk
    · exact metaB_free bs hu.1 k hk
    · exact meta_free b hu.2 k hk
  | .bin op a b, hu, k, hk => by
    simp only [UserE] at hu
    simp only [metaE, List.mem_append] at hk
    rcases hk with hk | hk
    · exact meta_free a hu.1 k hk
    · exact meta_free b hu.2 k hk
  | .not a, hu, k, hk => by
    simp only [UserE] at hu
    simp only [metaE] at hk
    exact meta_free a hu k hk
  | .select c t f, hu, k, hk => by
    simp only [UserE] at hu
    simp only [metaE, List.mem_append] at hk
    rcases hk with (hk | hk) | hk
    · exact meta_free c hu.1 k hk
    · exact meta_free t hu.2.1 k hk
    · exact meta_free f hu.2.2 k hk
  | .call fn as, hu, k, hk => by
    simp only [UserE] at hu
    simp only [metaE] at hk
    split at hk
    · rename_i hf
      subst hf
      rw [if_pos rfl] at hu
      simp only [List.mem_singleton] at hk
      subst hk
      exact ⟨by simp only [Expr.LogFree]; exact ⟨rfl, hu.1⟩, fun y hy => hu.2 y (by simpa only [FreeIn] using hy)⟩
    · rename_i hf
      rw [if_neg hf] at hu
      exact metaA_free as hu k hk
theorem metaA_free : ∀ (es : Exprs), UserA buf glob n es → ∀ k ∈ metaA es, k.LogFree ∧ ∀ y, FreeIn y k → y < n ∧ (buf y = true ∨ glob y)
  | .nil, _, k, hk => by simp [metaA] at hk
  | .cons e es, hu, k, hk => by
    simp only [UserA] at hu
    simp only [metaA, List.mem_append] at hk
    rcases hk with hk | hk
    · exact meta_free e hu.1 k hk
    · exact metaA_free es hu.2 k hk
theorem metaB_free : ∀ (bs : Binds), UserB buf glob n bs → ∀ k ∈ metaB bs, k.LogFree ∧ ∀ y, FreeIn y k → y < n ∧ (buf y = true ∨ glob y)
  | .nil, _, k, hk => by simp [metaB] at hk
  | .cons x e bs, hu, k, hk => by
    simp only [UserB] at hu
    simp only [metaB, List.mem_append] at hk
    rcases hk with hk | hk
    · exact meta_free e hu.1 k hk
    · exact metaB_free bs hu.2.2.2.2 k hk
end

/-- C61: the expressions of the user, in the scope of any declarations of the pipeline, have the values that they have if the inputs and outputs are as at the
start of the pipeline. -/
theorem sanitize_correct {es es' : List Expr} {s : San} {ρ0 : SEnv} {l : List Ev} (h : sanL es ⟨[], n⟩ = (es', s)) (hu : ∀ e ∈ es, UserE buf glob n e)
    (hk : ∀ e ∈ es, ∀ k ∈ metaE e, ∃ i, evalS w l ρ0 k = some (.int i)) :
    ∃ ρ1 : SEnv, (∀ body, sem w false (s.define body) ρ0 l = sem w false body ρ1 l) ∧ (∀ y < n, ρ1 y = ρ0 y) ∧
      ∀ (ρ : SEnv) (l' : List Ev), (∀ y, n ≤ y → y < s.next → ρ y = ρ1 y) → (∀ y, glob y → ρ y = ρ0 y) →
        es'.map (evalS w l' ρ) = es.map (evalS w l' (atStart buf ρ0 ρ)) := by
  have hi : San.Inv n ⟨[], n⟩ := ⟨.nil, .nil, by simp, by simp, Nat.le_refl n⟩
  obtain ⟨hS, hP⟩ := sanL_spec es _ hi
  rw [h] at hS hP
  simp only at hS hP
  obtain ⟨g, hg⟩ := maps_exists hS.inv
  obtain rfl := hP g hg
  have key : ∀ p ∈ s.repl, ∃ e ∈ es, p.1 ∈ metaE e := by
    intro p hp
    rcases hS.only p hp with h | h
    · simp at h
    · simpa using h
  obtain ⟨ρ1, h1, h2, h3⟩ := define_eval (w := w) (l := l) s.repl ρ0 hS.inv.syms
    (fun p hp q hq hf => by
      obtain ⟨e, he, hm⟩ := key p hp
      have := ((meta_free e (hu e he) _ hm).2 _ hf).1
      have := hS.inv.low q hq
      omega)
    (fun p hp => by
      obtain ⟨e, he, hm⟩ := key p hp
      exact hk e he _ hm)
  refine ⟨ρ1, fun body => ?_, fun y hy => h2 y fun p hp => ?_, fun ρ l' hρ hgl => ?_⟩
  · simp only [San.define, sem, Bool.false_and, if_neg Bool.false_ne_true, h1, Option.bind_some]
  · have := hS.inv.low p hp; omega
  · rw [List.map_map]
    refine List.map_congr_left fun e he => ?_
    refine putE_eval (K := s.repl.map Prod.fst) (glob := glob) (n := n) e ρ _ (hu e he) ?_ ?_
    · intro k hm
      obtain ⟨m, hm'⟩ := hS.keys k (List.mem_flatMap.2 ⟨e, he, hm⟩)
      exact List.mem_map.2 ⟨_, hm', rfl⟩
    · refine ⟨fun y _ hb => by simp [atStart, hb], ?_, ?_, ?_⟩
      · intro k hkm
        obtain ⟨p, hp, rfl⟩ := List.mem_map.1 hkm
        obtain ⟨e', he', hm⟩ := key p hp
        obtain ⟨hlf, hfr⟩ := meta_free e' (hu e' he') _ hm
        have ev : evalS w l' (atStart buf ρ0 ρ) p.1 = some (ρ1 p.2) := by
          rw [← h3 p hp, ← evalS_log p.1 ρ0 (l := l') (l' := l) (.inr hlf)]
          refine evalS_free fun y hy => ?_
          rcases (hfr y hy).2 with hb | hb
          · simp [atStart, hb]
          · simp only [atStart]
            split
            · rfl
            · exact hgl y hb
        rw [ev, hg p hp]
        have e2 := hρ p.2 (hS.inv.low p hp) (hS.inv.high p hp)
        obtain ⟨i, hi⟩ := hk e' he' _ hm
        have e3 : ρ1 p.2 = .int i := by have := h3 p hp; rw [hi] at this; exact (Option.some.inj this).symm
        simp only [Expr.v, evalS, e2, e3]
      · intro k hkm
        obtain ⟨p, hp, rfl⟩ := List.mem_map.1 hkm
        rw [hg p hp]; exact hS.inv.low p hp
      · intro k hkm y hy
        obtain ⟨p, hp, rfl⟩ := List.mem_map.1 hkm
        obtain ⟨e', he', hm⟩ := key p hp
        exact ((meta_free e' (hu e' he') _ hm).2 y hy).2

mutual
theorem putE_free (hn : ∀ y, buf y = true → y < n) : ∀ (e : Expr), UserE buf glob n e → (∀ k ∈ metaE e, n ≤ g k) → ∀ y, FreeIn y (putE g e) → buf y = false
  | .undef, _, _, y, hy => by simp only [putE, FreeIn] at hy
  | .const c, _, _, y, hy => by simp only [putE, FreeIn] at hy
  | .var x f d, hu, hk, y, hy => by
    simp only [UserE] at hu
    simp only [putE] at hy
    split at hy
    · rename_i hf
      simp only [FreeIn] at hy
      subst hy
      exact hu.2.1 hf
    · rename_i hf
      simp only [Expr.v, FreeIn] at hy
      have := hk (.var x f d) (by simp [metaE, hf])
      by_contra hb
      have := hn y (by simpa using hb)
      omega
  | .lets bs b, hu, hk, y, hy => by
    simp only [UserE] at hu
    simp only [metaE, List.mem_append] at hk
    simp only [putE, FreeIn] at hy
    rcases hy with hy | hy
    · exact putB_free hn bs hu.1 (fun k h => hk k (.inl h)) y hy
    · exact putE_free hn b hu.2 (fun k h => hk k (.inr h)) y hy.2
  | .bin op a b, hu, hk, y, hy => by
    simp only [UserE] at hu
    simp only [metaE, List.mem_append] at hk
    simp only [putE, FreeIn] at hy
    rcases hy with hy | hy
    · exact putE_free hn a hu.1 (fun k h => hk k (.inl h)) y hy
    · exact putE_free hn b hu.2 (fun k h => hk k (.inr h)) y hy
  | .not a, hu, hk, y, hy => by
    simp only [UserE] at hu
    simp only [metaE] at hk
    simp only [putE, FreeIn] at hy
    exact putE_free hn a hu hk y hy
  | .select c t f, hu, hk, y, hy => by
    simp only [UserE] at hu
    simp only [metaE, List.mem_append] at hk
    simp only [putE, FreeIn] at hy
    rcases hy with hy | hy | hy
    · exact putE_free hn c hu.1 (fun k h => hk k (.inl (.inl h))) y hy
    · exact putE_free hn t hu.2.1 (fun k h => hk k (.inl (.inr h))) y hy
    · exact putE_free hn f hu.2.2 (fun k h => hk k (.inr h)) y hy
  | .call fn as, hu, hk, y, hy => by
    simp only [UserE] at hu
    simp only [putE] at hy
    split at hy
    · rename_i hf
      simp only [Expr.v, FreeIn] at hy
      have := hk (.call fn as) (by simp [metaE, hf])
      by_contra hb
      have := hn y (by simpa using hb)
      omega
    · rename_i hf
      rw [if_neg hf] at hu
      simp only [metaE, if_neg hf] at hk
      simp only [FreeIn] at hy
      exact putA_free hn as hu hk y hy
theorem putA_free (hn : ∀ y, buf y = true → y < n) : ∀ (es : Exprs), UserA buf glob n es → (∀ k ∈ metaA es, n ≤ g k) → ∀ y, FreeInArgs y (putA g es) → buf y = false
  | .nil, _, _, y, hy => by simp only [putA, FreeInArgs] at hy
  | .cons e es, hu, hk, y, hy => by
    simp only [UserA] at hu
    simp only [metaA, List.mem_append] at hk
    simp only [putA, FreeInArgs] at hy
    rcases hy with hy | hy
    · exact putE_free hn e hu.1 (fun k h => hk k (.inl h)) y hy
    · exact putA_free hn es hu.2 (fun k h => hk k (.inr h)) y hy
theorem putB_free (hn : ∀ y, buf y = true → y < n) : ∀ (bs : Binds), UserB buf glob n bs → (∀ k ∈ metaB bs, n ≤ g k) → ∀ y, FreeInBinds y (putB g bs) → buf y = false
  | .nil, _, _, y, hy => by simp only [putB, FreeInBinds] at hy
  | .cons x e bs, hu, hk, y, hy => by
    simp only [UserB] at hu
    simp only [metaB, List.mem_append] at hk
    simp only [putB, FreeInBinds] at hy
    rcases hy with hy | hy
    · exact putE_free hn e hu.1 (fun k h => hk k (.inl h)) y hy
    · exact putB_free hn bs hu.2.2.2.2 (fun k h => hk k (.inr h)) y hy.2
end

/-- C61: the sanitized expressions do not use the inputs and outputs of the pipeline, so that no crop or slice of them can change the values. -/
theorem sanitize_free {es es' : List Expr} {s : San} (h : sanL es ⟨[], n⟩ = (es', s)) (hu : ∀ e ∈ es, UserE buf glob n e) (hn : ∀ y, buf y = true → y < n) :
    ∀ e' ∈ es', ∀ y, FreeIn y e' → buf y = false := by
  have hi : San.Inv n ⟨[], n⟩ := ⟨.nil, .nil, by simp, by simp, Nat.le_refl n⟩
  obtain ⟨hS, hP⟩ := sanL_spec es _ hi
  rw [h] at hS hP
  simp only at hS hP
  obtain ⟨g, hg⟩ := maps_exists hS.inv
  obtain rfl := hP g hg
  intro e' he' y hy
  obtain ⟨e, he, rfl⟩ := List.mem_map.1 he'
  refine putE_free hn e (hu e he) (fun k hk => ?_) y hy
  obtain ⟨m, hm⟩ := hS.keys k (List.mem_flatMap.2 ⟨e, he, hk⟩)
  rw [hg _ hm]; exact hS.inv.low _ hm

/-! ## Examples

Symbols: `x0` and `x1` are the input and the output, `x2` a let of the pipeline, `x3` a dimension. -/

/-- The inputs and outputs. -/
def exBuf : Nat → Bool := fun x => decide (x < 2)
/-- The lets of the pipeline. -/
def exGlob : Nat → Prop := fun x => x = 2
/-- The expressions: `x3 + buffer_min(x1, 0)`, `select(x2 < buffer_max(x0, 1), buffer_min(x1, 0), let x4 = x3 * 2 in x4)`, `buffer_at(x0, x2)`. -/
def exEs : List Expr := [.bin .add (.v 3) (.var 1 .min 0),
  .select (.bin .lt (.v 2) (.var 0 .max 1)) (.var 1 .min 0) (.lets (.cons 4 (.bin .mul (.v 3) (.const 2)) .nil) (.v 4)),
  .call .bufferAt (.cons (.v 0) (.cons (.v 2) .nil))]

/-- The same metadata gets the same variable. -/
theorem ex_san : sanL exEs ⟨[], 5⟩ = ([.bin .add (.v 3) (.v 5),
    .select (.bin .lt (.v 2) (.v 6)) (.v 5) (.lets (.cons 4 (.bin .mul (.v 3) (.const 2)) .nil) (.v 4)), .v 7],
    ⟨[(.var 1 .min 0, 5), (.var 0 .max 1, 6), (.call .bufferAt (.cons (.v 0) (.cons (.v 2) .nil)), 7)], 8⟩) := by rfl

theorem ex_user : ∀ e ∈ exEs, UserE exBuf exGlob 5 e := by
  intro e he
  simp only [exEs, List.mem_cons, List.not_mem_nil, or_false] at he
  rcases he with rfl | rfl | rfl
  · simp [UserE, Expr.v, exBuf]
  · simp [UserE, UserB, Expr.v, exBuf, exGlob]
  · simp [UserE, Expr.v, Exprs.LogFree, Expr.LogFree, FreeInArgs, FreeIn]
    rintro y (rfl | rfl)
    · simp [exBuf]
    · simp [exGlob]

/-- The start of the pipeline. -/
def exStart : SEnv := fun x => if x = 0 then .buf ⟨some 1000, 4, [⟨0, 9, 4, -1⟩, ⟨0, 7, 40, -1⟩]⟩ else if x = 1 then .buf ⟨some 5000, 4, [⟨3, 8, 4, -1⟩]⟩ else if x = 2 then .int 6 else .undef

theorem ex_meta (w : World) : ∀ e ∈ exEs, ∀ k ∈ metaE e, ∃ i, evalS w [] exStart k = some (.int i) := by
  intro e he k hk
  simp only [exEs, List.mem_cons, List.not_mem_nil, or_false] at he
  rcases he with rfl | rfl | rfl
  · simp [metaE, Expr.v] at hk; subst hk; exact ⟨3, rfl⟩
  · simp [metaE, metaB, Expr.v] at hk
    rcases hk with rfl | rfl
    · exact ⟨7, rfl⟩
    · exact ⟨3, rfl⟩
  · simp [metaE] at hk; subst hk; exact ⟨1024, rfl⟩

/-- The hypotheses of `sanitize_correct` hold: in a crop of `x1` to [5, 6], at `x3 = 5`, the value of `x3 + buffer_min(x1, 0)` is `5 + 3`. -/
example (w : World) : ∃ ρ1 : SEnv, (∀ body, sem w false ((sanL exEs ⟨[], 5⟩).2.define body) exStart [] = sem w false body ρ1 []) ∧ (∀ y < 5, ρ1 y = exStart y) ∧
    ∀ (ρ : SEnv) (l' : List Ev), (∀ y, 5 ≤ y → y < 8 → ρ y = ρ1 y) → (∀ y, exGlob y → ρ y = exStart y) →
      (sanL exEs ⟨[], 5⟩).1.map (evalS w l' ρ) = exEs.map (evalS w l' (atStart exBuf exStart ρ)) :=
  sanitize_correct (s := (sanL exEs ⟨[], 5⟩).2) rfl ex_user (ex_meta w)

/-- An address whose index is a dimension is moved out of the scope of the dimension: the pipeline evaluates a variable that is not defined. -/
theorem buffer_at_counterexample (w : World) (body : Stmt) :
    sanL [.call .bufferAt (.cons (.v 0) (.cons (.v 3) .nil))] ⟨[], 5⟩ = ([.v 5], ⟨[(.call .bufferAt (.cons (.v 0) (.cons (.v 3) .nil)), 5)], 6⟩) ∧
    evalS w [] (exStart.set 3 (.int 2)) (.call .bufferAt (.cons (.v 0) (.cons (.v 3) .nil))) = some (.int 1008) ∧
    sem w false ((sanL [.call .bufferAt (.cons (.v 0) (.cons (.v 3) .nil))] ⟨[], 5⟩).2.define body) exStart [] = none := ⟨rfl, rfl, rfl⟩

end Slinky.SZ
