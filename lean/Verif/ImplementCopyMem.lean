import Verif.ImplementCopyMain
import Verif.CopyApi

/-! # C44: the calls that `implement_copy` makes, in memory

`copy` (C26) writes the element of the view of `src` to each element of its part of `dst`, or the padding if there is none. If each call does that, and the
calls are `Implements`, then all of them together do it for the whole of `dst`. -/

namespace Slinky

open Copy (CopiedFrom Separate Apart)

/-- Each call, in order, does what `copy` does: it copies the element of the view, or else the padding at the address `pad` (if there is one). -/
def CallsCopy (pad : Option Int) : List (Buf × Buf) → Copy.Mem → Copy.Mem → Prop
  | [], m, m' => m' = m
  | c :: cs, m, m' => ∃ m1, CopiedFrom c.2 (fun is => c.1.view is <|> pad) m m1 ∧ CallsCopy pad cs m1 m'

/-- What is written by some of the calls. -/
theorem callsCopy_part {pad : Option Int} {F : List Int → Option Int} {D : Buf} (hsep : Separate D (fun x => F x <|> pad)) :
    ∀ {calls : List (Buf × Buf)} {m m' : Copy.Mem}, (∀ c ∈ calls, c.2.elem = D.elem) →
    (∀ c ∈ calls, ∀ is, c.2.InBounds is → ∃ x, D.InBounds x ∧ c.2.address is = D.address x ∧ c.1.view is = F x) → CallsCopy pad calls m m' →
    (∀ c ∈ calls, ∀ is x s, c.2.InBounds is → D.InBounds x → c.2.address is = D.address x → c.1.view is = F x → (F x <|> pad) = some s →
      ∃ a, D.address x = some a ∧ ∀ k, 0 ≤ k → k < D.elem → m' (a + k) = m (s + k)) ∧
    (∀ z, (∀ c ∈ calls, ∀ is x a, c.2.InBounds is → D.InBounds x → c.2.address is = D.address x → c.1.view is = F x → (F x <|> pad).isSome →
      D.address x = some a → ¬ (a ≤ z ∧ z < a + D.elem)) → m' z = m z)
  | [], m, m', _, _, h => by
    cases h
    exact ⟨by simp, fun _ _ => rfl⟩
  | c :: cs, m, m', he, hx, ⟨m1, h1, h2⟩ => by
    obtain ⟨i1, i2⟩ := callsCopy_part hsep (fun c hc => he c (by simp [hc])) (fun c hc => hx c (by simp [hc])) h2
    have hec := he c (by simp)
    -- the elements of `src` and the padding are not changed
    have hsrc : ∀ x s, D.InBounds x → (F x <|> pad) = some s → ∀ k, 0 ≤ k → k < D.elem → m1 (s + k) = m (s + k) := by
      intro x s hxb hs k k0 k1
      refine h1.other _ fun is a his _ ha => ?_
      obtain ⟨y, hy, hya, -⟩ := hx c (by simp) is his
      have := hsep.dst_src y x a s hy hxb (hya ▸ ha) hs
      unfold Apart at this
      rw [hec]
      omega
    refine ⟨?_, ?_⟩
    · intro c' hc' is x s his hxb ha hv hs
      by_cases hin : ∃ c'' ∈ cs, ∃ js, c''.2.InBounds js ∧ c''.2.address js = D.address x ∧ c''.1.view js = F x
      · obtain ⟨c'', g1, js, g2, g3, g4⟩ := hin
        obtain ⟨a, a1, a2⟩ := i1 c'' g1 js x s g2 hxb g3 g4 hs
        exact ⟨a, a1, fun k k0 k1 => (a2 k k0 k1).trans (hsrc x s hxb hs k k0 k1)⟩
      · rcases List.mem_cons.1 hc' with rfl | hc'
        · obtain ⟨a, a1, a2⟩ := h1.elems is s his (by rw [hv]; exact hs)
          rw [ha] at a1
          refine ⟨a, a1, fun k k0 k1 => ?_⟩
          rw [← a2 k k0 (by rw [hec]; exact k1)]
          refine i2 _ fun c'' hc'' js y b hjs hyb hyc hyv _ hb => ?_
          by_cases hxy : y = x
          · subst hxy
            exact absurd ⟨c'', hc'', js, hjs, hyc, hyv⟩ hin
          · have := hsep.dst_dst y x b a hyb hxb hxy hb a1
            unfold Apart at this
            omega
        · exact absurd ⟨c', hc', is, his, ha, hv⟩ hin
    · intro z hz
      rw [i2 z fun c'' hc'' => hz c'' (by simp [hc''])]
      refine h1.other z fun is a his hs ha => ?_
      obtain ⟨x, hxb, hxa, hxv⟩ := hx c (by simp) is his
      rw [hec]
      exact hz c (by simp) is x a his hxb hxa hxv (by rw [← hxv]; exact hs) (hxa ▸ ha)

/-- **C44**: if the calls are the copy, and each does what `copy` does, then in memory all of `dst` is copied from `src` (or from the padding), and nothing else is
changed. -/
theorem implements_copied {calls : List (Buf × Buf)} {S D : Buf} {Y : List Int → List Int} (h : Implements calls S D Y) {pad : Option Int}
    (hsep : Separate D (fun x => S.view (Y x) <|> pad)) {m m' : Copy.Mem} (hm : CallsCopy pad calls m m') : CopiedFrom D (fun x => S.view (Y x) <|> pad) m m' := by
  obtain ⟨h1, h2⟩ := callsCopy_part (F := fun x => S.view (Y x)) hsep (fun c hc => (h.elem c hc).2) h.sub hm
  constructor
  · intro x s hx hs
    obtain ⟨c, hc, is, g1, g2, g3⟩ := h.cover x hx
    exact h1 c hc is x s g1 hx g2 g3 hs
  · intro z hz
    exact h2 z fun c hc is x a his hxb _ _ hs ha => hz x a hxb hs ha

end Slinky
