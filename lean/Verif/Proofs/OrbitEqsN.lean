import Mathlib.Tactic.FinCases
import Verif.Proofs.OrbitEqsL

/-! Graphlets with three or four nodes in which a node of degree one hangs on `v`: isomorphisms that keep it. -/

set_option linter.unusedSectionVars false
set_option linter.unusedSimpArgs false
set_option linter.unusedVariables false

namespace Pymnet

open Py MPlex

section labels
variable {α : Type} [DecidableEq α] {L : Finset α}

def NoLayer (L : Finset α) (P : α → Prop) : Prop := ∀ x ∈ L, ¬ P x

theorem MapsSet.noLayer {f : α → α} (hf : Set.BijOn f {x | x ∈ L} {x | x ∈ L}) {P Q : α → Prop} (h : MapsSet L f P Q) : NoLayer L P ↔ NoLayer L Q := by
  constructor
  · intro k y hy hq
    obtain ⟨x, hx, rfl⟩ := hf.surjOn hy
    exact k x hx ((h x hx).2 hq)
  · intro k x hx hp
    exact k _ (hf.mapsTo hx) ((h x hx).1 hp)

theorem NoLayer.maps {f : α → α} (hf : Set.BijOn f {x | x ∈ L} {x | x ∈ L}) {P Q : α → Prop} (h : NoLayer L P) (h' : NoLayer L Q) : MapsSet L f P Q :=
  fun x hx => ⟨fun k => absurd k (h x hx), fun k => absurd k (h' _ (hf.mapsTo hx))⟩

/-- the layers of the links of a graph with `n` numbered nodes -/
structure Lab (n : Nat) (L : Finset α) (lab : Fin n → Fin n → α → Prop) : Prop where
  symm : ∀ i j, ∀ x ∈ L, lab i j x ↔ lab j i x
  self : ∀ i, NoLayer L (lab i i)

theorem Lab.noLayer {n : Nat} {lab : Fin n → Fin n → α → Prop} (h : Lab n L lab) (i j : Fin n) : NoLayer L (lab i j) ↔ NoLayer L (lab j i) :=
  ⟨fun k x hx hp => k x hx ((h.symm i j x hx).2 hp), fun k x hx hp => k x hx ((h.symm i j x hx).1 hp)⟩

theorem MapsSet.symm' {n : Nat} {lab lab' : Fin n → Fin n → α → Prop} (h : Lab n L lab) (h' : Lab n L lab') {f : α → α}
    (hf : Set.BijOn f {x | x ∈ L} {x | x ∈ L}) {i j i' j' : Fin n} (k : MapsSet L f (lab i j) (lab' i' j')) : MapsSet L f (lab j i) (lab' j' i') :=
  fun x hx => (h.symm j i x hx).trans ((k x hx).trans (h'.symm i' j' _ (hf.mapsTo hx)))

/-- four nodes: 1 hangs on 0 -/
structure Hang4 (L : Finset α) (lab lab' : Fin 4 → Fin 4 → α → Prop) (τ : α → α) : Prop where
  ok : Lab 4 L lab
  ok' : Lab 4 L lab'
  bij : Set.BijOn τ {x | x ∈ L} {x | x ∈ L}
  same : ∀ x ∈ L, lab 0 1 x ↔ lab' 0 1 x
  some : ¬ NoLayer L (lab 0 1)
  e12 : NoLayer L (lab 1 2) ∧ NoLayer L (lab' 1 2)
  e13 : NoLayer L (lab 1 3) ∧ NoLayer L (lab' 1 3)
  t02 : MapsSet L τ (lab 0 2) (lab' 0 2)
  t03 : MapsSet L τ (lab 0 3) (lab' 0 3)
  t23 : MapsSet L τ (lab 2 3) (lab' 2 3)
  conn : ¬ (NoLayer L (lab 0 2) ∧ NoLayer L (lab 0 3))

theorem Hang4.all {lab lab' : Fin 4 → Fin 4 → α → Prop} {τ : α → α} (h : Hang4 L lab lab' τ) {g : α → α} {s : Fin 4 → Fin 4}
    (hg : Set.BijOn g {x | x ∈ L} {x | x ∈ L}) (h01 : MapsSet L g (lab 0 1) (lab' (s 0) (s 1)))
    (h02 : MapsSet L g (lab 0 2) (lab' (s 0) (s 2))) (h03 : MapsSet L g (lab 0 3) (lab' (s 0) (s 3)))
    (h12 : MapsSet L g (lab 1 2) (lab' (s 1) (s 2))) (h13 : MapsSet L g (lab 1 3) (lab' (s 1) (s 3)))
    (h23 : MapsSet L g (lab 2 3) (lab' (s 2) (s 3))) (i j : Fin 4) : MapsSet L g (lab i j) (lab' (s i) (s j)) := by
  have sy := fun {i j : Fin 4} (k : MapsSet L g (lab i j) (lab' (s i) (s j))) => k.symm' h.ok h.ok' hg
  have se := fun i : Fin 4 => NoLayer.maps hg (h.ok.self i) (h.ok'.self (s i))
  fin_cases i <;> fin_cases j
  · exact se 0
  · exact h01
  · exact h02
  · exact h03
  · exact sy h01
  · exact se 1
  · exact h12
  · exact h13
  · exact sy h02
  · exact sy h12
  · exact se 2
  · exact h23
  · exact sy h03
  · exact sy h13
  · exact sy h23
  · exact se 3

def swap23 : Fin 4 → Fin 4 := ![0, 1, 3, 2]

theorem Hang4.main {lab lab' : Fin 4 → Fin 4 → α → Prop} {τ f : α → α} (h : Hang4 L lab lab' τ) (hf : Set.BijOn f {x | x ∈ L} {x | x ∈ L})
    {σ : Fin 4 → Fin 4} (hσ : Function.Injective σ) (hm : ∀ i j, MapsSet L f (lab i j) (lab' (σ i) (σ j))) (h2 : σ 1 = 2) :
    ∃ (g : α → α) (s : Fin 4 → Fin 4), Set.BijOn g {x | x ∈ L} {x | x ∈ L} ∧ Function.Injective s ∧ s 0 = 0 ∧ s 1 = 1 ∧
      ∀ i j, MapsSet L g (lab i j) (lab' (s i) (s j)) := by
  have hE : ∀ i j, NoLayer L (lab i j) ↔ NoLayer L (lab' (σ i) (σ j)) := fun i j => (hm i j).noLayer hf
  have hE' := h.ok'.noLayer
  have c4 : ∀ k : Fin 4, k = 0 ∨ k = 1 ∨ k = 2 ∨ k = 3 := by decide
  have conn' : ¬ (NoLayer L (lab' 0 2) ∧ NoLayer L (lab' 0 3)) := by
    rw [← h.t02.noLayer h.bij, ← h.t03.noLayer h.bij]; exact h.conn
  have n10 : ¬ NoLayer L (lab' 2 (σ 0)) := by
    rw [← h2, ← hE, h.ok.noLayer]; exact h.some
  have sAA : MapsSet L τ (lab 0 1) (lab' 0 1) → True := fun _ => trivial
  have same' : ∀ {g : α → α}, Set.BijOn g {x | x ∈ L} {x | x ∈ L} → MapsSet L g (lab 0 1) (lab 0 1) → MapsSet L g (lab 0 1) (lab' 0 1) :=
    fun hg k x hx => (k x hx).trans (h.same _ (hg.mapsTo hx))
  have to01 : ∀ {g : α → α} {P : α → Prop}, Set.BijOn g {x | x ∈ L} {x | x ∈ L} → MapsSet L g P (lab' 0 1) → MapsSet L g P (lab 0 1) :=
    fun hg k x hx => (k x hx).trans (h.same _ (hg.mapsTo hx)).symm
  rcases c4 (σ 0) with h0 | h0 | h0 | h0
  · rcases c4 (σ 2) with h3 | h3 | h3 | h3
    · exact absurd (hσ (h3.trans h0.symm)) (by decide)
    · rcases c4 (σ 3) with h4 | h4 | h4 | h4
      · exact absurd (hσ (h4.trans h0.symm)) (by decide)
      · exact absurd (hσ (h4.trans h3.symm)) (by decide)
      · exact absurd (hσ (h4.trans h2.symm)) (by decide)
      · have m01 := hm 0 1
        have m02 := hm 0 2
        have m03 := hm 0 3
        rw [h0, h2] at m01
        rw [h0, h3] at m02
        rw [h0, h4] at m03
        obtain ⟨g, g1, g2, g3, g4⟩ := exists_of_swap hf h.bij m01 (to01 hf m02) m03 h.t02 h.t03
        have e23' : NoLayer L (lab' 2 3) := by rw [← h2, ← h4, ← hE]; exact h.e13.1
        refine ⟨g, id, g1, fun _ _ k => k, rfl, rfl, h.all g1 (same' g1 g2) g3 g4 (NoLayer.maps g1 h.e12.1 h.e12.2)
          (NoLayer.maps g1 h.e13.1 h.e13.2) (NoLayer.maps g1 ((h.t23.noLayer h.bij).2 e23') e23')⟩
    · exact absurd (hσ (h3.trans h2.symm)) (by decide)
    · rcases c4 (σ 3) with h4 | h4 | h4 | h4
      · exact absurd (hσ (h4.trans h0.symm)) (by decide)
      · have m01 := hm 0 1
        have m02 := hm 0 2
        have m03 := hm 0 3
        rw [h0, h2] at m01
        rw [h0, h3] at m02
        rw [h0, h4] at m03
        obtain ⟨g, g1, g2, g3, g4⟩ := exists_of_cycle hf h.bij m01 m02 (to01 hf m03) h.t02 h.t03
        have e23' : NoLayer L (lab' 2 3) := by rw [← h2, ← h3, ← hE]; exact h.e12.1
        refine ⟨g, swap23, g1, by decide, rfl, rfl, h.all g1 (same' g1 g2) g3 g4 (NoLayer.maps g1 h.e12.1 h.e13.2)
          (NoLayer.maps g1 h.e13.1 h.e12.2) (NoLayer.maps g1 ((h.t23.noLayer h.bij).2 e23') ((hE' 2 3).1 e23'))⟩
      · exact absurd (hσ (h4.trans h2.symm)) (by decide)
      · exact absurd (hσ (h4.trans h3.symm)) (by decide)
  · rw [h0, hE'] at n10
    exact absurd h.e12.2 n10
  · exact absurd (hσ (h0.trans h2.symm)) (by decide)
  · rcases c4 (σ 2) with h3 | h3 | h3 | h3
    · have e02 : NoLayer L (lab' 0 2) := by rw [hE', ← h2, ← h3, ← hE]; exact h.e12.1
      have e03 : NoLayer L (lab' 0 3) := by
        rw [hE', ← h3, ← h0, ← hE]
        exact (h.t02.noLayer h.bij).2 e02
      exact absurd ⟨e02, e03⟩ conn'
    · rcases c4 (σ 3) with h4 | h4 | h4 | h4
      · have e02 : NoLayer L (lab' 0 2) := by rw [hE', ← h2, ← h4, ← hE]; exact h.e13.1
        have m01 := (hm 0 1).symm' h.ok h.ok' hf
        have m03 := (hm 0 3).symm' h.ok h.ok' hf
        have m23 := (hm 2 3).symm' h.ok h.ok' hf
        have m01 := hm 0 1
        rw [h0, h2] at m01
        rw [h4, h0] at m03
        rw [h4, h3] at m23
        have m01' : MapsSet L f (lab 0 1) (lab' 2 3) := fun x hx => (m01 x hx).trans (h.ok'.symm 3 2 _ (hf.mapsTo hx))
        have m03' : MapsSet L f (lab 0 3) (lab' 0 3) := fun x hx => (h.ok.symm 0 3 x hx).trans (m03 x hx)
        have m23' : MapsSet L f (lab 2 3) (lab' 0 1) := fun x hx => (h.ok.symm 2 3 x hx).trans (m23 x hx)
        obtain ⟨g, g1, g2, g3, g4⟩ := exists_of_swap hf h.bij m01' (to01 hf m23') m03' h.t23 h.t03
        refine ⟨g, id, g1, fun _ _ k => k, rfl, rfl, h.all g1 (same' g1 g2) (NoLayer.maps g1 ((h.t02.noLayer h.bij).2 e02) e02) g4
          (NoLayer.maps g1 h.e12.1 h.e12.2) (NoLayer.maps g1 h.e13.1 h.e13.2) g3⟩
      · exact absurd (hσ (h4.trans h3.symm)) (by decide)
      · exact absurd (hσ (h4.trans h2.symm)) (by decide)
      · exact absurd (hσ (h4.trans h0.symm)) (by decide)
    · exact absurd (hσ (h3.trans h2.symm)) (by decide)
    · exact absurd (hσ (h3.trans h0.symm)) (by decide)

theorem swap23_swap (i : Fin 4) : swap23 (swap23 i) = i := by revert i; decide

theorem Hang4.swap {lab lab' : Fin 4 → Fin 4 → α → Prop} {τ : α → α} (h : Hang4 L lab lab' τ) :
    Hang4 L (fun i j => lab (swap23 i) (swap23 j)) (fun i j => lab' (swap23 i) (swap23 j)) τ :=
  ⟨⟨fun i j => h.ok.symm _ _, fun i => h.ok.self _⟩, ⟨fun i j => h.ok'.symm _ _, fun i => h.ok'.self _⟩, h.bij, h.same, h.some, h.e13, h.e12, h.t03, h.t02,
    h.t23.symm' h.ok h.ok' h.bij, fun k => h.conn ⟨k.2, k.1⟩⟩

/-- An isomorphism can be replaced by one that keeps 0 and 1. -/
theorem Hang4.keep {lab lab' : Fin 4 → Fin 4 → α → Prop} {τ f : α → α} (h : Hang4 L lab lab' τ) (hf : Set.BijOn f {x | x ∈ L} {x | x ∈ L})
    {σ : Fin 4 → Fin 4} (hσ : Function.Injective σ) (hm : ∀ i j, MapsSet L f (lab i j) (lab' (σ i) (σ j))) :
    ∃ (g : α → α) (s : Fin 4 → Fin 4), Set.BijOn g {x | x ∈ L} {x | x ∈ L} ∧ Function.Injective s ∧ s 0 = 0 ∧ s 1 = 1 ∧
      ∀ i j, MapsSet L g (lab i j) (lab' (s i) (s j)) := by
  have hE : ∀ i j, NoLayer L (lab i j) ↔ NoLayer L (lab' (σ i) (σ j)) := fun i j => (hm i j).noLayer hf
  have c4 : ∀ k : Fin 4, k = 0 ∨ k = 1 ∨ k = 2 ∨ k = 3 := by decide
  have some' : ¬ NoLayer L (lab' 0 1) := fun k => h.some fun x hx hp => k x hx ((h.same x hx).1 hp)
  have conn' : ¬ (NoLayer L (lab' 0 2) ∧ NoLayer L (lab' 0 3)) := by
    rw [← h.t02.noLayer h.bij, ← h.t03.noLayer h.bij]; exact h.conn
  have n01 : ¬ NoLayer L (lab' (σ 1) (σ 0)) := by rw [← hE, h.ok.noLayer]; exact h.some
  rcases c4 (σ 1) with h1 | h1 | h1 | h1
  · have hs : ∀ j, j ≠ 0 → j ≠ σ 0 → NoLayer L (lab' 0 j) := by
      intro j hj hj0
      obtain ⟨m, rfl⟩ := (Finite.injective_iff_surjective.1 hσ) j
      rw [← h1, ← hE]
      rcases c4 m with rfl | rfl | rfl | rfl
      · exact absurd rfl hj0
      · exact absurd h1 hj
      · exact h.e12.1
      · exact h.e13.1
    by_cases h0 : σ 0 = 1
    · exact absurd ⟨hs 2 (by decide) (by rw [h0]; decide), hs 3 (by decide) (by rw [h0]; decide)⟩ conn'
    · exact absurd (hs 1 (by decide) (Ne.symm h0)) some'
  · refine ⟨f, σ, hf, hσ, ?_, h1, hm⟩
    rcases c4 (σ 0) with h0 | h0 | h0 | h0
    · exact h0
    · exact absurd (hσ (h0.trans h1.symm)) (by decide)
    · rw [h1, h0] at n01; exact absurd h.e12.2 n01
    · rw [h1, h0] at n01; exact absurd h.e13.2 n01
  · exact h.main hf hσ hm h1
  · have hsw : Function.Injective swap23 := by decide
    obtain ⟨g, s, g1, g2, g3, g4, g5⟩ := h.swap.main (σ := fun i => swap23 (σ (swap23 i))) hf (hsw.comp (hσ.comp hsw))
      (fun i j => by
        have := hm (swap23 i) (swap23 j)
        rw [swap23_swap, swap23_swap]
        exact this) (by change swap23 (σ 1) = 2; rw [h1]; rfl)
    refine ⟨g, fun i => swap23 (s (swap23 i)), g1, hsw.comp (g2.comp hsw), ?_, ?_, fun i j => ?_⟩
    · change swap23 (s 0) = 0; rw [g3]; rfl
    · change swap23 (s 1) = 1; rw [g4]; rfl
    · have := g5 (swap23 i) (swap23 j)
      rw [swap23_swap, swap23_swap] at this
      exact this

/-- three nodes: 1 hangs on 0 -/
structure Hang3 (L : Finset α) (lab lab' : Fin 3 → Fin 3 → α → Prop) (τ : α → α) : Prop where
  ok : Lab 3 L lab
  ok' : Lab 3 L lab'
  bij : Set.BijOn τ {x | x ∈ L} {x | x ∈ L}
  same : ∀ x ∈ L, lab 0 1 x ↔ lab' 0 1 x
  some : ¬ NoLayer L (lab 0 1)
  e12 : NoLayer L (lab 1 2) ∧ NoLayer L (lab' 1 2)
  t02 : MapsSet L τ (lab 0 2) (lab' 0 2)
  conn : ¬ NoLayer L (lab 0 2)

theorem Hang3.all {lab lab' : Fin 3 → Fin 3 → α → Prop} {τ : α → α} (h : Hang3 L lab lab' τ) {g : α → α} {s : Fin 3 → Fin 3}
    (hg : Set.BijOn g {x | x ∈ L} {x | x ∈ L}) (h01 : MapsSet L g (lab 0 1) (lab' (s 0) (s 1)))
    (h02 : MapsSet L g (lab 0 2) (lab' (s 0) (s 2))) (h12 : MapsSet L g (lab 1 2) (lab' (s 1) (s 2))) (i j : Fin 3) :
    MapsSet L g (lab i j) (lab' (s i) (s j)) := by
  have sy := fun {i j : Fin 3} (k : MapsSet L g (lab i j) (lab' (s i) (s j))) => k.symm' h.ok h.ok' hg
  have se := fun i : Fin 3 => NoLayer.maps hg (h.ok.self i) (h.ok'.self (s i))
  fin_cases i <;> fin_cases j
  · exact se 0
  · exact h01
  · exact h02
  · exact sy h01
  · exact se 1
  · exact h12
  · exact sy h02
  · exact sy h12
  · exact se 2

theorem Hang3.keep {lab lab' : Fin 3 → Fin 3 → α → Prop} {τ f : α → α} (h : Hang3 L lab lab' τ) (hf : Set.BijOn f {x | x ∈ L} {x | x ∈ L})
    {σ : Fin 3 → Fin 3} (hσ : Function.Injective σ) (hm : ∀ i j, MapsSet L f (lab i j) (lab' (σ i) (σ j))) :
    ∃ (g : α → α) (s : Fin 3 → Fin 3), Set.BijOn g {x | x ∈ L} {x | x ∈ L} ∧ Function.Injective s ∧ s 0 = 0 ∧ s 1 = 1 ∧
      ∀ i j, MapsSet L g (lab i j) (lab' (s i) (s j)) := by
  have hE : ∀ i j, NoLayer L (lab i j) ↔ NoLayer L (lab' (σ i) (σ j)) := fun i j => (hm i j).noLayer hf
  have hE' := h.ok'.noLayer
  have c3 : ∀ k : Fin 3, k = 0 ∨ k = 1 ∨ k = 2 := by decide
  have some' : ¬ NoLayer L (lab' 0 1) := fun k => h.some fun x hx hp => k x hx ((h.same x hx).1 hp)
  have conn' : ¬ NoLayer L (lab' 0 2) := by rw [← h.t02.noLayer h.bij]; exact h.conn
  have n01 : ¬ NoLayer L (lab' (σ 1) (σ 0)) := by rw [← hE, h.ok.noLayer]; exact h.some
  have e12 : NoLayer L (lab' (σ 1) (σ 2)) := (hE 1 2).1 h.e12.1
  rcases c3 (σ 1) with h1 | h1 | h1
  · rcases c3 (σ 2) with h2 | h2 | h2
    · exact absurd (hσ (h2.trans h1.symm)) (by decide)
    · rw [h1, h2] at e12; exact absurd e12 some'
    · rw [h1, h2] at e12; exact absurd e12 conn'
  · refine ⟨f, σ, hf, hσ, ?_, h1, hm⟩
    rcases c3 (σ 0) with h0 | h0 | h0
    · exact h0
    · exact absurd (hσ (h0.trans h1.symm)) (by decide)
    · rw [h1, h0] at n01; exact absurd h.e12.2 n01
  · rcases c3 (σ 0) with h0 | h0 | h0
    · rcases c3 (σ 2) with h2 | h2 | h2
      · exact absurd (hσ (h2.trans h0.symm)) (by decide)
      · have m01 := hm 0 1
        have m02 := hm 0 2
        rw [h0, h1] at m01
        rw [h0, h2] at m02
        obtain ⟨g, g1, g2, g3, -⟩ := exists_of_swap (C := fun _ => False) (C' := fun _ => False) hf h.bij m01
          (fun x hx => (m02 x hx).trans (h.same _ (hf.mapsTo hx)).symm) (fun _ _ => Iff.rfl) h.t02 (fun _ _ => Iff.rfl)
        exact ⟨g, id, g1, fun _ _ k => k, rfl, rfl, h.all g1 (fun x hx => (g2 x hx).trans (h.same _ (g1.mapsTo hx))) g3
          (NoLayer.maps g1 h.e12.1 h.e12.2)⟩
      · exact absurd (hσ (h2.trans h1.symm)) (by decide)
    · rw [h1, h0, hE'] at n01; exact absurd h.e12.2 n01
    · exact absurd (hσ (h0.trans h1.symm)) (by decide)

end labels

end Pymnet
