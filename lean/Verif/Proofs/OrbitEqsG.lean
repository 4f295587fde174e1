import Verif.Proofs.OrbitEqsM

/-! A graphlet that is covered by two others is made by combining them, possibly with some of their layers exchanged. -/

set_option linter.unusedSectionVars false
set_option linter.unusedSimpArgs false
set_option linter.unusedVariables false

namespace Pymnet

open Py MPlex

variable {α W β σ : Type} [DecidableEq α] [DecidableEq W] [Zero W] [LawfulIntNames α] [LinearOrder α] [DecidableEq σ] [One W]
  {canon : CGraph → β} {str : List (List α × Nat) × β → σ} {allowed : Option (List Nat)} {c : Coupling α W}
  {idx : Nat → α} {layers : List α} {nl N n : Nat} {T : Tables α W σ} {ol : List (Orbit α)}
  {match? : CGraph → CGraph → Option (Dict Nat Nat)} {ord : Finset α → List α} {ops ops' ops1 ops2 : List (POp α W)} {s : Finset α}
  {p p1 p2 : MPlex α W} {g g1 g2 : Spec.Multigraph α} {A1 A2 : Finset α} {v : α} {q q1 q2 : Orbit α} {neg : α → Bool} {t : Nat} {int : Int → α}

/-- layers that are not ordered are coupled alike -/
theorem cplRel_alike (hc : ∀ w, c ≠ .ordinal w) {x y x' y' : α} (h : x = y ↔ x' = y') : cplRel c x y ↔ cplRel c x' y' := by
  have key : ∀ x y : α, cplRel c x y ↔ x ≠ y ∧ ∃ w, c = .categorical w := by
    intro x y
    unfold cplRel Spec.Coupled
    constructor
    · rintro ⟨w, d, a, b, h1, h2, h3, h4⟩
      match d, h1 with
      | 0, h1 =>
        obtain rfl : x = a := by simpa using h1
        obtain rfl : y = b := by simpa using h3
        refine ⟨h2, w, ?_⟩
        rcases h4 with h4 | ⟨h4, -⟩
        · simpa using h4
        · exact absurd (by simpa using h4) (hc w)
    · rintro ⟨h, w, rfl⟩
      exact ⟨w, 0, x, y, rfl, h, rfl, Or.inl rfl⟩
  rw [key, key, ne_eq, ne_eq, not_congr h]

theorem glue_iso (S : Setup canon str match? allowed c idx layers nl N ord T ol) (hI : IntName int neg idx)
    (h1 : AtOrbit T c idx layers nl N q1 p1 g1 A1) (h2 : AtOrbit T c idx layers nl N q2 p2 g2 A2) {pG : MPlex α W} {G : Spec.Multigraph α} {A : Finset α}
    (hG : AtOrbit T c idx layers nl N q pG G A) {s1 s2 : Finset α} (a1 : q.2.2 ∈ s1) (a2 : q.2.2 ∈ s2) (a3 : ∀ x, G.node x ↔ x ∈ s1 ∨ x ∈ s2)
    (hinter : ∀ x, x ∈ s1 → x ∈ s2 → x = q.2.2) {e0 e1 d0 d1 κ : α → α}
    (he : MIso (cplRel c) (Spec.mayChange 1 allowed) (subG G s1) g1 e0 e1) (heo : e0 q.2.2 = q1.2.2)
    (hd : MIso (cplRel c) (Spec.mayChange 1 allowed) (subG G s2) g2 d0 d1) (hdo : d0 q.2.2 = q2.2.2)
    (hκ : Set.BijOn κ {x | g2.layer x} {x | g1.layer x}) (hfix : 1 ∉ Spec.mayChange 1 allowed → ∀ x, κ (d1 x) = x)
    (hcpl : ∀ x y, G.layer x → G.layer y → (cplRel c x y ↔ cplRel c (κ (d1 x)) (κ (d1 y))))
    (k1 : ∀ x i j, i ∈ s1 → j ∈ s1 → G.layer x → (G.link x i j ↔ g1.link (κ (d1 x)) (e0 i) (e0 j)))
    {f0 : α → α} (hr : RenamesTo neg g2 q1.2.2 q2.2.2 f0) :
    ∃ K : α → α → α → Prop,
      (∀ x i j, K x i j → g1.layer x ∧ (i ∈ A1 ∪ A2.image f0 ∧ i ≠ q1.2.2 ∧ neg i = false) ∧
        j ∈ A1 ∪ A2.image f0 ∧ j ≠ q1.2.2 ∧ neg j = true) ∧
      ∃ φ, MIso (cplRel c) (Spec.mayChange 1 allowed) G (addK (glueG g1 g2 f0 κ) K) φ (κ ∘ d1) ∧ φ q.2.2 = q1.2.2 := by
  classical
  have hs1 : ∀ x ∈ s1, G.node x := fun x hx => (a3 x).2 (Or.inl hx)
  have hs2 : ∀ x ∈ s2, G.node x := fun x hx => (a3 x).2 (Or.inr hx)
  have hψ : Set.BijOn (κ ∘ d1) {x | G.layer x} {x | g1.layer x} := hκ.comp hd.layers
  have k2 : ∀ x i j, i ∈ s2 → j ∈ s2 → G.layer x → (G.link x i j ↔ g2.link (d1 x) (d0 i) (d0 j)) := fun x i j hi hj hx => hd.links x i j hx hi hj
  set sv := A1 ∪ A2.image f0 with hsv
  let φ : α → α := fun x => if x ∈ s1 then e0 x else f0 (d0 x)
  have φ1 : ∀ x ∈ s1, φ x = e0 x := fun x hx => if_pos hx
  have φ2 : ∀ x ∈ s2, φ x = f0 (d0 x) := by
    intro x hx
    by_cases hx1 : x ∈ s1
    · rw [φ1 x hx1, hinter x hx1 hx, heo, hdo, hr.rep]
    · exact if_neg hx1
  have n1 : ∀ x ∈ s1, g1.node (e0 x) := fun x hx => he.nodes.mapsTo hx
  have n2 : ∀ x ∈ s2, g2.node (d0 x) := fun x hx => hd.nodes.mapsTo hx
  have neg1 : ∀ x ∈ s1, neg (φ x) = false := fun x hx => by rw [φ1 x hx]; exact h1.nonneg hI (n1 x hx)
  have neg2 : ∀ x ∈ s2, x ≠ q.2.2 → neg (φ x) = true := by
    intro x hx hne
    rw [φ2 x hx]
    refine hr.other _ (n2 x hx) fun e => hne ?_
    rw [← hdo] at e
    exact hd.nodes.injOn hx a2 e
  have φinj : ∀ x y, G.node x → G.node y → φ x = φ y → x = y := by
    intro x y hx hy e
    by_cases hx1 : x ∈ s1
    · by_cases hy1 : y ∈ s1
      · rw [φ1 x hx1, φ1 y hy1] at e
        exact he.nodes.injOn hx1 hy1 e
      · have hy2 : y ∈ s2 := ((a3 y).1 hy).resolve_left hy1
        have := neg2 y hy2 (fun h => hy1 (h ▸ a1))
        rw [← e, neg1 x hx1] at this; cases this
    · have hx2 : x ∈ s2 := ((a3 x).1 hx).resolve_left hx1
      by_cases hy1 : y ∈ s1
      · have := neg2 x hx2 (fun h => hx1 (h ▸ a1))
        rw [e, neg1 y hy1] at this; cases this
      · have hy2 : y ∈ s2 := ((a3 y).1 hy).resolve_left hy1
        rw [φ2 x hx2, φ2 y hy2] at e
        exact hd.nodes.injOn hx2 hy2 (hr.inj _ _ (n2 x hx2) (n2 y hy2) e)
  have φo : φ q.2.2 = q1.2.2 := by rw [φ1 _ a1, heo]
  have φs : ∀ x, G.node x → φ x ∈ sv := by
    intro x hx
    rcases (a3 x).1 hx with h | h
    · rw [φ1 x h, hsv]
      exact Finset.mem_union_left _ ((h1.mem _).2 (n1 x h))
    · rw [φ2 x h, hsv]
      exact Finset.mem_union_right _ (Finset.mem_image.2 ⟨_, (h2.mem _).2 (n2 x h), rfl⟩)
  let K : α → α → α → Prop := fun x i j => ∃ a b, a ∈ s1 ∧ a ≠ q.2.2 ∧ b ∈ s2 ∧ b ≠ q.2.2 ∧ i = φ a ∧ j = φ b ∧ ∃ z, x = κ (d1 z) ∧ G.link z a b
  have hK : ∀ x i j, K x i j → g1.layer x ∧ (i ∈ sv ∧ i ≠ q1.2.2 ∧ neg i = false) ∧ j ∈ sv ∧ j ≠ q1.2.2 ∧ neg j = true := by
    rintro x i j ⟨a, b, b1, b2, b3, b4, rfl, rfl, z, rfl, b5⟩
    refine ⟨hψ.mapsTo (hG.is.link_node b5).1, ⟨φs a (hs1 a b1), fun e => ?_, neg1 a b1⟩, φs b (hs2 b b3), fun e => ?_, neg2 b b3 b4⟩
    · exact b2 (φinj _ _ (hs1 a b1) (hs1 _ a1) (e.trans φo.symm))
    · exact b4 (φinj _ _ (hs2 b b3) (hs1 _ a1) (e.trans φo.symm))
  refine ⟨K, hK, ?_⟩
  obtain ⟨hsh, -⟩ := glue_shape hI h1 h2 hr (f1 := κ) (fun x hx => hκ.mapsTo hx)
  have hsh' := hsh.add (K := K) (fun x i j h => ⟨(hK x i j h).1, (hK x i j h).2.1.1, (hK x i j h).2.2.1⟩)
  rw [← hsv] at hsh'
  have hiso : MIso (cplRel c) (Spec.mayChange 1 allowed) G (addK (glueG g1 g2 f0 κ) K) φ (κ ∘ d1) := by
    refine ⟨fun h => absurd S.nodes h, hfix, ⟨?_, ?_, ?_⟩, ⟨?_, ?_, ?_⟩, ?_, hcpl⟩
    · intro x hx
      exact (hsh'.node _).1 (φs x hx)
    · intro x hx y hy e
      exact φinj x y hx hy e
    · intro y hy
      have hy' := (hsh'.node y).2 hy
      rw [hsv] at hy'
      rcases Finset.mem_union.1 hy' with h | h
      · obtain ⟨x, hx, rfl⟩ := he.nodes.surjOn ((h1.mem y).1 h)
        exact ⟨x, hs1 x hx, φ1 x hx⟩
      · obtain ⟨z, hz, rfl⟩ := Finset.mem_image.1 h
        obtain ⟨x, hx, rfl⟩ := hd.nodes.surjOn ((h2.mem z).1 hz)
        exact ⟨x, hs2 x hx, φ2 x hx⟩
    · intro x hx
      exact (hsh'.layer _).2 (hψ.mapsTo hx)
    · exact hψ.injOn
    · intro x hx
      exact hψ.surjOn ((hsh'.layer x).1 hx)
    · intro x i j hx hi hj
      have bwd : ∀ i j, G.node i → G.node j →
          (g1.link (κ (d1 x)) (φ i) (φ j) ∨ (renG g2 f0 κ).link (κ (d1 x)) (φ i) (φ j) ∨ K (κ (d1 x)) (φ i) (φ j)) → G.link x i j := by
        rintro i j hi hj (h | h | h)
        · have hn := h1.is.link_node h
          have m1 : ∀ i, G.node i → g1.node (φ i) → i ∈ s1 := by
            intro i hi hn
            rcases (a3 i).1 hi with h | h
            · exact h
            · by_cases hio : i = q.2.2
              · rw [hio]; exact a1
              · have := neg2 i h hio
                rw [h1.nonneg hI hn] at this; cases this
          have hi1 := m1 i hi hn.2.1
          have hj1 := m1 j hj hn.2.2.1
          rw [φ1 i hi1, φ1 j hj1] at h
          exact (k1 x i j hi1 hj1 hx).2 h
        · obtain ⟨y, i', j', h, hy, hi', hj'⟩ := h
          have hn := h2.is.link_node h
          obtain rfl : d1 x = y := hκ.injOn (hd.layers.mapsTo hx) hn.1 hy
          obtain ⟨a, ha, rfl⟩ := hd.nodes.surjOn hn.2.1
          obtain ⟨b, hb, rfl⟩ := hd.nodes.surjOn hn.2.2.1
          rw [← φ2 a ha] at hi'
          rw [← φ2 b hb] at hj'
          rw [φinj i a hi (hs2 a ha) hi', φinj j b hj (hs2 b hb) hj']
          exact (k2 x a b ha hb hx).2 h
        · obtain ⟨a, b, b1, b2, b3, b4, hi', hj', z, hz, b5⟩ := h
          obtain rfl : x = z := hψ.injOn hx (hG.is.link_node b5).1 hz
          rw [φinj i a hi (hs1 a b1) hi', φinj j b hj (hs2 b b3) hj']
          exact b5
      constructor
      · intro h
        change ((g1.link (κ (d1 x)) (φ i) (φ j) ∨ (renG g2 f0 κ).link (κ (d1 x)) (φ i) (φ j) ∨ (renG g2 f0 κ).link (κ (d1 x)) (φ j) (φ i)) ∨
          K (κ (d1 x)) (φ i) (φ j) ∨ K (κ (d1 x)) (φ j) (φ i))
        have h' := (hG.is.link_node h).2.2.2.2
        by_cases hi1 : i ∈ s1
        · by_cases hj1 : j ∈ s1
          · rw [φ1 i hi1, φ1 j hj1]
            exact Or.inl (Or.inl ((k1 x i j hi1 hj1 hx).1 h))
          · have hj2 : j ∈ s2 := ((a3 j).1 hj).resolve_left hj1
            by_cases hio : i = q.2.2
            · have hi2 : i ∈ s2 := hio ▸ a2
              rw [φ2 i hi2, φ2 j hj2]
              exact Or.inl (Or.inr (Or.inl ⟨d1 x, _, _, (k2 x i j hi2 hj2 hx).1 h, rfl, rfl, rfl⟩))
            · exact Or.inr (Or.inl ⟨i, j, hi1, hio, hj2, fun e => hj1 (e ▸ a1), rfl, rfl, x, rfl, h⟩)
        · have hi2 : i ∈ s2 := ((a3 i).1 hi).resolve_left hi1
          by_cases hj1 : j ∈ s1
          · by_cases hjo : j = q.2.2
            · have hj2 : j ∈ s2 := hjo ▸ a2
              rw [φ2 i hi2, φ2 j hj2]
              exact Or.inl (Or.inr (Or.inl ⟨d1 x, _, _, (k2 x i j hi2 hj2 hx).1 h, rfl, rfl, rfl⟩))
            · exact Or.inr (Or.inr ⟨j, i, hj1, hjo, hi2, fun e => hi1 (e ▸ a1), rfl, rfl, x, rfl, h'⟩)
          · have hj2 : j ∈ s2 := ((a3 j).1 hj).resolve_left hj1
            rw [φ2 i hi2, φ2 j hj2]
            exact Or.inl (Or.inr (Or.inl ⟨d1 x, _, _, (k2 x i j hi2 hj2 hx).1 h, rfl, rfl, rfl⟩))
      · rintro ((h | h | h) | h | h)
        · exact bwd i j hi hj (Or.inl h)
        · exact bwd i j hi hj (Or.inr (Or.inl h))
        · exact (hG.is.link_node (bwd j i hj hi (Or.inr (Or.inl h)))).2.2.2.2
        · exact bwd i j hi hj (Or.inr (Or.inr h))
        · exact (hG.is.link_node (bwd j i hj hi (Or.inr (Or.inr h)))).2.2.2.2
  exact ⟨φ, hiso, φo⟩

end Pymnet
