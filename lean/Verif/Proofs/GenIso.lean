import Verif.Spec.GraphletGen
import Verif.Props.Isom
import Verif.Model.GraphletGen

/-! Isomorphism of multiplex networks with one aspect, and the keys of `graphlets`. -/

set_option linter.unusedSectionVars false
set_option linter.unusedSimpArgs false
set_option linter.unusedVariables false

namespace Pymnet

open Py MPlex

variable {α W : Type} [DecidableEq α] [DecidableEq W] [Zero W]

/-- Internal: isomorphism of multigraphs. -/
structure MIso (cpl : α → α → Prop) (al : List Nat) (g h : Spec.Multigraph α) (f0 f1 : α → α) : Prop where
  fix0 : 0 ∉ al → ∀ x, f0 x = x
  fix1 : 1 ∉ al → ∀ x, f1 x = x
  nodes : Set.BijOn f0 {x | g.node x} {x | h.node x}
  layers : Set.BijOn f1 {x | g.layer x} {x | h.layer x}
  links : ∀ x i j, g.layer x → g.node i → g.node j → (g.link x i j ↔ h.link (f1 x) (f0 i) (f0 j))
  coupled : ∀ x y, g.layer x → g.layer y → (cpl x y ↔ cpl (f1 x) (f1 y))

theorem MIso.trans {cpl : α → α → Prop} {al : List Nat} {g h k : Spec.Multigraph α} {f0 f1 e0 e1 : α → α}
    (a : MIso cpl al g h f0 f1) (b : MIso cpl al h k e0 e1) : MIso cpl al g k (e0 ∘ f0) (e1 ∘ f1) where
  fix0 hn x := by simp [a.fix0 hn, b.fix0 hn]
  fix1 hn x := by simp [a.fix1 hn, b.fix1 hn]
  nodes := b.nodes.comp a.nodes
  layers := b.layers.comp a.layers
  links x i j hx hi hj := (a.links x i j hx hi hj).trans
    (b.links _ _ _ (a.layers.mapsTo hx) (a.nodes.mapsTo hi) (a.nodes.mapsTo hj))
  coupled x y hx hy := (a.coupled x y hx hy).trans (b.coupled _ _ (a.layers.mapsTo hx) (a.layers.mapsTo hy))

section one

variable [IntNames α] {c : Coupling α W} {ops ops' : List (POp α W)} {allowed : Option (List Nat)}

/-- The coupling links two layers. -/
def cplRel (c : Coupling α W) (x y : α) : Prop := ∃ w, Spec.Coupled [c] [x] [y] w

theorem hasLayer_shown {x : α} : Spec.HasLayer 1 true ops (.ofList [x]) ↔ (Spec.shown ops).layer x := by
  constructor
  · rintro ⟨s, h1, h2, h3⟩
    cases ofList_inj' h1
    exact h3 0 x rfl
  · intro h
    refine ⟨[x], rfl, rfl, fun k y hy => ?_⟩
    match k, hy with
    | 0, hy => cases hy; exact h

theorem hasNodeLayer_one {u : List α} : Spec.HasNodeLayer 1 true ops u ↔
    ∃ i x, u = [i, x] ∧ (Spec.shown ops).node i ∧ (Spec.shown ops).layer x := by
  constructor
  · rintro ⟨n, s, rfl, hs, (⟨-, h1, h2⟩ | ⟨h, -⟩)⟩
    · obtain ⟨x, rfl⟩ := List.length_eq_one_iff.1 hs
      exact ⟨n, x, rfl, h1, hasLayer_shown.1 h2⟩
    · cases h
  · rintro ⟨i, x, rfl, h1, h2⟩
    exact ⟨i, [x], rfl, rfl, Or.inl ⟨rfl, h1, hasLayer_shown.2 h2⟩⟩

theorem cplRel_ne {x y : α} (h : cplRel c x y) : x ≠ y := by
  obtain ⟨w, d, a, b, h1, h2, h3, -⟩ := h
  match d, h1 with
  | 0, h1 => cases h1; cases h3; exact h2

theorem linked_one {i j x y : α} : Spec.Linked [c] false true ops [i, x] [j, y] ↔
    (x = y ∧ (Spec.shown ops).link x i j) ∨ (i = j ∧ cplRel c x y) := by
  constructor
  · rintro ⟨w, (⟨i', j', s, h1, h2, h3, h4, h5⟩ | ⟨i', s, t, h1, h2, h3⟩)⟩
    · cases h1; cases h2
      exact Or.inl ⟨rfl, h3, by rw [h4] at h5; exact h5⟩
    · cases h1; cases h2
      exact Or.inr ⟨rfl, w, h3⟩
  · rintro (⟨rfl, h1, h2⟩ | ⟨rfl, w, h⟩)
    · exact ⟨_, Or.inl ⟨i, j, [x], rfl, rfl, h1, rfl, h2⟩⟩
    · exact ⟨w, Or.inr ⟨i, [x], [y], rfl, rfl, h⟩⟩

theorem applyTo_two (f : Nat → α → α) (i x : α) : Spec.applyTo f [i, x] = [f 0 i, f 1 x] := rfl

/-- The two notions of isomorphism agree. -/
theorem isomorphic_iff (h0 : ∃ i, (Spec.shown ops).node i) (h1 : ∃ x, (Spec.shown ops).layer x) :
    Spec.Isomorphic c allowed ops ops' ↔
      ∃ f0 f1, MIso (cplRel c) (Spec.mayChange 1 allowed) (Spec.shown ops) (Spec.shown ops') f0 f1 := by
  obtain ⟨i0, hi0⟩ := h0
  obtain ⟨x0, hx0⟩ := h1
  constructor
  · rintro ⟨f, hf⟩
    have hnl : ∀ i x, (Spec.shown ops).node i → (Spec.shown ops).layer x →
        (Spec.shown ops').node (f 0 i) ∧ (Spec.shown ops').layer (f 1 x) := by
      intro i x hi hx
      obtain ⟨i', x', e, h1, h2⟩ := hasNodeLayer_one.1 ((hf.nodeLayers [f 0 i, f 1 x]).2
        ⟨[i, x], hasNodeLayer_one.2 ⟨i, x, rfl, hi, hx⟩, rfl⟩)
      cases e; exact ⟨h1, h2⟩
    have hnl' : ∀ i x, (Spec.shown ops').node i → (Spec.shown ops').layer x →
        ∃ i' x', (Spec.shown ops).node i' ∧ (Spec.shown ops).layer x' ∧ i = f 0 i' ∧ x = f 1 x' := by
      intro i x hi hx
      obtain ⟨nl, h1, h2⟩ := (hf.nodeLayers [i, x]).1 (hasNodeLayer_one.2 ⟨i, x, rfl, hi, hx⟩)
      obtain ⟨i', x', rfl, h3, h4⟩ := hasNodeLayer_one.1 h1
      rw [applyTo_two] at h2
      cases h2
      exact ⟨i', x', h3, h4, rfl, rfl⟩
    have hy0 := (hnl i0 x0 hi0 hx0)
    refine ⟨f 0, f 1, fun h => hf.fixed 0 (by omega) h, fun h => hf.fixed 1 (by omega) h, ?_, ?_, ?_, ?_⟩
    · by_cases ha : 0 ∈ Spec.mayChange 1 allowed
      · exact hf.bij 0 (by omega) ha
      · have hid := hf.fixed 0 (by omega) ha
        refine ⟨fun i hi => (hnl i x0 hi hx0).1, fun a _ b _ e => by rwa [hid, hid] at e, fun i hi => ?_⟩
        obtain ⟨i', x', h1, h2, h3, h4⟩ := hnl' i _ hi hy0.2
        exact ⟨i', h1, h3.symm⟩
    · by_cases ha : 1 ∈ Spec.mayChange 1 allowed
      · exact hf.bij 1 (by omega) ha
      · have hid := hf.fixed 1 (by omega) ha
        refine ⟨fun x hx => (hnl i0 x hi0 hx).2, fun a _ b _ e => by rwa [hid, hid] at e, fun x hx => ?_⟩
        obtain ⟨i', x', h1, h2, h3, h4⟩ := hnl' _ x hy0.1 hx
        exact ⟨x', h2, h4.symm⟩
    · intro x i j hx hi hj
      have := hf.links [i, x] [j, x] (hasNodeLayer_one.2 ⟨i, x, rfl, hi, hx⟩) (hasNodeLayer_one.2 ⟨j, x, rfl, hj, hx⟩)
      rw [applyTo_two, applyTo_two, linked_one, linked_one] at this
      have n1 : ∀ y, ¬ cplRel c y y := fun y h => cplRel_ne h rfl
      simpa [n1] using this
    · intro x y hx hy
      have := hf.links [i0, x] [i0, y] (hasNodeLayer_one.2 ⟨i0, x, rfl, hi0, hx⟩) (hasNodeLayer_one.2 ⟨i0, y, rfl, hi0, hy⟩)
      rw [applyTo_two, applyTo_two, linked_one, linked_one] at this
      have n1 : ∀ y i, ¬ (Spec.shown ops).link y i i := fun y i h => h.1 rfl
      have n2 : ∀ y i, ¬ (Spec.shown ops').link y i i := fun y i h => h.1 rfl
      simpa [n1, n2] using this
  · rintro ⟨f0, f1, hf⟩
    refine ⟨fun a => if a = 0 then f0 else f1, fun a ha hn => ?_, fun a ha hm => ?_, fun u => ?_, fun u v hu hv => ?_⟩
    · rcases Nat.eq_zero_or_pos a with rfl | h
      · simpa using hf.fix0 hn
      · obtain rfl : a = 1 := by omega
        simpa using hf.fix1 hn
    · rcases Nat.eq_zero_or_pos a with rfl | h
      · simpa using hf.nodes
      · obtain rfl : a = 1 := by omega
        simpa using hf.layers
    · constructor
      · intro h
        obtain ⟨i, x, rfl, h1, h2⟩ := hasNodeLayer_one.1 h
        obtain ⟨i', h3, rfl⟩ := hf.nodes.surjOn h1
        obtain ⟨x', h4, rfl⟩ := hf.layers.surjOn h2
        exact ⟨[i', x'], hasNodeLayer_one.2 ⟨i', x', rfl, h3, h4⟩, rfl⟩
      · rintro ⟨nl, h1, rfl⟩
        obtain ⟨i, x, rfl, h1, h2⟩ := hasNodeLayer_one.1 h1
        exact hasNodeLayer_one.2 ⟨_, _, rfl, hf.nodes.mapsTo h1, hf.layers.mapsTo h2⟩
    · obtain ⟨i, x, rfl, h1, h2⟩ := hasNodeLayer_one.1 hu
      obtain ⟨j, y, rfl, h3, h4⟩ := hasNodeLayer_one.1 hv
      rw [applyTo_two, applyTo_two, linked_one, linked_one]
      simp only [if_true, one_ne_zero, if_false]
      have ex : x = y ↔ f1 x = f1 y := ⟨fun h => by rw [h], fun h => hf.layers.injOn h2 h4 h⟩
      have ei : i = j ↔ f0 i = f0 j := ⟨fun h => by rw [h], fun h => hf.nodes.injOn h1 h3 h⟩
      rw [← ex, ← ei, ← hf.links x i j h2 h1 h3, ← hf.coupled x y h2 h4]

end one

variable [LinearOrder α] [LawfulIntNames α]

/-- What the isomorphism functions see of an aligned, undirected network with one aspect. -/
theorem shows_one {c : Coupling α W} {ops : List (POp α W)} {layers : List α} (hc : Spec.GoodCoupling layers c)
    (hl : ∀ x, (Spec.shown ops).layer x → x ∈ layers)
    (hns : ∀ L a, (afterP [c] false 0 true ops).lkA L [a] [a] = none) :
    Shows (afterP [c] false 0 true ops).view 1
      (fun a x => if a = 0 then (Spec.shown ops).node x else (Spec.shown ops).layer x) (Spec.HasNodeLayer 1 true ops)
      (Spec.Linked [c] false true ops) := by
  have hcs : [c] ≠ [] := by simp
  have hpar := after_params hcs false 0 true ops
  have hpi := after_pinv hcs false 0 true ops
  obtain ⟨l, l1, -, l3⟩ := after_nodeLayers hcs false 0 true ops
  obtain ⟨s0, s1, -⟩ := after_spec hcs false 0 true ops
  have hok : ∀ d c', (afterP [c] false 0 true ops).couplings[d]? = some c' → (afterP [c] false 0 true ops).CoupOk d c' := by
    intro d c' hd
    rw [hpar.2.2.2.2] at hd
    match d, hd with
    | 0, hd =>
      cases hd
      cases c with
      | categorical w => exact hc
      | ordinal w => exact ⟨hc.1, fun x hx => hc.2 x (hl x ((s1 1 x (by omega)).1 hx))⟩
      | uncoupled w => trivial
      | net c => exact hc.elim
  have hgood := fun {u : List α} (hu : u ∈ product (afterP [c] false 0 true ops).slices) =>
    good_aligned hpi hpar.2.2.2.1 hpar.2.2.1 hns hok hu
  have hR : ∀ u v, Spec.HasNodeLayer 1 true ops u → Spec.HasNodeLayer 1 true ops v →
      (Spec.Linked [c] false true ops u v ↔ (afterP [c] false 0 true ops).R u v ≠ 0) := by
    intro u v hu hv
    have pu := (reg_cases hcs false 0 true ops hu).1
    obtain ⟨i, x, rfl, h1, h2⟩ := hasNodeLayer_one.1 hu
    obtain ⟨j, y, rfl, h3, h4⟩ := hasNodeLayer_one.1 hv
    rw [linked_one]
    by_cases hxy : x = y
    · subst hxy
      by_cases hij : i = j
      · subst hij
        have : (afterP [c] false 0 true ops).R [i, x] [i, x] = 0 := by
          rw [R_eq, getLink_other, okD_ok, hpar.2.2.1]
          intro d hd
          rw [differ_iff rfl] at hd
          obtain ⟨z, e1, e2, e3⟩ := hd
          apply e1
          have := congrArg (·[d]?) e3
          simpa [List.getElem?_set_self e2] using this
        simp only [this, ne_eq, not_true, iff_false, true_and, not_or]
        exact ⟨fun h => h.1 rfl, fun h => cplRel_ne h rfl⟩
      · rw [R_eq, after_intra hcs false 0 true ops hij (hasLayer_shown.2 h2), okD_ok]
        simp [hij, Spec.shown]
    · by_cases hij : i = j
      · subst hij
        have e : [i, y] = ([i, x] : List α).set 1 y := rfl
        rw [e, R_aligned hpi.core hpar.2.2.2.1 pu (d := 0) (x := x) rfl hxy (c := c) (by rw [hpar.2.2.2.2]; rfl)]
        simp only [hxy, false_and, true_and, false_or, hpar.2.2.1]
        have hcr : ∀ w, Spec.Coupled [c] [x] [y] w ↔
            c = .categorical w ∨ c = .ordinal w ∧ (IntNames.up x = some y ∨ IntNames.up y = some x) := by
          intro w
          constructor
          · rintro ⟨d, a, b, e1, e2, e3, e4⟩
            match d, e1 with
            | 0, e1 =>
              cases e1; cases e3
              simpa using e4
          · intro h
            exact ⟨0, x, y, rfl, hxy, rfl, by simpa using h⟩
        unfold cplRel
        simp only [hcr]
        cases c with
        | categorical w =>
          have hc' : w ≠ 0 := hc
          simpa [couplingRead] using hc'
        | ordinal w =>
          obtain ⟨x', hx'⟩ := Option.isSome_iff_exists.1 (hc.2 x (hl x h2)).1
          obtain ⟨y', hy'⟩ := Option.isSome_iff_exists.1 (hc.2 y (hl y h4)).1
          rw [couplingRead_ordinal w hx' hy', hx', hy', hpar.2.2.1]
          by_cases hcx : x' = y ∨ x = y'
          · rw [if_pos hcx]
            simp only [okD_ok, ne_eq, hc.1, not_false_iff, iff_true]
            exact ⟨w, Or.inr ⟨rfl, by rcases hcx with h | h <;> simp [h]⟩⟩
          · rw [if_neg hcx]
            simp only [okD_ok, ne_eq, not_true, iff_false]
            rintro ⟨w', (h | ⟨-, h⟩)⟩
            · cases h
            · apply hcx
              simp only [Option.some.injEq] at h
              exact h.imp id Eq.symm
        | uncoupled w => simp [couplingRead, okD]
        | net c => exact hc.elim
      · have : (afterP [c] false 0 true ops).R [i, x] [j, y] = 0 := by
          rw [R_eq, getLink_other, okD_ok, hpar.2.2.1]
          intro d hd
          rw [differ_iff (u := [i, x]) (v := [j, y]) rfl] at hd
          obtain ⟨z, e1, e2, e3⟩ := hd
          match d, e2 with
          | 0, _ => simp at e3; exact hxy e3.2.symm
          | 1, _ => simp at e3; exact hij e3.1.symm
        simp [this, hxy, hij]
  refine ⟨⟨_, MPlex.sound hpi.core (fun u hu => (hgood hu).1) ?_, fun u w hu hw => ?_⟩, hpar.2.1, hpar.1, fun a ha x => ?_,
    ⟨l, l1, l3⟩⟩
  · intro nls hn u hu a ha l' hl' dir
    rw [hn] at l1; cases l1
    exact (hgood (reg_cases hcs false 0 true ops ((l3 u).1 hu)).1).2 a ha l' hl' dir
  · rw [show (afterP [c] false 0 true ops).view.noEdge = 0 from hpar.2.2.1]
    exact hR u w hu hw
  · rcases Nat.eq_zero_or_pos a with rfl | hpos
    · rw [if_pos rfl]; exact s0 x
    · obtain rfl : a = 1 := by omega
      rw [if_neg (by omega)]; exact s1 1 x hpos

end Pymnet
