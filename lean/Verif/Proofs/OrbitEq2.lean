import Verif.Proofs.OrbitEq
import Mathlib.Algebra.BigOperators.Ring.Finset
import Mathlib.Algebra.Order.BigOperators.Group.Finset

/-! Products of orbit counts. -/

set_option linter.unusedSectionVars false
set_option linter.unusedSimpArgs false
set_option linter.unusedVariables false

namespace Pymnet

open Py MPlex

variable {α W β σ : Type} [DecidableEq α] [DecidableEq W] [Zero W] [LawfulIntNames α] [LinearOrder α] [DecidableEq σ] [One W]
  {canon : CGraph → β} {str : List (List α × Nat) × β → σ} {allowed : Option (List Nat)} {c : Coupling α W}
  {idx : Nat → α} {layers : List α} {nl N n : Nat} {T : Tables α W σ} {ol : List (Orbit α)}
  {match? : CGraph → CGraph → Option (Dict Nat Nat)} {ord : Finset α → List α} {ops ops' : List (POp α W)} {s : Finset α}
  {q q1 q2 : Orbit α} {v : α}

/-- an isomorphism of a part -/
theorem MIso.part {cpl : α → α → Prop} {al : List Nat} {g h : Spec.Multigraph α} {f0 f1 : α → α} {U : Finset α}
    (hf : MIso cpl al (subG g U) h f0 f1) (hs : s ⊆ U) : MIso cpl al (subG g s) (subG h (s.image f0)) f0 f1 where
  fix0 := hf.fix0
  fix1 := hf.fix1
  nodes := by
    refine ⟨fun x hx => Finset.mem_image.2 ⟨x, hx, rfl⟩, fun x hx y hy e => hf.nodes.injOn (hs hx) (hs hy) e, fun y hy => ?_⟩
    obtain ⟨x, hx, rfl⟩ := Finset.mem_image.1 hy
    exact ⟨x, hx, rfl⟩
  layers := hf.layers
  links x i j hx hi hj := hf.links x i j hx (hs hi) (hs hj)
  coupled := hf.coupled

theorem role_image {nets : Dict Nat (List (MPlex α W))} {g h : Spec.Multigraph α} {f0 f1 : α → α} {U : Finset α}
    (hf : MIso (cplRel c) (Spec.mayChange 1 allowed) (subG g U) h f0 f1) (hs : s ⊆ U) (hv : v ∈ s) :
    Role c allowed nets h (s.image f0) (f0 v) q ↔ Role c allowed nets g s v q := by
  have hp := hf.part hs
  constructor
  · rintro ⟨ops', h1, e0, e1, he, h2⟩
    exact ⟨ops', h1, _, _, hp.trans he, h2⟩
  · rintro ⟨ops', h1, e0, e1, he, h2⟩
    have : Inhabited α := ⟨v⟩
    obtain ⟨r0, r1, hr, hr0, -⟩ := hp.symm
    refine ⟨ops', h1, _, _, hr.trans he, ?_⟩
    simp only [Function.comp_apply, hr0 v hv, h2]

/-- Internal: pairs of sets with a given union. -/
def PairsOf (c : Coupling α W) (allowed : Option (List Nat)) (nets : Dict Nat (List (MPlex α W))) (g : Spec.Multigraph α) (v : α)
    (U : Finset α) (q1 q2 : Orbit α) : Set (Finset α × Finset α) :=
  {p | v ∈ p.1 ∧ v ∈ p.2 ∧ p.1 ∪ p.2 = U ∧ Role c allowed nets g p.1 v q1 ∧ Role c allowed nets g p.2 v q2}

/-- the pairs with a given union, and the pairs in the graphlet -/
theorem Setup.pairs_image (S : Setup canon str match? allowed c idx layers nl N ord T ol) {g h : Spec.Multigraph α} {f0 f1 : α → α}
    {U : Finset α} (hU : ∀ x ∈ U, g.node x) (hf : MIso (cplRel c) (Spec.mayChange 1 allowed) (subG g U) h f0 f1) (hv : v ∈ U) :
    (PairsOf c allowed T.nets g v U q1 q2).ncard = (Pairs c allowed T.nets h (f0 v) (q1.1 + q2.1 - U.card) q1 q2).ncard := by
  classical
  have inj : ∀ {s t : Finset α}, s ⊆ U → t ⊆ U → s.image f0 = t.image f0 → s ⊆ t := by
    intro s t hs ht e x hx
    have : f0 x ∈ t.image f0 := e ▸ Finset.mem_image.2 ⟨x, hx, rfl⟩
    obtain ⟨y, hy, hxy⟩ := Finset.mem_image.1 this
    rw [← hf.nodes.injOn (ht hy) (hs hx) hxy]
    exact hy
  refine Set.ncard_congr (fun p _ => (p.1.image f0, p.2.image f0)) ?_ ?_ ?_
  · rintro ⟨s1, s2⟩ ⟨h1, h2, h3, h4, h5⟩
    dsimp only at h1 h2 h3 h4 h5
    have hs1 : s1 ⊆ U := h3 ▸ Finset.subset_union_left
    have hs2 : s2 ⊆ U := h3 ▸ Finset.subset_union_right
    refine ⟨Finset.mem_image.2 ⟨v, h1, rfl⟩, Finset.mem_image.2 ⟨v, h2, rfl⟩, fun x => ?_, ?_, (role_image hf hs1 h1).2 h4, (role_image hf hs2 h2).2 h5⟩
    · dsimp only
      rw [← Finset.mem_union, ← Finset.image_union, h3]
      constructor
      · intro hx
        obtain ⟨y, hy, rfl⟩ := hf.nodes.surjOn hx
        exact Finset.mem_image.2 ⟨y, hy, rfl⟩
      · intro hx
        obtain ⟨y, hy, rfl⟩ := Finset.mem_image.1 hx
        exact hf.nodes.mapsTo hy
    · dsimp only
      have hU' : ∀ {x : α}, x ∈ (s1 : Set α) ∪ (s2 : Set α) → x ∈ U := fun {x} hx => hx.elim (fun h => hs1 h) fun h => hs2 h
      rw [← Finset.image_inter_of_injOn _ _ (fun x hx y hy e => hf.nodes.injOn (hU' hx) (hU' hy) e),
        Finset.card_image_of_injOn (fun x hx y hy e => hf.nodes.injOn (hs1 (Finset.mem_inter.1 hx).1) (hs1 (Finset.mem_inter.1 hy).1) e)]
      have a1 := (S.role_set (fun x hx => hU x (hs1 hx)) h4).1
      have a2 := (S.role_set (fun x hx => hU x (hs2 hx)) h5).1
      have := Finset.card_union_add_card_inter s1 s2
      rw [h3] at this
      omega
  · rintro ⟨s1, s2⟩ ⟨t1, t2⟩ ⟨-, -, h3, -⟩ ⟨-, -, h3', -⟩ e
    dsimp only at h3 h3'
    rw [Prod.mk.injEq] at e
    have hs1 : s1 ⊆ U := h3 ▸ Finset.subset_union_left
    have hs2 : s2 ⊆ U := h3 ▸ Finset.subset_union_right
    have ht1 : t1 ⊆ U := h3' ▸ Finset.subset_union_left
    have ht2 : t2 ⊆ U := h3' ▸ Finset.subset_union_right
    exact Prod.ext (Finset.Subset.antisymm (inj hs1 ht1 e.1) (inj ht1 hs1 e.1.symm))
      (Finset.Subset.antisymm (inj hs2 ht2 e.2) (inj ht2 hs2 e.2.symm))
  · rintro ⟨t1, t2⟩ ⟨h1, h2, h3, h4, h5, h6⟩
    dsimp only at h1 h2 h3 h4 h5 h6
    have im : ∀ t : Finset α, (∀ x ∈ t, h.node x) → (U.filter fun x => f0 x ∈ t).image f0 = t := by
      intro t ht
      ext y
      simp only [Finset.mem_image, Finset.mem_filter]
      constructor
      · rintro ⟨x, ⟨-, hx⟩, rfl⟩; exact hx
      · intro hy
        obtain ⟨x, hx, rfl⟩ := hf.nodes.surjOn (ht y hy)
        exact ⟨x, ⟨hx, hy⟩, rfl⟩
    have e1 := im t1 fun x hx => (h3 x).2 (Or.inl hx)
    have e2 := im t2 fun x hx => (h3 x).2 (Or.inr hx)
    have hv1 : v ∈ U.filter fun x => f0 x ∈ t1 := Finset.mem_filter.2 ⟨hv, h1⟩
    have hv2 : v ∈ U.filter fun x => f0 x ∈ t2 := Finset.mem_filter.2 ⟨hv, h2⟩
    refine ⟨(U.filter fun x => f0 x ∈ t1, U.filter fun x => f0 x ∈ t2), ⟨hv1, hv2, ?_, ?_, ?_⟩, Prod.ext e1 e2⟩
    · ext x
      simp only [Finset.mem_union, Finset.mem_filter]
      constructor
      · rintro (h | h) <;> exact h.1
      · intro hx
        rcases (h3 (f0 x)).1 (hf.nodes.mapsTo hx) with h | h
        · exact Or.inl ⟨hx, h⟩
        · exact Or.inr ⟨hx, h⟩
    · exact (role_image hf (Finset.filter_subset _ _) hv1).1 (by rw [e1]; exact h5)
    · exact (role_image hf (Finset.filter_subset _ _) hv2).1 (by rw [e2]; exact h6)

theorem connected_union {g : Spec.Multigraph α} {s1 s2 : Finset α} (h1 : Spec.ConnectedSet g s1) (h2 : Spec.ConnectedSet g s2)
    (hv1 : v ∈ s1) (hv2 : v ∈ s2) : Spec.ConnectedSet g (s1 ∪ s2) := by
  refine ⟨fun x hx => (Finset.mem_union.1 hx).elim (h1.nodes x) (h2.nodes x), ?_⟩
  have m1 : ∀ i j, i ∈ s1 → j ∈ s1 → Relation.ReflTransGen (fun a b => a ∈ s1 ∪ s2 ∧ b ∈ s1 ∪ s2 ∧ ∃ x, g.layer x ∧ g.link x a b) i j :=
    fun i j hi hj => Relation.ReflTransGen.mono
      (fun a b ⟨ha, hb, h⟩ => ⟨Finset.mem_union_left _ ha, Finset.mem_union_left _ hb, h⟩) _ _ (h1.connected i j hi hj)
  have m2 : ∀ i j, i ∈ s2 → j ∈ s2 → Relation.ReflTransGen (fun a b => a ∈ s1 ∪ s2 ∧ b ∈ s1 ∪ s2 ∧ ∃ x, g.layer x ∧ g.link x a b) i j :=
    fun i j hi hj => Relation.ReflTransGen.mono
      (fun a b ⟨ha, hb, h⟩ => ⟨Finset.mem_union_right _ ha, Finset.mem_union_right _ hb, h⟩) _ _ (h2.connected i j hi hj)
  intro i j hi hj
  rcases Finset.mem_union.1 hi with hi | hi <;> rcases Finset.mem_union.1 hj with hj | hj
  · exact m1 i j hi hj
  · exact (m1 i v hi hv1).trans (m2 v j hv2 hj)
  · exact (m2 i v hi hv2).trans (m1 v j hv1 hj)
  · exact m2 i j hi hj

/-- the product of two orbit counts -/
theorem Setup.product (S : Setup canon str match? allowed c idx layers nl N ord T ol) (hnet : NetOk layers c ops)
    (hlay : ∃ l : List α, l.Sublist layers ∧ l.length = nl ∧ ∀ x, (Spec.shown ops).layer x ↔ x ∈ l) (hn : n ≤ N)
    (hnd : ol.Nodup) (hq1 : q1 ∈ ol) (hq2 : q2 ∈ ol) (hsz : q1.1 + q2.1 ≤ n + 1) (P : Orbit α → Nat)
    (hP : ∀ q ∈ ol, ∀ ops', Stored T.nets q.1 q.2.1 (afterP [c] false 0 true ops') → q1.1 ≤ q.1 → q2.1 ≤ q.1 → q.1 < q1.1 + q2.1 →
      (Pairs c allowed T.nets (Spec.shown ops') q.2.2 (q1.1 + q2.1 - q.1) q1 q2).ncard = P q) :
    (Counted c allowed T.nets n (Spec.shown ops) (v, q1)).ncard * (Counted c allowed T.nets n (Spec.shown ops) (v, q2)).ncard =
      ((ol.filter fun q => q1.1 ≤ q.1 ∧ q2.1 ≤ q.1 ∧ q.1 < q1.1 + q2.1).map fun q =>
        (Counted c allowed T.nets n (Spec.shown ops) (v, q)).ncard * P q).sum := by
  classical
  let A := ((afterP [c] false 0 true ops).slices.headD []).toFinset
  have hnode : ∀ x, x ∈ A ↔ (Spec.shown ops).node x := fun x => by
    rw [List.mem_toFinset]; exact (mem_slices_one c ops).1 x
  let V : Finset (Finset α) := A.powerset.filter fun s => v ∈ s ∧ 2 ≤ s.card ∧ s.card ≤ n ∧ Spec.ConnectedSet (Spec.shown ops) s
  let C : Orbit α → Finset (Finset α) := fun q => V.filter fun s => Role c allowed T.nets (Spec.shown ops) s v q
  have hV : ∀ s, s ∈ V ↔ v ∈ s ∧ 2 ≤ s.card ∧ s.card ≤ n ∧ Spec.ConnectedSet (Spec.shown ops) s := by
    intro s
    simp only [V, Finset.mem_filter, Finset.mem_powerset]
    exact ⟨fun h => h.2, fun h => ⟨fun x hx => (hnode x).2 (h.2.2.2.nodes x hx), h⟩⟩
  have hC : ∀ q s, s ∈ C q ↔ v ∈ s ∧ 2 ≤ s.card ∧ s.card ≤ n ∧ Spec.ConnectedSet (Spec.shown ops) s ∧ Role c allowed T.nets (Spec.shown ops) s v q := by
    intro q s
    simp only [C, Finset.mem_filter, hV, and_assoc]
  have hcount : ∀ q, (Counted c allowed T.nets n (Spec.shown ops) (v, q)).ncard = (C q).card := by
    intro q
    rw [← Set.ncard_coe_finset]
    congr 1
    ext s
    rw [Finset.mem_coe, hC]
    rfl
  let F : Finset α → Finset (Finset α × Finset α) := fun U => (C q1 ×ˢ C q2).filter fun p => p.1 ∪ p.2 = U
  have hF : ∀ U ∈ V, (F U).card = (PairsOf c allowed T.nets (Spec.shown ops) v U q1 q2).ncard := by
    intro U hU
    rw [← Set.ncard_coe_finset]
    congr 1
    ext ⟨s1, s2⟩
    simp only [F, Finset.coe_filter, Finset.mem_product, hC, PairsOf, Set.mem_ofPred_eq]
    constructor
    · rintro ⟨⟨⟨h1, -, -, -, h2⟩, h3, -, -, -, h4⟩, h5⟩
      exact ⟨h1, h3, h5, h2, h4⟩
    · rintro ⟨h1, h2, h3, h4, h5⟩
      have hUn := ((hV U).1 hU).2.2
      have hs1 : s1 ⊆ U := h3 ▸ Finset.subset_union_left
      have hs2 : s2 ⊆ U := h3 ▸ Finset.subset_union_right
      obtain ⟨a1, a2, a3⟩ := S.role_set (fun x hx => hUn.2.nodes x (hs1 hx)) h4
      obtain ⟨b1, b2, b3⟩ := S.role_set (fun x hx => hUn.2.nodes x (hs2 hx)) h5
      exact ⟨⟨⟨h1, by omega, (Finset.card_le_card hs1).trans hUn.1, a2, h4⟩, h2, by omega, (Finset.card_le_card hs2).trans hUn.1, b2, h5⟩, h3⟩
  have hunion : ∀ p ∈ C q1 ×ˢ C q2, p.1 ∪ p.2 ∈ V := by
    rintro ⟨s1, s2⟩ hp
    rw [Finset.mem_product, hC, hC] at hp
    obtain ⟨⟨h1, h2, -, h3, h4⟩, k1, -, -, k3, k4⟩ := hp
    dsimp only at h1 h2 h3 h4 k1 k3 k4 ⊢
    rw [hV]
    refine ⟨Finset.mem_union_left _ h1, h2.trans (Finset.card_le_card Finset.subset_union_left), ?_, connected_union h3 k3 h1 k1⟩
    have a1 := (S.role_set h3.nodes h4).1
    have b1 := (S.role_set k3.nodes k4).1
    have := Finset.card_union_add_card_inter s1 s2
    have : 1 ≤ (s1 ∩ s2).card := Finset.card_pos.2 ⟨v, Finset.mem_inter.2 ⟨h1, k1⟩⟩
    omega
  -- the sum over all unions
  have e1 : (C q1).card * (C q2).card = ∑ U ∈ V, (F U).card := by
    rw [← Finset.card_product]
    exact Finset.card_eq_sum_card_fiberwise fun p hp => hunion p hp
  -- each union has one orbit
  have huniq : ∀ U ∈ V, ∃ q0 ∈ ol, ∀ q ∈ ol, Role c allowed T.nets (Spec.shown ops) U v q ↔ q = q0 := by
    intro U hU
    obtain ⟨h1, h2, h3, h4⟩ := (hV U).1 hU
    obtain ⟨m, k, iso, -, h⟩ := S.identify hnet hlay h4 h2 (h3.trans hn)
    obtain ⟨o, -, ho, hr⟩ := h v h1
    exact ⟨_, ho, fun q hq => (hr q hq).symm⟩
  let Q := ol.toFinset.filter fun q => q1.1 ≤ q.1 ∧ q2.1 ≤ q.1 ∧ q.1 < q1.1 + q2.1
  have hswap : ∑ U ∈ V, (F U).card = ∑ q ∈ Q, ∑ U ∈ C q, (F U).card := by
    have : ∀ q, ∑ U ∈ C q, (F U).card = ∑ U ∈ V, if Role c allowed T.nets (Spec.shown ops) U v q then (F U).card else 0 := by
      intro q
      rw [Finset.sum_filter]
    simp only [this]
    rw [Finset.sum_comm]
    refine Finset.sum_congr rfl fun U hU => ?_
    obtain ⟨q0, h0, h1⟩ := huniq U hU
    obtain ⟨u1, u2, u3, u4⟩ := (hV U).1 hU
    have hq0 := (S.role_set u4.nodes ((h1 q0 h0).2 rfl)).1
    by_cases hin : q0 ∈ Q
    · rw [Finset.sum_eq_single_of_mem q0 hin]
      · rw [if_pos ((h1 q0 h0).2 rfl)]
      · intro q hq hne
        rw [if_neg]
        intro hr
        exact hne ((h1 q (List.mem_toFinset.1 (Finset.mem_filter.1 hq).1)).1 hr)
    · rw [Finset.sum_eq_zero]
      · rw [Finset.card_eq_zero, Finset.eq_empty_iff_forall_notMem]
        rintro ⟨s1, s2⟩ hp
        refine hin (Finset.mem_filter.2 ⟨List.mem_toFinset.2 h0, ?_⟩)
        obtain ⟨hp1, hp2⟩ := Finset.mem_filter.1 hp
        dsimp only at hp2
        rw [Finset.mem_product, hC, hC] at hp1
        obtain ⟨⟨a1, -, -, a3, a4⟩, b1, -, -, b3, b4⟩ := hp1
        dsimp only at a1 a3 a4 b1 b3 b4
        have c1 := (S.role_set a3.nodes a4).1
        have c2 := (S.role_set b3.nodes b4).1
        have hun := Finset.card_union_add_card_inter s1 s2
        have : 1 ≤ (s1 ∩ s2).card := Finset.card_pos.2 ⟨v, Finset.mem_inter.2 ⟨a1, b1⟩⟩
        have d1 : s1.card ≤ U.card := Finset.card_le_card (hp2 ▸ Finset.subset_union_left)
        have d2 : s2.card ≤ U.card := Finset.card_le_card (hp2 ▸ Finset.subset_union_right)
        rw [hp2] at hun
        omega
      · intro q hq
        rw [if_neg]
        intro hr
        obtain rfl := (h1 q (List.mem_toFinset.1 (Finset.mem_filter.1 hq).1)).1 hr
        exact hin hq
  have hfib : ∀ q ∈ Q, ∑ U ∈ C q, (F U).card = (C q).card * P q := by
    intro q hq
    obtain ⟨hqol, z1, z2, z3⟩ := Finset.mem_filter.1 hq
    rw [List.mem_toFinset] at hqol
    rw [Finset.sum_const_nat (m := P q)]
    intro U hU
    have hUC := (hC q U).1 hU
    have hUV : U ∈ V := (Finset.mem_filter.1 hU).1
    obtain ⟨ops', hst, f0, f1, hf, hfv⟩ := hUC.2.2.2.2
    have hc := (S.role_set hUC.2.2.2.1.nodes hUC.2.2.2.2).1
    rw [hF U hUV, S.pairs_image hUC.2.2.2.1.nodes hf hUC.1, hfv, hc]
    exact hP q hqol ops' hst z1 z2 z3
  rw [hcount, hcount, e1, hswap, Finset.sum_congr rfl hfib]
  have : Q = (ol.filter fun q => q1.1 ≤ q.1 ∧ q2.1 ≤ q.1 ∧ q.1 < q1.1 + q2.1).toFinset := by
    ext q
    simp [Q]
  rw [this, List.sum_toFinset _ (hnd.filter _)]
  simp only [hcount]

end Pymnet
