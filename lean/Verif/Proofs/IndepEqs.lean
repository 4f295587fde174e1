import Verif.Model.IndepEqs
import Verif.Props.OrbitEqs
import Verif.Props.IndepEq2

/-! Lemmas for C137: the equations of orbits with two nodes. -/

set_option linter.unusedSectionVars false
set_option linter.unusedSimpArgs false
set_option linter.unusedVariables false

namespace Pymnet

open Py MPlex

variable {α W β σ : Type} [DecidableEq α] [DecidableEq W] [Zero W] [LawfulIntNames α] [LinearOrder α] [DecidableEq σ] [One W]
  {canon : CGraph → β} {str : List (List α × Nat) × β → σ} {allowed : Option (List Nat)} {c : Coupling α W}
  {idx : Nat → α} {layers : List α} {nl N n : Nat} {T : Tables α W σ}
  {match? : CGraph → CGraph → Option (Dict Nat Nat)} {ord : Finset α → List α}
  {ol : List (Orbit α)} {q q1 q2 q3 q4 : Orbit α} {v : α} {p p1 p2 : MPlex α W} {g g1 g2 : Spec.Multigraph α} {A A1 A2 : Finset α}

/-- a node of a set of nodes has one role -/
theorem AtOrbit.role_unique (S : Setup canon str match? allowed c idx layers nl N ord T ol)
    (hG : AtOrbit T c idx layers nl N q p g A) {s : Finset α} (hs : ∀ x ∈ s, g.node x) (hv : v ∈ s)
    (hq1 : q1 ∈ ol) (hq2 : q2 ∈ ol) (r1 : Role c allowed T.nets g s v q1) (r2 : Role c allowed T.nets g s v q2) : q1 = q2 := by
  obtain ⟨k1, k2, k3⟩ := S.role_set hs r1
  obtain ⟨ops, rfl, hok, rfl⟩ := hG.is
  have hle : s.card ≤ N := by rw [k1]; exact ((S.ol _).1 hq1).1
  obtain ⟨m, k, iso, -, h⟩ := S.identify hok hG.layer k2 (by omega) hle
  obtain ⟨o, -, -, h⟩ := h v hv
  rw [(h q1 hq1).2 r1, (h q2 hq2).2 r2]

/-- two pairs of orbits with two nodes that are roles of the same node in coverings of a graphlet with three nodes are the same -/
theorem pairs_unique (S : Setup canon str match? allowed c idx layers nl N ord T ol)
    (hq : q ∈ ol) (h3 : q.1 = 3) (hq1 : q1 ∈ ol) (hq2 : q2 ∈ ol) (hq3 : q3 ∈ ol) (hq4 : q4 ∈ ol) (e1 : q1.1 = 2) (e2 : q2.1 = 2)
    (e3 : q3.1 = 2) (e4 : q4.1 = 2) (h1 : 0 < pairsAt c allowed T.nets q1 q2 q) (h2 : 0 < pairsAt c allowed T.nets q3 q4 q) :
    q1 = q3 ∧ q2 = q4 ∨ q1 = q4 ∧ q2 = q3 := by
  obtain ⟨ops, A, hG⟩ := S.atOrbit hq
  rw [← pairsAt_eq hG.stored] at h1 h2
  obtain ⟨⟨s, t⟩, b1, b2, b3, b4, b5, b6⟩ := Set.nonempty_of_ncard_ne_zero h1.ne'
  obtain ⟨⟨s', t'⟩, d1, d2, d3, d4, d5, d6⟩ := Set.nonempty_of_ncard_ne_zero h2.ne'
  dsimp only at *
  have ns : ∀ x ∈ s, (Spec.shown ops).node x := fun x hx => (b3 x).2 (Or.inl hx)
  have nt : ∀ x ∈ t, (Spec.shown ops).node x := fun x hx => (b3 x).2 (Or.inr hx)
  have ns' : ∀ x ∈ s', (Spec.shown ops).node x := fun x hx => (d3 x).2 (Or.inl hx)
  have nt' : ∀ x ∈ t', (Spec.shown ops).node x := fun x hx => (d3 x).2 (Or.inr hx)
  have cs := (S.role_set ns b5).1
  have ct := (S.role_set nt b6).1
  have cs' := (S.role_set ns' d5).1
  have ct' := (S.role_set nt' d6).1
  have two : ∀ r : Finset α, q.2.2 ∈ r → r.card = 2 → ∃ x, x ≠ q.2.2 ∧ r = {q.2.2, x} := by
    intro r hr hc
    obtain ⟨x, y, hxy, rfl⟩ := Finset.card_eq_two.1 hc
    simp only [Finset.mem_insert, Finset.mem_singleton] at hr
    rcases hr with h | h
    · exact ⟨y, h ▸ hxy.symm, by rw [h]⟩
    · exact ⟨x, h ▸ hxy, by rw [h, Finset.pair_comm]⟩
  obtain ⟨x, hx, rfl⟩ := two s b1 (cs.trans e1)
  obtain ⟨y, hy, rfl⟩ := two t b2 (ct.trans e2)
  obtain ⟨x', hx', rfl⟩ := two s' d1 (cs'.trans e3)
  obtain ⟨y', hy', rfl⟩ := two t' d2 (ct'.trans e4)
  have hxy : x ≠ y := by
    rintro rfl
    rw [Finset.inter_self, cs, e1] at b4
    omega
  have hxy' : x' ≠ y' := by
    rintro rfl
    rw [Finset.inter_self, cs', e3] at d4
    omega
  have hall : ∀ z, (z = q.2.2 ∨ z = x) ∨ z = q.2.2 ∨ z = y ↔ (z = q.2.2 ∨ z = x') ∨ z = q.2.2 ∨ z = y' := by
    intro z
    have k1 := b3 z
    have k2 := d3 z
    simp only [Finset.mem_insert, Finset.mem_singleton] at k1 k2
    rw [← k1, ← k2]
  have k1 := (hall x).1 (by simp)
  have k2 := (hall y).1 (by simp)
  rcases k1 with (k1 | k1) | k1 | k1
  · exact absurd k1 hx
  · subst k1
    have : y = y' := by
      rcases k2 with (k2 | k2) | k2 | k2
      · exact absurd k2 hy
      · exact absurd k2.symm hxy
      · exact absurd k2 hy
      · exact k2
    subst this
    exact Or.inl ⟨hG.role_unique S ns b1 hq1 hq3 b5 d5, hG.role_unique S nt b2 hq2 hq4 b6 d6⟩
  · exact absurd k1 hx
  · subst k1
    have : y = x' := by
      rcases k2 with (k2 | k2) | k2 | k2
      · exact absurd k2 hy
      · exact k2
      · exact absurd k2 hy
      · exact absurd k2.symm hxy
    subst this
    exact Or.inr ⟨hG.role_unique S ns b1 hq1 hq4 b5 d6, hG.role_unique S nt b2 hq2 hq3 b6 d5⟩

/-- the layers with a link of a graphlet with two nodes -/
theorem AtOrbit.two_nodes (h : AtOrbit T c idx layers nl N q p g A) (h2 : q.1 = 2) :
    ∃ w, w ≠ q.2.2 ∧ (∀ x, g.node x ↔ x = q.2.2 ∨ x = w) ∧ (∃ x, g.link x q.2.2 w) ∧
      ∀ x i j, g.link x i j ↔ g.link x q.2.2 w ∧ (i = q.2.2 ∧ j = w ∨ i = w ∧ j = q.2.2) := by
  obtain ⟨a, b, hab, hA⟩ := Finset.card_eq_two.1 (h.card.trans h2)
  obtain ⟨w, hw, hA'⟩ : ∃ w, w ≠ q.2.2 ∧ A = {q.2.2, w} := by
    have := h.rep
    rw [hA] at this ⊢
    simp only [Finset.mem_insert, Finset.mem_singleton] at this
    rcases this with h | h
    · exact ⟨b, h ▸ hab.symm, by rw [h]⟩
    · exact ⟨a, h ▸ hab, by rw [h, Finset.pair_comm]⟩
  have hn : ∀ x, g.node x ↔ x = q.2.2 ∨ x = w := by
    intro x
    rw [← h.mem, hA']
    simp
  have hl : ∀ x i j, g.link x i j → i = q.2.2 ∧ j = w ∨ i = w ∧ j = q.2.2 := by
    intro x i j k
    obtain ⟨-, k1, k2, k3, -⟩ := h.is.link_node k
    rcases (hn i).1 k1 with rfl | rfl <;> rcases (hn j).1 k2 with rfl | rfl
    · exact absurd rfl k3
    · exact Or.inl ⟨rfl, rfl⟩
    · exact Or.inr ⟨rfl, rfl⟩
    · exact absurd rfl k3
  refine ⟨w, hw, hn, ?_, fun x i j => ⟨fun k => ⟨?_, hl x i j k⟩, ?_⟩⟩
  · have := h.conn.2 q.2.2 w h.rep (by rw [hA']; simp)
    rcases Relation.ReflTransGen.cases_head this with e | ⟨z, hz, -⟩
    · exact absurd e.symm hw
    · obtain ⟨-, -, x, -, k'⟩ := hz
      rcases hl _ _ _ k' with ⟨-, e⟩ | ⟨e, -⟩
      · exact ⟨x, e ▸ k'⟩
      · exact absurd e.symm hw
  · rcases hl x i j k with ⟨rfl, rfl⟩ | ⟨rfl, rfl⟩
    · exact k
    · exact (h.is.link_node k).2.2.2.2
  · rintro ⟨k, ⟨rfl, rfl⟩ | ⟨rfl, rfl⟩⟩
    · exact k
    · exact (h.is.link_node k).2.2.2.2

/-- three nodes, the first of which has links to the others -/
def twoLinks (L : α → Prop) (L1 L2 : α → Prop) (a b d : α) : Spec.Multigraph α where
  node x := x = a ∨ x = b ∨ x = d
  layer := L
  link x i j := L1 x ∧ (i = a ∧ j = b ∨ i = b ∧ j = a) ∨ L2 x ∧ (i = a ∧ j = d ∨ i = d ∧ j = a)

theorem twoLinks_swap (L L1 L2 : α → Prop) (a b d : α) : twoLinks L L1 L2 a b d = twoLinks L L2 L1 a d b := by
  unfold twoLinks
  congr 1
  · funext x
    exact propext ⟨by tauto, by tauto⟩
  · funext x i j
    exact propext or_comm

/-- the first node and the second have the roles of the first graphlet -/
theorem twoLinks_role (S : Setup canon str match? allowed c idx layers nl N ord T ol) (h : AtOrbit T c idx layers nl N q p g A)
    {w : α} (hw : w ≠ q.2.2) (hn : ∀ x, g.node x ↔ x = q.2.2 ∨ x = w)
    (hlk : ∀ x i j, g.link x i j ↔ g.link x q.2.2 w ∧ (i = q.2.2 ∧ j = w ∨ i = w ∧ j = q.2.2)) (L2 : α → Prop) {a b d : α}
    (hab : a ≠ b) (hbd : b ≠ d) (had : a ≠ d) :
    Role c allowed T.nets (twoLinks g.layer (fun x => g.link x q.2.2 w) L2 a b d) {a, b} a q := by
  obtain ⟨ops, rfl, hok, rfl⟩ := h.is
  refine ⟨ops, h.stored, fun z => if z = a then q.2.2 else w, id, ⟨fun h => absurd S.nodes h, fun _ _ => rfl, ?_, ?_, ?_, fun _ _ _ _ => Iff.rfl⟩,
    if_pos rfl⟩
  · refine ⟨fun x hx => ?_, fun x hx y hy e => ?_, fun y hy => ?_⟩
    · change (Spec.shown ops).node _
      rw [hn]
      dsimp only
      split
      · exact Or.inl rfl
      · exact Or.inr rfl
    · have hx' : x = a ∨ x = b := by simpa [subG] using hx
      have hy' : y = a ∨ y = b := by simpa [subG] using hy
      rcases hx' with rfl | rfl <;> rcases hy' with rfl | rfl
      · rfl
      · simp [hab.symm] at e; exact absurd e.symm hw
      · simp [hab.symm] at e; exact absurd e hw
      · rfl
    · rcases (hn y).1 hy with rfl | rfl
      · exact ⟨a, by simp [subG], by simp⟩
      · exact ⟨b, by simp [subG], by simp [hab.symm]⟩
  · exact Set.bijOn_id _
  · intro x i j hx hi hj
    have hi' : i = a ∨ i = b := by simpa [subG] using hi
    have hj' : j = a ∨ j = b := by simpa [subG] using hj
    change (_ ∨ _) ↔ _
    rw [hlk (id x)]
    rcases hi' with rfl | rfl <;> rcases hj' with rfl | rfl <;> simp [hab, hab.symm, hbd, hbd.symm, had, had.symm, hw, hw.symm]

/-- two orbits with two nodes are the roles of a node in a graphlet with three nodes -/
theorem pairs_exists (S : Setup canon str match? allowed c idx layers nl N ord T ol) (hN : 3 ≤ N)
    (h1 : AtOrbit T c idx layers nl N q1 p1 g1 A1) (h2 : AtOrbit T c idx layers nl N q2 p2 g2 A2) (hl : ∀ x, g1.layer x ↔ g2.layer x)
    (e1 : q1.1 = 2) (e2 : q2.1 = 2) : ∃ q ∈ ol, q.1 = 3 ∧ 0 < pairsAt c allowed T.nets q1 q2 q := by
  obtain ⟨w1, hw1, hn1, ⟨x1, hx1⟩, hlk1⟩ := h1.two_nodes e1
  obtain ⟨w2, hw2, hn2, ⟨x2, hx2⟩, hlk2⟩ := h2.two_nodes e2
  have hab : idx 0 ≠ idx 1 := fun h => by have := S.ok.idx h; omega
  have hbd : idx 1 ≠ idx 2 := fun h => by have := S.ok.idx h; omega
  have had : idx 0 ≠ idx 2 := fun h => by have := S.ok.idx h; omega
  have hlay : g1.layer = g2.layer := funext fun x => propext (hl x)
  set a := idx 0
  set b := idx 1
  set d := idx 2
  set G : Spec.Multigraph α := twoLinks g1.layer (fun x => g1.link x q1.2.2 w1) (fun x => g2.link x q2.2.2 w2) a b d with hG
  have r1 : Role c allowed T.nets G {a, b} a q1 := twoLinks_role S h1 hw1 hn1 hlk1 _ hab hbd had
  have r2 : Role c allowed T.nets G {a, d} a q2 := by
    rw [hG, twoLinks_swap, hlay]
    exact twoLinks_role S h2 hw2 hn2 hlk2 _ had hbd.symm hab
  have lab : G.layer x1 ∧ G.link x1 a b ∧ G.link x1 b a :=
    ⟨(h1.is.link_node hx1).1, Or.inl ⟨hx1, Or.inl ⟨rfl, rfl⟩⟩, Or.inl ⟨hx1, Or.inr ⟨rfl, rfl⟩⟩⟩
  have lad : G.layer x2 ∧ G.link x2 a d ∧ G.link x2 d a :=
    ⟨(hl _).2 (h2.is.link_node hx2).1, Or.inr ⟨hx2, Or.inl ⟨rfl, rfl⟩⟩, Or.inr ⟨hx2, Or.inr ⟨rfl, rfl⟩⟩⟩
  have na : G.node a := Or.inl rfl
  have nb : G.node b := Or.inr (Or.inl rfl)
  have nd : G.node d := Or.inr (Or.inr rfl)
  have fromA : ∀ i, G.node i → Relation.ReflTransGen (fun i j => G.node i ∧ G.node j ∧ ∃ x, G.layer x ∧ G.link x i j) a i := by
    rintro i (rfl | rfl | rfl)
    · exact .refl
    · exact .single ⟨na, nb, x1, lab.1, lab.2.1⟩
    · exact .single ⟨na, nd, x2, lad.1, lad.2.1⟩
  have toA : ∀ i, G.node i → Relation.ReflTransGen (fun i j => G.node i ∧ G.node j ∧ ∃ x, G.layer x ∧ G.link x i j) i a := by
    rintro i (rfl | rfl | rfl)
    · exact .refl
    · exact .single ⟨nb, na, x1, lab.1, lab.2.2⟩
    · exact .single ⟨nd, na, x2, lad.1, lad.2.2⟩
  obtain ⟨k, ops, hst, hgen, f0, f1, hf⟩ := S.tab.all S.nodes 3 (by omega) (hN.trans (le_max_left _ _)) G
    ⟨⟨[a, b, d], by simp [hab, hbd, had], rfl, fun x => by simp [hG, twoLinks]⟩, h1.layer, fun i j hi hj => (toA i hi).trans (fromA j hj)⟩
    (by
      rintro x i j (⟨u, h⟩ | ⟨u, h⟩)
      · exact Or.inl ⟨u, h.symm.imp And.symm And.symm⟩
      · exact Or.inr ⟨u, h.symm.imp And.symm And.symm⟩)
    (by
      rintro x i (⟨u, ⟨h, h'⟩ | ⟨h, h'⟩⟩ | ⟨u, ⟨h, h'⟩ | ⟨h, h'⟩⟩)
      · exact hab (h.symm.trans h')
      · exact hab (h'.symm.trans h)
      · exact had (h.symm.trans h')
      · exact had (h'.symm.trans h))
  have : Inhabited α := ⟨a⟩
  obtain ⟨e0, e1', he, -, -⟩ := hf.symm
  have hnode : (Spec.shown ops).node (e0 a) := he.nodes.mapsTo na
  obtain ⟨o, ho, ⟨u0, u1, hu, huo⟩, -⟩ := S.auts.val 3 k ops hst _ hnode
  refine ⟨(3, k, o), (S.ol _).2 ⟨hN, ops, _, hst, hnode, ho⟩, rfl, ?_⟩
  rw [← pairsAt_eq (q := (3, k, o)) hst]
  have hd := he.trans hu
  have hU : ∀ x, x ∈ ({a, b, d} : Finset α) ↔ G.node x := fun x => by simp [hG, twoLinks]
  have hd' : MIso (cplRel c) (Spec.mayChange 1 allowed) (subG G {a, b, d}) (Spec.shown ops) (u0 ∘ e0) (u1 ∘ e1') :=
    hd.congr_source (fun x => (hU x).symm) (fun x => Iff.rfl) (fun x i j _ _ _ => Iff.rfl)
  have hcard : ({a, b, d} : Finset α).card = 3 := by
    rw [Finset.card_insert_of_notMem (by simp [hab, had]), Finset.card_pair hbd]
  have key := S.pairs_image (q1 := q1) (q2 := q2) (v := a) (fun x hx => (hU x).1 hx) hd' (by simp)
  rw [hcard, show (u0 ∘ e0) a = o from huo] at key
  change 0 < (Pairs c allowed T.nets (Spec.shown ops) o (q1.1 + q2.1 - 3) q1 q2).ncard
  have hfin : (PairsOf c allowed T.nets G a {a, b, d} q1 q2).Finite := by
    refine Set.Finite.subset (((Finset.finite_toSet ({a, b, d} : Finset α).powerset).prod (Finset.finite_toSet ({a, b, d} : Finset α).powerset))) ?_
    rintro ⟨s, t⟩ ⟨-, -, hst, -, -⟩
    dsimp only at hst
    refine ⟨?_, ?_⟩
    · simp only [Finset.coe_powerset, Set.mem_preimage, Set.mem_powerset_iff, Finset.coe_subset]
      rw [← hst]; exact Finset.subset_union_left
    · simp only [Finset.coe_powerset, Set.mem_preimage, Set.mem_powerset_iff, Finset.coe_subset]
      rw [← hst]; exact Finset.subset_union_right
  rw [← key, Set.ncard_pos hfin]
  refine ⟨({a, b}, {a, d}), by simp, by simp, ?_, r1, r2⟩
  ext x
  simp
  try tauto

end Pymnet
