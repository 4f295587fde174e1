import Verif.Props.Laws
import Verif.Props.Transforms2

/-! C159: aggregating twice. -/

set_option linter.unusedSectionVars false

namespace Pymnet

open Py

variable {α W : Type} [DecidableEq α] [DecidableEq W]

variable {m : MNet α W} {d : Nat} {dir al : Bool} {S : Nat → α → Prop} {NL : List α → Prop} {R : List α → List α → W}

/-! ### Internal lemmas -/

theorem sum_fibres [AddCommMonoid W] (N N1 : Finset (List α)) (r : List α → List α) (P : List α → Prop) [DecidablePred P] (F : List α → W) :
    ∑ x ∈ N1 with P x, ∑ a ∈ N with r a = x, F a = ∑ a ∈ N with r a ∈ N1 ∧ P (r a), F a := by
  rw [Finset.sum_comm' (s' := fun a => {r a}) (t' := N.filter fun a => r a ∈ N1 ∧ P (r a)) ?_]
  · simp
  · intro x y
    simp only [Finset.mem_filter, Finset.mem_singleton]
    constructor
    · rintro ⟨⟨h1, h2⟩, h3, rfl⟩; exact ⟨rfl, h3, h1, h2⟩
    · rintro ⟨rfl, h3, h1, h2⟩; exact ⟨⟨h1, h2⟩, h3, rfl⟩

theorem reduce_head {asp : List Nat} (h0 : 0 ∉ asp) (nl : List α) (x : α) : (Spec.reduce asp nl)[0]? = some x ↔ nl[0]? = some x := by
  cases nl with
  | nil => simp [Spec.reduce]
  | cons n l => rw [reduce_cons h0]; simp

theorem collapsed_twice [AddCommMonoid W] (N N1 : Finset (List α)) (asp1 asp2 asp12 : List Nat)
    (hcomp : ∀ a ∈ N, Spec.reduce asp2 (Spec.reduce asp1 a) = Spec.reduce asp12 a) {u w : List α} (huw : u ≠ w)
    (hN : ∀ a ∈ N, ∀ b ∈ N, Spec.reduce asp12 a = u → Spec.reduce asp12 b = w → R a b ≠ 0 →
      Spec.reduce asp1 a ∈ N1 ∧ Spec.reduce asp1 b ∈ N1) :
    Spec.collapsed N1 asp2 (fun x y => if x = y then 0 else Spec.collapsed N asp1 R x y) u w = Spec.collapsed N asp12 R u w := by
  have e1 : Spec.collapsed N1 asp2 (fun x y => if x = y then 0 else Spec.collapsed N asp1 R x y) u w =
      ∑ x ∈ N1 with Spec.reduce asp2 x = u, ∑ a ∈ N with Spec.reduce asp1 a = x, ∑ y ∈ N1 with Spec.reduce asp2 y = w,
        ∑ b ∈ N with Spec.reduce asp1 b = y, R a b := by
    unfold Spec.collapsed
    refine Finset.sum_congr rfl fun x hx => ?_
    rw [Finset.sum_comm]
    refine Finset.sum_congr rfl fun y hy => ?_
    have hxy : x ≠ y := by
      rintro rfl
      exact huw ((Finset.mem_filter.1 hx).2.symm.trans (Finset.mem_filter.1 hy).2)
    show (if x = y then 0 else _) = _
    rw [if_neg hxy]
  rw [e1, sum_fibres N N1 (Spec.reduce asp1) (fun x => Spec.reduce asp2 x = u)
    (fun a => ∑ y ∈ N1 with Spec.reduce asp2 y = w, ∑ b ∈ N with Spec.reduce asp1 b = y, R a b)]
  simp only [sum_fibres N N1 (Spec.reduce asp1) (fun y => Spec.reduce asp2 y = w)]
  unfold Spec.collapsed
  rw [Finset.sum_subset (s₁ := N.filter fun a => Spec.reduce asp1 a ∈ N1 ∧ Spec.reduce asp2 (Spec.reduce asp1 a) = u)
    (s₂ := N.filter fun a => Spec.reduce asp12 a = u)]
  · refine Finset.sum_congr rfl fun a ha => ?_
    obtain ⟨ha, hau⟩ := Finset.mem_filter.1 ha
    refine Finset.sum_subset (fun b hb => ?_) fun b hb hnb => ?_
    · obtain ⟨q1, -, q3⟩ := Finset.mem_filter.1 hb
      exact Finset.mem_filter.2 ⟨q1, by rw [← hcomp b q1]; exact q3⟩
    · obtain ⟨q1, q2⟩ := Finset.mem_filter.1 hb
      by_contra hne
      exact hnb (Finset.mem_filter.2 ⟨q1, (hN a ha b q1 hau q2 hne).2, by rw [hcomp b q1]; exact q2⟩)
  · intro b hb
    obtain ⟨q1, -, q3⟩ := Finset.mem_filter.1 hb
    exact Finset.mem_filter.2 ⟨q1, by rw [← hcomp b q1]; exact q3⟩
  · intro a ha hna
    obtain ⟨ha, hau⟩ := Finset.mem_filter.1 ha
    refine Finset.sum_eq_zero fun b hb => ?_
    obtain ⟨q1, -, q2⟩ := Finset.mem_filter.1 hb
    by_contra hne
    rw [hcomp b q1] at q2
    exact hna (Finset.mem_filter.2 ⟨ha, (hN a ha b q1 hau q2 hne).1, by rw [hcomp a ha]; exact hau⟩)

/-! ### C159 -/

/-- **C159.** For every general network with missing value 0: aggregating over some aspects, and then over some of those that are
left, gives a network with the same nodes, elementary layers, node-layers and link weights as aggregating over all of them at once, and
if the result is node-aligned or has at most one aspect, the two are `==`. In a node-aligned network of which some aspect is left
the weights must not be negative: layers stay if they have links, and links could cancel. -/
theorem C159_aggregate_twice [AddCommMonoid W] [PartialOrder W] [IsOrderedAddMonoid W] (h : Spec.Looks m d (0 : W) dir al S NL R)
    {asp1 asp2 asp12 : List Nat} (hn1 : asp1.Nodup) (hr1 : ∀ a ∈ asp1, 1 ≤ a ∧ a ≤ d) (hn2 : asp2.Nodup)
    (hr2 : ∀ a ∈ asp2, 1 ≤ a ∧ a ≤ d - asp1.length) (hn12 : asp12.Nodup) (hr12 : ∀ a ∈ asp12, 1 ≤ a ∧ a ≤ d)
    (hcomp : ∀ a : List α, a.length = d + 1 → Spec.reduce asp2 (Spec.reduce asp1 a) = Spec.reduce asp12 a)
    (hlen : asp12.length = asp1.length + asp2.length)
    (hpos : al = true → d ≠ asp12.length → ∀ a b, NL a → NL b → 0 ≤ R a b) :
    ∃ m1 m2 m12 S' NL' R', m.view.aggregate asp1 false = .ok m1 ∧ m1.view.aggregate asp2 false = .ok m2 ∧
      m.view.aggregate asp12 false = .ok m12 ∧
      Spec.Looks m2 (d - asp12.length) 0 dir (decide (d - asp12.length = 0) || al) S' NL' R' ∧
      Spec.Looks m12 (d - asp12.length) 0 dir (decide (d - asp12.length = 0) || al) S' NL' R' ∧
      (al = true ∨ d - asp12.length ≤ 1 → m2.eq m12 = .ok true ∧ m12.eq m2 = .ok true) := by
  obtain ⟨m1, e1, l1⟩ := C26_aggregate h hn1 hr1
  obtain ⟨m2, e2, l2⟩ := C26_aggregate l1 hn2 hr2
  obtain ⟨m12, e12, l12⟩ := C26_aggregate h hn12 hr12
  have len1 : asp1.length ≤ d := asp_length_le hn1 hr1
  have len12 : asp12.length ≤ d := asp_length_le hn12 hr12
  have hd2 : d - asp1.length - asp2.length = d - asp12.length := by omega
  rw [hd2] at l2
  have hal2 : (decide (d - asp12.length = 0) || (decide (d - asp1.length = 0) || al)) = (decide (d - asp12.length = 0) || al) := by
    by_cases q : d - asp12.length = 0
    · simp [q]
    · have : d - asp1.length ≠ 0 := by omega
      simp [this]
  rw [hal2] at l2
  have h01 : 0 ∉ asp1 := fun q => by have := hr1 0 q; omega
  have h02 : 0 ∉ asp2 := fun q => by have := hr2 0 q; omega
  have h012 : 0 ∉ asp12 := fun q => by have := hr12 0 q; omega
  have hfin : ∀ a, a ∈ m.nodeLayers.toFinset ↔ NL a := fun a => by rw [List.mem_toFinset]; exact h.nodeLayers.2 a
  have hfin1 := fun a => (List.mem_toFinset (l := m1.nodeLayers) (a := a)).trans (l1.nodeLayers.2 a)
  have hcompN : ∀ a, NL a → Spec.reduce asp2 (Spec.reduce asp1 a) = Spec.reduce asp12 a := fun a ha => hcomp a (h.nl_length ha)
  -- linked node-layers that stay apart
  have kept : ∀ a b, NL a → NL b → R a b ≠ 0 → Spec.reduce asp1 a ≠ Spec.reduce asp1 b →
      Spec.AggNodeLayers (d - asp1.length) asp1 al (Spec.AggNames asp1 false al S NL R) NL (Spec.reduce asp1 a) ∧
      Spec.AggNodeLayers (d - asp1.length) asp1 al (Spec.AggNames asp1 false al S NL R) NL (Spec.reduce asp1 b) := by
    intro a b ha hb hne hr
    unfold Spec.AggNodeLayers
    split_ifs
    · exact ⟨⟨length_reduce_nl h hn1 hr1 ha, fun i x hx => Or.inr (Or.inl ⟨a, b, ha, hb, hne, Or.inr hr, Or.inl hx⟩)⟩,
        ⟨length_reduce_nl h hn1 hr1 hb, fun i x hx => Or.inr (Or.inl ⟨a, b, ha, hb, hne, Or.inr hr, Or.inr hx⟩)⟩⟩
    · exact ⟨⟨a, ha, rfl⟩, ⟨b, hb, rfl⟩⟩
  have apart : ∀ a b, NL a → NL b → Spec.reduce asp12 a ≠ Spec.reduce asp12 b → Spec.reduce asp1 a ≠ Spec.reduce asp1 b := by
    intro a b ha hb hne he
    exact hne (by rw [← hcompN a ha, ← hcompN b hb, he])
  -- nodes
  have node : ∀ (asp : List Nat) x, 0 ∉ asp → (Spec.AggNames asp false al S NL R 0 x ↔ S 0 x) := by
    intro asp x h0
    constructor
    · rintro (⟨-, hx⟩ | ⟨a, b, ha, hb, -, -, hx | hx⟩ | ⟨-, a, ha, hx⟩)
      · exact hx
      · exact ((h.names ha).2 0 x ((reduce_head h0 a x).1 hx)).2
      · exact ((h.names hb).2 0 x ((reduce_head h0 b x).1 hx)).2
      · exact ((h.names ha).2 0 x ((reduce_head h0 a x).1 hx)).2
    · intro hx; exact Or.inl ⟨rfl, hx⟩
  -- names
  have names : ∀ k ≤ d - asp12.length, ∀ x, Spec.AggNames asp2 false (decide (d - asp1.length = 0) || al)
      (Spec.AggNames asp1 false al S NL R)
      (Spec.AggNodeLayers (d - asp1.length) asp1 al (Spec.AggNames asp1 false al S NL R) NL)
      (fun u w => if u = w then 0 else Spec.collapsed m.nodeLayers.toFinset asp1 R u w) k x ↔ Spec.AggNames asp12 false al S NL R k x := by
    intro k hk x
    rcases Nat.eq_zero_or_pos k with rfl | hkpos
    · rw [node asp12 x h012]
      constructor
      · rintro (⟨-, hx⟩ | ⟨a, b, ha, hb, -, -, hx | hx⟩ | ⟨-, a, ha, hx⟩)
        · exact (node asp1 x h01).1 hx
        · exact (node asp1 x h01).1 ((l1.names ha).2 0 x ((reduce_head h02 a x).1 hx)).2
        · exact (node asp1 x h01).1 ((l1.names hb).2 0 x ((reduce_head h02 b x).1 hx)).2
        · exact (node asp1 x h01).1 ((l1.names ha).2 0 x ((reduce_head h02 a x).1 hx)).2
      · intro hx; exact Or.inl ⟨rfl, (node asp1 x h01).2 hx⟩
    · have hk0 : k ≠ 0 := by omega
      have hd1 : d - asp1.length ≠ 0 := by omega
      cases al with
      | false =>
        have hNL1 : ∀ u, Spec.AggNodeLayers (d - asp1.length) asp1 false (Spec.AggNames asp1 false false S NL R) NL u ↔
            ∃ a, NL a ∧ u = Spec.reduce asp1 a := by
          intro u; unfold Spec.AggNodeLayers; rw [if_neg (by simp [hd1])]
        constructor
        · rintro (⟨q, -⟩ | ⟨a, b, ha, hb, -, -, hx | hx⟩ | ⟨-, a, ha, hx⟩)
          · exact absurd q hk0
          · obtain ⟨a, hA, rfl⟩ := (hNL1 a).1 ha
            exact Or.inr (Or.inr ⟨rfl, a, hA, by rw [← hcompN a hA]; exact hx⟩)
          · obtain ⟨a, hA, rfl⟩ := (hNL1 b).1 hb
            exact Or.inr (Or.inr ⟨rfl, a, hA, by rw [← hcompN a hA]; exact hx⟩)
          · obtain ⟨a, hA, rfl⟩ := (hNL1 a).1 ha
            exact Or.inr (Or.inr ⟨rfl, a, hA, by rw [← hcompN a hA]; exact hx⟩)
        · have key : ∀ a, NL a → (Spec.reduce asp12 a)[k]? = some x → Spec.AggNames asp2 false (decide (d - asp1.length = 0) || false)
              (Spec.AggNames asp1 false false S NL R)
              (Spec.AggNodeLayers (d - asp1.length) asp1 false (Spec.AggNames asp1 false false S NL R) NL)
              (fun u w => if u = w then 0 else Spec.collapsed m.nodeLayers.toFinset asp1 R u w) k x := fun a ha hx =>
            Or.inr (Or.inr ⟨by simp [hd1], Spec.reduce asp1 a, (hNL1 _).2 ⟨a, ha, rfl⟩, by rw [hcompN a ha]; exact hx⟩)
          rintro (⟨q, -⟩ | ⟨a, b, ha, hb, -, -, hx | hx⟩ | ⟨-, a, ha, hx⟩)
          · exact absurd q hk0
          · exact key a ha hx
          · exact key b hb hx
          · exact key a ha hx
      | true =>
        have hp := hpos rfl (by omega)
        constructor
        · rintro (⟨q, -⟩ | ⟨u, v, hu, hv, hne, hd | hd, hx⟩ | ⟨q, -⟩)
          · exact absurd q hk0
          · exact absurd hd (by simp)
          · have huv : u ≠ v := fun e => hd (by rw [e])
            dsimp only at hne
            rw [if_neg huv] at hne
            obtain ⟨a, ha, hne1⟩ := Finset.exists_ne_zero_of_sum_ne_zero hne
            obtain ⟨b, hb, hne2⟩ := Finset.exists_ne_zero_of_sum_ne_zero hne1
            obtain ⟨hA, rfl⟩ := Finset.mem_filter.1 ha
            obtain ⟨hB, rfl⟩ := Finset.mem_filter.1 hb
            rw [hfin] at hA hB
            rw [hcompN a hA, hcompN b hB] at hd hx
            exact Or.inr (Or.inl ⟨a, b, hA, hB, hne2, Or.inr hd, hx⟩)
          · exact absurd q (by simp)
        · rintro (⟨q, -⟩ | ⟨a, b, ha, hb, hne, hd | hd, hx⟩ | ⟨q, -⟩)
          · exact absurd q hk0
          · exact absurd hd (by simp)
          · have hr := apart a b ha hb hd
            obtain ⟨k1, k2⟩ := kept a b ha hb hne hr
            refine Or.inr (Or.inl ⟨_, _, k1, k2, ?_, Or.inr (by rw [hcompN a ha, hcompN b hb]; exact hd),
              by rw [hcompN a ha, hcompN b hb]; exact hx⟩)
            dsimp only
            rw [if_neg hr]
            have nn : ∀ x ∈ m.nodeLayers.toFinset.filter (fun y => Spec.reduce asp1 y = Spec.reduce asp1 a),
                0 ≤ ∑ y ∈ m.nodeLayers.toFinset with Spec.reduce asp1 y = Spec.reduce asp1 b, R x y := fun x hx =>
              Finset.sum_nonneg fun y hy => hp x y ((hfin x).1 (Finset.mem_filter.1 hx).1) ((hfin y).1 (Finset.mem_filter.1 hy).1)
            intro hz
            unfold Spec.collapsed at hz
            have hz2 := (Finset.sum_eq_zero_iff_of_nonneg nn).1 hz a (Finset.mem_filter.2 ⟨(hfin a).2 ha, rfl⟩)
            have hz3 := (Finset.sum_eq_zero_iff_of_nonneg (fun y hy => hp a y ha ((hfin y).1 (Finset.mem_filter.1 hy).1))).1 hz2 b
              (Finset.mem_filter.2 ⟨(hfin b).2 hb, rfl⟩)
            exact hne hz3
          · exact absurd q (by simp)
  have l2' : Spec.Looks m2 (d - asp12.length) 0 dir (decide (d - asp12.length = 0) || al) (Spec.AggNames asp12 false al S NL R)
      (Spec.AggNodeLayers (d - asp12.length) asp12 al (Spec.AggNames asp12 false al S NL R) NL)
      (fun u w => if u = w then 0 else Spec.collapsed m.nodeLayers.toFinset asp12 R u w) := by
    refine l2.congr names (fun u => ?_) (fun u w hu hw => ?_)
    · unfold Spec.AggNodeLayers
      by_cases q : d - asp12.length = 0 ∨ al = true
      · rw [if_pos q, if_pos (by rcases q with q | q <;> simp [q])]
        unfold Spec.AllNodeLayers
        refine and_congr_right fun hl => forall_congr' fun i => forall_congr' fun x => ?_
        refine imp_congr_right fun hx => ?_
        have := (List.getElem?_eq_some_iff.1 hx).1
        exact names i (by omega) x
      · rw [if_neg q]
        obtain ⟨q1, q2⟩ := not_or.1 q
        have hd1 : d - asp1.length ≠ 0 := by omega
        have q3 : ¬(d - asp1.length = 0 ∨ al = true) := by simp [q2, hd1]
        simp only [if_neg q3]
        rw [if_neg (by simp [q1, q2, hd1])]
        constructor
        · rintro ⟨_, ⟨a, ha, rfl⟩, rfl⟩; exact ⟨a, ha, hcompN a ha⟩
        · rintro ⟨a, ha, rfl⟩; exact ⟨_, ⟨a, ha, rfl⟩, (hcompN a ha).symm⟩
    · by_cases huw : u = w
      · rw [if_pos huw, if_pos huw]
      · rw [if_neg huw, if_neg huw]
        refine collapsed_twice _ _ _ _ _ (fun a ha => hcompN a ((hfin a).1 ha)) huw ?_
        intro a ha b hb hau hbw hne
        rw [hfin] at ha hb
        have := kept a b ha hb hne (apart a b ha hb (by rw [hau, hbw]; exact huw))
        exact ⟨(hfin1 _).2 this.1, (hfin1 _).2 this.2⟩
  refine ⟨m1, m2, m12, _, _, _, e1, e2, e12, l2', l12, fun hc => ?_⟩
  have hc' : (decide (d - asp12.length = 0) || al) = true ∨ d - asp12.length = 1 := by
    rcases hc with q | q
    · left; simp [q]
    · rcases Nat.eq_zero_or_pos (d - asp12.length) with q' | q'
      · left; simp [q']
      · right; omega
  exact ⟨l2'.eq l12 hc', l12.eq l2' hc'⟩

/-- the two aspects of a network that is not node-aligned aggregated one after the other, and at once -/
example : ∃ m1 m2 m12, (after 2 0 true false fullOps).view.aggregate [1] false = .ok m1 ∧ m1.view.aggregate [1] false = .ok m2 ∧
    (after 2 0 true false fullOps).view.aggregate [1, 2] false = .ok m12 ∧ m2.eq m12 = .ok true ∧
    m2.view.readItem [1, 2] = .ok (.weight 8) := by
  obtain ⟨m1, m2, m12, _, _, _, e1, e2, e12, -, -, h⟩ := C159_aggregate_twice (network_looks 2 0 true false fullOps) (asp1 := [1])
    (asp2 := [1]) (asp12 := [1, 2]) (by simp) (by simp) (by simp) (by simp) (by simp) (by simp)
    (by
      intro a ha
      obtain ⟨n, l1, l2, rfl⟩ := List.length_eq_three.1 ha
      rfl) rfl (by simp)
  refine ⟨m1, m2, m12, e1, e2, e12, (h (by simp)).1, ?_⟩
  cases e1
  cases e2
  decide +kernel

/-- one aspect of a node-aligned network with three aspects left -/
example : ∃ m1 m2 m12, (after 3 0 false true [.setItem [1, 2, 10, 20, 30] 5, .setItem [1, 2, 11, 21, 30] 3] : MNet Nat Int).view.aggregate
      [3] false = .ok m1 ∧ m1.view.aggregate [1] false = .ok m2 ∧
    (after 3 0 false true [.setItem [1, 2, 10, 20, 30] 5, .setItem [1, 2, 11, 21, 30] 3] : MNet Nat Int).view.aggregate [1, 3] false = .ok m12 ∧
    m2.eq m12 = .ok true := by
  obtain ⟨m1, m2, m12, _, _, _, e1, e2, e12, -, -, h⟩ := C159_aggregate_twice
    (network_looks 3 0 false true ([.setItem [1, 2, 10, 20, 30] 5, .setItem [1, 2, 11, 21, 30] 3] : List (Op Nat Int))) (asp1 := [3])
    (asp2 := [1]) (asp12 := [1, 3]) (by simp) (by simp) (by simp) (by simp) (by simp) (by simp)
    (by
      intro a ha
      rcases a with _ | ⟨n, _ | ⟨l1, _ | ⟨l2, _ | ⟨l3, _ | ⟨l4, t⟩⟩⟩⟩⟩ <;> simp at ha
      rfl) rfl (fun _ _ a b _ _ => by
        unfold Spec.read Spec.written
        simp only [List.foldl]
        split_ifs <;> simp)
  exact ⟨m1, m2, m12, e1, e2, e12, (h (by simp)).1⟩

end Pymnet
