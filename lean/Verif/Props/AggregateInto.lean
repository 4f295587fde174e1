import Verif.Proofs.AggregateInto

/-! C149: `aggregate` into a network given by the caller (/repo/pymnet/transforms.py 14-98). -/

set_option linter.unusedSectionVars false

namespace Pymnet

open Py

variable {α W : Type} [DecidableEq α] [DecidableEq W]

/-- **C149** (default): without `newNet`, `aggregate` does exactly what it does with an empty network of the remaining number of aspects that has the
direction, the missing value and the alignment of the source; whatever the source, the aspects and `selfEdges`. -/
theorem C149_default [Add W] (v : View α W) {asp : List Nat} (ha : asp.length ≤ v.aspects) (selfEdges : Bool) :
    v.aggregateInto (MNet.init (v.aspects - asp.length) v.noEdge v.directed v.fic) asp selfEdges = v.aggregate asp selfEdges := by
  have h1 : (MNet.init (α := α) (v.aspects - asp.length) v.noEdge v.directed v.fic).aspects = v.aspects - asp.length := rfl
  unfold View.aggregateInto View.aggregate
  rw [h1, if_neg (show ¬ (v.aspects - asp.length + asp.length ≠ v.aspects) by omega), if_neg (show ¬ v.aspects < asp.length by omega)]
  rfl

/-- **C149** (refused): a network whose number of aspects is not the remaining one is refused. -/
theorem C149_refused [Add W] (v : View α W) (m0 : MNet α W) {asp : List Nat} (h : m0.aspects + asp.length ≠ v.aspects) (selfEdges : Bool) :
    v.aggregateInto m0 asp selfEdges = .error .assertionError := by
  unfold View.aggregateInto
  rw [if_pos h]

namespace Spec

/-- The node-layers, with `d` aspects left, of a target that is not node-aligned after aggregating into it: its own, the ends of the links that are
kept, and all reduced node-layers if the source is not node-aligned (`al`) either. All tuples of names if the target is node-aligned (`al0`). -/
def IntoNodeLayers [Zero W] (d : Nat) (asp : List Nat) (al al0 : Bool) (S' : Nat → α → Prop) (NL NL0 : List α → Prop) (R : List α → List α → W)
    (u : List α) : Prop :=
  if al0 = true then AllNodeLayers d S' u
  else NL0 u ∨ (∃ a b, NL a ∧ NL b ∧ R a b ≠ 0 ∧ reduce asp a ≠ reduce asp b ∧ (u = reduce asp a ∨ u = reduce asp b)) ∨
    (al = false ∧ ∃ nl, NL nl ∧ u = reduce asp nl)

end Spec

/-- **C149** without self-edges, into a network that need not be empty. Missing: self-edges, and sources or targets whose missing value is not zero. -/
theorem C149_aggregate_into_partial [AddCommMonoid W] {m m0 : MNet α W} {d : Nat} {dir dir0 al al0 : Bool} {S S0 : Nat → α → Prop}
    {NL NL0 : List α → Prop} {R R0 : List α → List α → W} {asp : List Nat} (h : Spec.Looks m d (0 : W) dir al S NL R)
    (h0 : Spec.Looks m0 (d - asp.length) (0 : W) dir0 al0 S0 NL0 R0) (hn : asp.Nodup) (hr : ∀ a ∈ asp, 1 ≤ a ∧ a ≤ d) :
    ∃ m' R', m.view.aggregateInto m0 asp false = .ok m' ∧
      Spec.Looks m' (d - asp.length) 0 dir0 al0 (fun k x => S0 k x ∨ Spec.AggNames asp false (al || al0) S NL R k x)
        (Spec.IntoNodeLayers (d - asp.length) asp al al0 (fun k x => S0 k x ∨ Spec.AggNames asp false (al || al0) S NL R k x) NL NL0 R) R' ∧
      (∀ u, u.length = d - asp.length + 1 → R' u u = R0 u u) ∧
      (dir0 = dir → ∀ u w, u.length = d - asp.length + 1 → w.length = d - asp.length + 1 → u ≠ w →
        R' u w = R0 u w + Spec.collapsed m.nodeLayers.toFinset asp R u w) ∧
      (dir = true → dir0 = false → ∀ u w, u.length = d - asp.length + 1 → w.length = d - asp.length + 1 → u ≠ w →
        R' u w = R0 u w + (Spec.collapsed m.nodeLayers.toFinset asp R u w + Spec.collapsed m.nodeLayers.toFinset asp R w u)) ∧
      (dir = false → dir0 = true → ∀ u w, u.length = d - asp.length + 1 → w.length = d - asp.length + 1 → u ≠ w →
        R' u w + R' w u = R0 u w + R0 w u + Spec.collapsed m.nodeLayers.toFinset asp R u w) := by
  have h1 : m.view.aspects = d := h.aspects_eq
  have h2 : m.view.noEdge = 0 := h.noEdge_eq
  have h3 : m.view.directed = dir := h.directed_eq
  have h4 : m.view.fic = al := h.aligned_eq
  have hle := asp_length_le hn hr
  have hr' : ∀ a ∈ asp, 1 ≤ a ∧ a ≤ m.view.aspects := by rw [h1]; exact hr
  have hlen : ∀ a ∈ product m.slices, a.length = d + 1 := by
    intro a ha
    exact (h.sound.length_of_mem ha).trans (congrArg (· + 1) h.aspects_eq)
  obtain ⟨ps, p1, p2, p3, p4, p5⟩ := h.sound.edges
  obtain ⟨nls, n1, n2, n3, n4⟩ := h.sound.nls
  have hnls : ∀ nl, nl ∈ nls ↔ NL nl := by
    intro nl
    rw [← h.isNL nl]
    exact ⟨fun hm => ⟨nls, n1, hm⟩, fun ⟨l, hl, hm⟩ => by rw [n1] at hl; cases hl; exact hm⟩
  have ha0 : al0 = false → 1 ≤ d - asp.length := by
    intro ha
    have := fic_pos h0 (h0.aligned_eq.trans ha)
    rwa [h0.aspects_eq] at this
  have hb0 : Built m0 (d - asp.length) 0 dir0 al0 m0.inSlice NL0 m0.reads := ⟨h0.reachable, fun _ _ => Iff.rfl, fun hd ha n t ht => by
    rw [← h0.nodeLayers.2, MNet.mem_nodeLayers h0.inv.r, if_neg (by rw [h0.aligned_eq, ha]; simp)]
    rw [h0.aspects_eq, List.length_cons, ht, and_iff_right rfl]
    exact ⟨fun hx => ⟨n, t, rfl, hx⟩, fun ⟨n', t', e, hx⟩ => by cases e; exact hx⟩, fun _ _ => rfl⟩
  obtain ⟨m1, e1, b1⟩ := hb0.addNodes (fun x : α => x) (m.view.slices.headD [])
  have hsym : dir0 = false → ∀ a b, m0.reads a b = m0.reads b a := by
    intro hd a b
    simp only [MNet.reads, h0.inv.l.sym (h0.directed_eq.trans hd) a b]
  obtain ⟨m2, e2, b2⟩ := aggregate_edges_into h.sound hn hr' (fun p hp => ⟨(p3 p hp).1, (p3 p hp).2.1⟩) (by rw [h1]; omega) hsym b1
  have h0n : 0 ∉ asp := fun hc => by have := hr 0 hc; omega
  have hS0 : ∀ x, x ∈ m.view.slices.headD [] ↔ S 0 x := by
    intro x
    rw [← h.inS (Nat.zero_le _) x]
    have := h.sound.slen
    unfold View.inS
    cases hs : m.view.slices with
    | nil => rw [hs] at this; simp at this
    | cons a t => simp
  have kept_iff : ∀ (P : List α → List α → Prop), (∀ a b, P a b → P b a) →
      ((∃ p ∈ ps, Spec.reduce asp p.1 ≠ Spec.reduce asp p.2 ∧ P p.1 p.2) ↔
      ∃ a b, NL a ∧ NL b ∧ R a b ≠ 0 ∧ Spec.reduce asp a ≠ Spec.reduce asp b ∧ P a b) := by
    intro P hP
    constructor
    · rintro ⟨p, hp, hc, hx⟩
      have hp3 := p3 p hp
      rw [h2] at hp3
      have hR := hp3.2.2
      rw [h.reads_eq (hlen _ hp3.1) (hlen _ hp3.2.1)] at hR
      have hk := h.linked (hlen _ hp3.1) (hlen _ hp3.2.1) hR
      exact ⟨p.1, p.2, hk.1.2, hk.2.2, hR, hc, hx⟩
    · rintro ⟨a, b, ha, hb, hR, hc, hx⟩
      have hR' : m.reads a b ≠ m.view.noEdge := by rwa [h2, h.reads_eq (h.nl_length ha) (h.nl_length hb)]
      cases hd : m.view.directed with
      | true => exact ⟨(a, b), p4 hd a (h.nl_product ha) b (h.nl_product hb) hR', hc, hx⟩
      | false =>
        rcases (p5 hd).1 a (h.nl_product ha) b (h.nl_product hb) hR' with hin | hin
        · exact ⟨(a, b), hin, hc, hx⟩
        · exact ⟨(b, a), hin, hc.symm, hP _ _ hx⟩
  have b3 := b2.congr (S' := fun k x => (m0.inSlice k x ∨ (k = 0 ∧ S 0 x)) ∨
      ∃ a b, NL a ∧ NL b ∧ R a b ≠ 0 ∧ Spec.reduce asp a ≠ Spec.reduce asp b ∧ ((Spec.reduce asp a)[k]? = some x ∨ (Spec.reduce asp b)[k]? = some x))
    (NL' := fun u => NL0 u ∨
      ∃ a b, NL a ∧ NL b ∧ R a b ≠ 0 ∧ Spec.reduce asp a ≠ Spec.reduce asp b ∧ (u = Spec.reduce asp a ∨ u = Spec.reduce asp b))
    (fun k x => by
      rw [kept_iff (fun a b => (Spec.reduce asp a)[k]? = some x ∨ (Spec.reduce asp b)[k]? = some x) (fun a b => Or.symm)]
      simp only [exists_eq_right', hS0])
    (fun u => by
      rw [kept_iff (fun a b => u = Spec.reduce asp a ∨ u = Spec.reduce asp b) (fun a b => Or.symm)]) (fun _ _ => rfl)
  have hg : ∀ (m' : MNet α W) y n t, y ∈ nls → Spec.reduce asp y = n :: t →
      aggregateNodeLayer m.view.aspects asp m' y = (m'.addNode n (some (.ofList t))).toExcept := by
    intro m' y n t hy he
    have hl := h.sound.length_of_mem (n3 y hy)
    match y, hl with
    | x :: l, hl =>
      rw [reduce_cons h0n] at he
      have hl' : l.length = m.view.aspects := by simpa using hl
      rw [hl'] at he
      injection he with he1 he2
      subst he1
      rw [← he2]
      rfl
  have hlr : ∀ y ∈ nls, (Spec.reduce asp y).length = d - asp.length + 1 := fun y hy => length_reduce_nl h hn hr ((hnls y).1 hy)
  have common : m.view.aggregateInto m0 asp false = if m.view.fic = false ∧ 0 < m2.aspects then
      forE (aggregateNodeLayer m.view.aspects asp) nls m2 else .ok m2 := by
    have q1 : ¬ (m0.aspects + asp.length ≠ m.view.aspects) := by rw [h0.aspects_eq, h1]; omega
    have q2 : ¬ ¬ (∀ a ∈ asp, 0 < a ∧ a ≤ m.view.aspects + 1) := by
      refine not_not.2 fun a ha => ?_
      have := hr' a ha
      omega
    unfold View.aggregateInto
    rw [if_neg q1, if_neg q2]
    simp only [e1, p1, e2, n1]
  have red0 : ∀ nl ∈ nls, ∀ x, (Spec.reduce asp nl)[0]? = some x → S 0 x := by
    intro nl hnl x hx
    have hp := n3 nl hnl
    match nl, hlen nl hp with
    | n :: t, _ =>
      rw [reduce_cons h0n] at hx
      simp at hx; subst hx
      exact ((h.mem_product _).1 hp).2 0 n (by simp)
  have done : ∃ m', m.view.aggregateInto m0 asp false = .ok m' ∧
      Built m' (d - asp.length) 0 dir0 al0 (fun k x => m0.inSlice k x ∨ Spec.AggNames asp false (al || al0) S NL R k x)
        (fun u => NL0 u ∨ (∃ a b, NL a ∧ NL b ∧ R a b ≠ 0 ∧ Spec.reduce asp a ≠ Spec.reduce asp b ∧
          (u = Spec.reduce asp a ∨ u = Spec.reduce asp b)) ∨ (al = false ∧ ∃ nl, NL nl ∧ u = Spec.reduce asp nl))
        (fun a b => m0.reads a b + contrib asp false dir0 m.reads ps a b) := by
    rw [common, b2.params.1, h4]
    by_cases hc : al = false ∧ 0 < d - asp.length
    · rw [if_pos hc]
      cases al0 with
      | false =>
        obtain ⟨m3, e3, b4⟩ := b3.addNodeLs hc.2 rfl (Spec.reduce asp) nls hlr hg
        refine ⟨m3, e3, b4.congr (fun k x => ?_) (fun u => ?_) (fun _ _ => rfl)⟩
        · simp only [Spec.AggNames, hnls, hc.1, Bool.or_self, true_and, Bool.false_eq_true, false_or, or_assoc]
        · simp only [hnls, hc.1, true_and, or_assoc]
      | true =>
        obtain ⟨m3, e3, b4⟩ := b3.addNodeLs_aligned (Spec.reduce asp) nls hlr hg
        refine ⟨m3, e3, ⟨b4.reach, fun k x => (b4.sl k x).trans ?_, fun _ hf => absurd hf (by simp), b4.rd⟩⟩
        simp only [Spec.AggNames, Bool.or_true, Bool.false_eq_true, Bool.true_eq_false, false_and, or_false, false_or, or_assoc]
        constructor
        · rintro (hx | hx | hx | ⟨rfl, y, hy, hx⟩)
          · exact Or.inl hx
          · exact Or.inr (Or.inl hx)
          · exact Or.inr (Or.inr hx)
          · exact Or.inr (Or.inl ⟨rfl, red0 y hy x hx⟩)
        · rintro (hx | hx | hx)
          · exact Or.inl hx
          · exact Or.inr (Or.inl hx)
          · exact Or.inr (Or.inr (Or.inl hx))
    · rw [if_neg hc]
      refine ⟨m2, rfl, ⟨b3.reach, fun k x => (b3.sl k x).trans ?_, fun hd1 hf n t ht => (b3.nl hd1 hf n t ht).trans ?_, b3.rd⟩⟩
      · simp only [Spec.AggNames, Bool.false_eq_true, false_or, or_assoc]
        constructor
        · rintro (hx | hx | hx)
          · exact Or.inl hx
          · exact Or.inr (Or.inl hx)
          · exact Or.inr (Or.inr (Or.inl hx))
        · rintro (hx | hx | hx | ⟨ha, nl, hnl, hx⟩)
          · exact Or.inl hx
          · exact Or.inr (Or.inl hx)
          · exact Or.inr (Or.inr hx)
          · have hl := hlr nl ((hnls nl).2 hnl)
            have hlt := (List.getElem?_eq_some_iff.1 hx).1
            have hd0 : d - asp.length = 0 := by
              by_contra hd0
              exact hc ⟨(Bool.or_eq_false_iff.1 ha).1, by omega⟩
            have hk0 : k = 0 := by omega
            subst hk0
            exact Or.inr (Or.inl ⟨rfl, red0 nl ((hnls nl).2 hnl) x hx⟩)
      · refine or_congr_right (or_iff_left ?_).symm
        rintro ⟨ha, -⟩
        exact hc ⟨ha, hd1⟩
  obtain ⟨m', e', b'⟩ := done
  have hd : ∀ {u w : List α}, u ≠ w → contrib asp false dir m.reads ps u w = Spec.collapsed m.nodeLayers.toFinset asp R u w := by
    intro u w huw
    have := contrib_distinct h.sound h2 p1 p2 p3 p4 p5 asp false huw
    rw [h3] at this
    exact this.trans (h.sum_product _ _)
  refine ⟨m', fun a b => m0.reads a b + contrib asp false dir0 m.reads ps a b, e', ?_, fun u hu => ?_, ?_, ?_, ?_⟩
  · have hl := b'.looks' (fun hf u hu => ?_)
    · have hda : (decide (d - asp.length = 0) || al0) = al0 := by
        cases al0 with
        | true => simp
        | false => have := ha0 rfl; simp; omega
      rw [hda] at hl
      have hS' : ∀ k ≤ d - asp.length, ∀ x, (m0.inSlice k x ∨ Spec.AggNames asp false (al || al0) S NL R k x) ↔
          (S0 k x ∨ Spec.AggNames asp false (al || al0) S NL R k x) := fun k hk x => or_congr_left (h0.inSlice hk x)
      refine hl.congr hS' (fun u => ?_) (fun _ _ _ _ => rfl)
      unfold Spec.IntoNodeLayers
      cases al0 with
      | true =>
        rw [if_pos (Or.inr rfl), if_pos rfl]
        unfold Spec.AllNodeLayers
        refine and_congr_right fun hu => ?_
        have hi : ∀ i x, u[i]? = some x → i ≤ d - asp.length := fun i x hx => by
          have := (List.getElem?_eq_some_iff.1 hx).1
          omega
        exact ⟨fun hx i x hix => (hS' i (hi i x hix) x).1 (hx i x hix), fun hx i x hix => (hS' i (hi i x hix) x).2 (hx i x hix)⟩
      | false =>
        have := ha0 rfl
        rw [if_neg (by simp; omega), if_neg (by simp)]
    · rcases hu with hu | ⟨a, b, ha, hb, -, -, rfl | rfl⟩ | ⟨-, nl, hnl, rfl⟩
      · exact h0.nl_length hu
      · exact length_reduce_nl h hn hr ha
      · exact length_reduce_nl h hn hr hb
      · exact length_reduce_nl h hn hr hnl
  · beta_reduce
    rw [contrib_self_false, add_zero, h0.reads_eq hu hu]
  · rintro rfl u w hu hw huw
    beta_reduce
    rw [hd huw, h0.reads_eq hu hw]
  · rintro rfl rfl u w hu hw huw
    beta_reduce
    rw [contrib_both _ _ _ _ huw, hd huw, hd huw.symm, h0.reads_eq hu hw]
  · rintro rfl rfl u w hu hw huw
    beta_reduce
    rw [← hd huw, contrib_both _ _ _ _ huw, h0.reads_eq hu hw, h0.reads_eq hw hu]
    abel

/-- The target of the examples: a network that is not empty. -/
def intoOps : List (Op Nat Int) := [.addNode 8 none, .setItem [1, 2] 100, .setItem [1, 1] 7]

/-- into a network with links, directions alike -/
example : ∃ m', (after 1 0 false true transOps).view.aggregateInto (after 0 0 false true intoOps) [1] false = .ok m' ∧
    m'.iterNodes none = [8, 1, 2, 9, 3] ∧ m'.view.readItem [1, 2] = .ok (.weight 108) ∧ m'.view.readItem [3, 1] = .ok (.weight 4) ∧
    m'.view.readItem [1, 1] = .ok (.weight 7) := ⟨_, rfl, by decide, by decide, by decide, by decide⟩

/-- a directed network into an undirected one: both directions are summed -/
example : ∃ m', (after 1 0 true true [.setItem [1, 2, 10] (5 : Int), .setItem [2, 1, 11] 3]).view.aggregateInto
    (after 0 0 false true intoOps) [1] false = .ok m' ∧ m'.view.readItem [1, 2] = .ok (.weight 108) ∧ m'.view.readItem [2, 1] = .ok (.weight 108) :=
  ⟨_, rfl, by decide, by decide⟩

/-- one of two aspects, into a network that is not node-aligned -/
example : ∃ m', (after 2 0 false false [.setItem [1, 2, 10, 11, 20, 20] (5 : Int), .setItem [1, 2, 10, 11, 20, 21] 3, .addNode 9 (some (.tup [12, 22]))]).view.aggregateInto
    (after 1 0 false false [.setItem [1, 2, 10, 11] 100, .addNode 8 (some (.el 13))]) [2] false = .ok m' ∧
    m'.view.readItem [1, 2, 10, 11] = .ok (.weight 108) ∧ [9, 12] ∈ m'.nodeLayers ∧ [8, 13] ∈ m'.nodeLayers ∧ [8, 12] ∉ m'.nodeLayers :=
  ⟨_, rfl, by decide, by decide, by decide, by decide⟩

/-- The claim that the result reads the collapsed weights is false for an undirected network and a directed target: every edge is written in one
direction only, which depends on the order of the nodes. -/
theorem C149_false : ∃ m', (after 1 (0 : Int) false true [.setItem [1, 2, 10] 5, .setItem [2, 1, 11] 3]).view.aggregateInto
      (MNet.init 0 0 true true) [1] false = .ok m' ∧
    (after 1 (0 : Int) false true [.setItem [1, 2, 10] 5, .setItem [2, 1, 11] 3]).view.readItem [2, 1, 10] = .ok (.weight 5) ∧
    m'.view.readItem [1, 2] = .ok (.weight 8) ∧ m'.view.readItem [2, 1] = .ok (.weight 0) := ⟨_, rfl, by decide, by decide, by decide⟩

end Pymnet
