import Verif.Props.Transforms

/-! Properties C26, C27: `aggregate` and `overlay_network`. -/

set_option linter.unusedSectionVars false
set_option linter.unusedSimpArgs false

namespace Pymnet

open Py

variable {α W : Type} [DecidableEq α] [DecidableEq W]

variable {m : MNet α W} {d : Nat} {z : W} {dir al : Bool} {S : Nat → α → Prop} {NL : List α → Prop}
  {R : List α → List α → W}

theorem Built.looks' {m : MNet α W} {d : Nat} {z : W} {dir al : Bool} {S : Nat → α → Prop} {NL : List α → Prop}
    {R : List α → List α → W} (h : Built m d z dir al S NL R)
    (hN : al = false → ∀ nl, NL nl → nl.length = d + 1) :
    Spec.Looks m d z dir (decide (d = 0) || al) S
      (fun nl => if d = 0 ∨ al = true then Spec.AllNodeLayers d S nl else NL nl) R := by
  by_cases h0 : d = 0
  · subst h0
    have hb : Built m 0 z dir true S NL R := by
      refine ⟨?_, h.sl, by omega, h.rd⟩
      obtain ⟨ops, hops⟩ := h.reach
      exact ⟨ops, hops.trans (by simp [MNet.init])⟩
    simpa using hb.looks (fun _ => rfl) (by simp)
  · have := h.looks (fun h1 => absurd h1 h0) hN
    simpa [h0] using this

theorem Spec.Looks.isNL (h : Spec.Looks m d z dir al S NL R) (nl : List α) : m.view.isNL nl ↔ NL nl := by
  rw [← h.nodeLayers.2]
  constructor
  · rintro ⟨l, hl, hm⟩; cases hl; exact hm
  · intro hm; exact ⟨_, rfl, hm⟩

/-- Sums over all tuples of names are sums over the node-layers. -/
theorem Spec.Looks.sum_product [AddCommMonoid W] (h : Spec.Looks m d (0 : W) dir al S NL R) (P Q : List α → Prop)
    [DecidablePred P] [DecidablePred Q] :
    ∑ a ∈ (product m.slices).toFinset with P a, ∑ b ∈ (product m.slices).toFinset with Q b, m.reads a b =
      ∑ a ∈ m.nodeLayers.toFinset with P a, ∑ b ∈ m.nodeLayers.toFinset with Q b, R a b := by
  have hsub : ∀ (P : List α → Prop) [DecidablePred P],
      m.nodeLayers.toFinset.filter P ⊆ (product m.slices).toFinset.filter P := by
    intro P _ a ha
    simp only [Finset.mem_filter, List.mem_toFinset] at ha ⊢
    exact ⟨h.nl_product ((h.nodeLayers.2 a).1 ha.1), ha.2⟩
  have hlen : ∀ a ∈ product m.slices, a.length = d + 1 := by
    intro a ha
    exact (h.sound.length_of_mem ha).trans (congrArg (· + 1) h.aspects_eq)
  have hz : ∀ a ∈ product m.slices, ∀ b ∈ product m.slices, ¬ (a ∈ m.nodeLayers ∧ b ∈ m.nodeLayers) → m.reads a b = 0 := by
    intro a ha b hb hn
    rw [h.reads_eq (hlen a ha) (hlen b hb)]
    by_contra hR
    have := h.linked (hlen a ha) (hlen b hb) hR
    exact hn ⟨(h.nodeLayers.2 a).2 this.1.2, (h.nodeLayers.2 b).2 this.2.2⟩
  symm
  refine Finset.sum_subset_zero_on_sdiff (hsub P) ?_ ?_
  · intro a ha
    simp only [Finset.mem_sdiff, Finset.mem_filter, List.mem_toFinset] at ha
    refine Finset.sum_eq_zero fun b hb => ?_
    simp only [Finset.mem_filter, List.mem_toFinset] at hb
    exact hz a ha.1.1 b hb.1 (fun h1 => ha.2 ⟨h1.1, ha.1.2⟩)
  · intro a ha
    refine Finset.sum_subset_zero_on_sdiff (hsub Q) ?_ ?_
    · intro b hb
      have ha' := hsub P ha
      simp only [Finset.mem_sdiff, Finset.mem_filter, List.mem_toFinset] at ha' hb
      exact hz a ha'.1 b hb.1.1 (fun h1 => hb.2 ⟨h1.2, hb.1.2⟩)
    · intro b hb
      have ha' := hsub P ha
      have hb' := hsub Q hb
      simp only [Finset.mem_filter, List.mem_toFinset] at ha' hb'
      exact (h.reads_eq (hlen a ha'.1) (hlen b hb'.1)).symm

theorem Spec.Looks.sum_diag [AddCommMonoid W] (h : Spec.Looks m d (0 : W) dir al S NL R) (P : List α → Prop)
    [DecidablePred P] :
    ∑ a ∈ (product m.slices).toFinset with P a, m.reads a a = ∑ a ∈ m.nodeLayers.toFinset with P a, R a a := by
  have hlen : ∀ a ∈ product m.slices, a.length = d + 1 := by
    intro a ha
    exact (h.sound.length_of_mem ha).trans (congrArg (· + 1) h.aspects_eq)
  symm
  have hsub : m.nodeLayers.toFinset.filter P ⊆ (product m.slices).toFinset.filter P := by
    intro a ha
    simp only [Finset.mem_filter, List.mem_toFinset] at ha ⊢
    exact ⟨h.nl_product ((h.nodeLayers.2 a).1 ha.1), ha.2⟩
  refine Finset.sum_subset_zero_on_sdiff hsub ?_ ?_
  · intro a ha
    simp only [Finset.mem_sdiff, Finset.mem_filter, List.mem_toFinset] at ha
    rw [h.reads_eq (hlen a ha.1.1) (hlen a ha.1.1)]
    by_contra hR
    have := h.linked (hlen a ha.1.1) (hlen a ha.1.1) hR
    exact ha.2 ⟨(h.nodeLayers.2 a).2 this.1.2, ha.1.2⟩
  · intro a ha
    have ha' := hsub ha
    simp only [Finset.mem_filter, List.mem_toFinset] at ha'
    exact (h.reads_eq (hlen a ha'.1) (hlen a ha'.1)).symm

theorem asp_length_le {d : Nat} {asp : List Nat} (hn : asp.Nodup) (hr : ∀ a ∈ asp, 1 ≤ a ∧ a ≤ d) : asp.length ≤ d := by
  have h1 := List.Subperm.length_le (List.subperm_of_subset hn (l₂ := List.range' 1 d) (by
    intro a ha; rw [List.mem_range']; have := hr a ha; exact ⟨a - 1, by omega, by omega⟩))
  simpa using h1

theorem length_reduce_nl (h : Spec.Looks m d z dir al S NL R) {asp : List Nat} (hn : asp.Nodup)
    (hr : ∀ a ∈ asp, 1 ≤ a ∧ a ≤ d) {nl : List α} (hnl : NL nl) :
    (Spec.reduce asp nl).length = d - asp.length + 1 := by
  have := length_reduce (α := α) hn (fun a ha => (hr a ha).2) (h.nl_length hnl)
  have := asp_length_le hn hr
  omega

/-! ### C26 -/

theorem aggregate_looks [AddCommMonoid W] (h : Spec.Looks m d (0 : W) dir al S NL R)
    {asp : List Nat} (hn : asp.Nodup) (hr : ∀ a ∈ asp, 1 ≤ a ∧ a ≤ d) (selfEdges : Bool)
    (hself : selfEdges = true → dir = false → ∀ l : List W, l ≠ [] → (∀ w ∈ l, w ≠ 0 ∧ ∃ a b, NL a ∧ NL b ∧ w = R a b) → l.sum ≠ 0) :
    ∃ m' R', m.view.aggregate asp selfEdges = .ok m' ∧
      Spec.Looks m' (d - asp.length) 0 dir (decide (d - asp.length = 0) || al)
        (Spec.AggNames asp selfEdges al S NL R)
        (Spec.AggNodeLayers (d - asp.length) asp al (Spec.AggNames asp selfEdges al S NL R) NL) R' ∧
      (∀ u w, u ≠ w → R' u w = Spec.collapsed m.nodeLayers.toFinset asp R u w) ∧
      (selfEdges = false → ∀ u, R' u u = 0) ∧
      (selfEdges = true → dir = true → ∀ u, R' u u = Spec.collapsed m.nodeLayers.toFinset asp R u u) ∧
      (selfEdges = true → dir = false → ∀ u, R' u u + R' u u = Spec.collapsed m.nodeLayers.toFinset asp R u u +
        ∑ a ∈ m.nodeLayers.toFinset with Spec.reduce asp a = u, R a a) := by
  have h1 : m.view.aspects = d := h.aspects_eq
  have h2 : m.view.noEdge = 0 := h.noEdge_eq
  have h3 : m.view.directed = dir := h.directed_eq
  have h4 : m.view.fic = al := h.aligned_eq
  have hlen : ∀ a ∈ product m.slices, a.length = d + 1 := by
    intro a ha
    exact (h.sound.length_of_mem ha).trans (congrArg (· + 1) h.aspects_eq)
  obtain ⟨m', R', e, hb, r1, r2, r3, r4⟩ := aggregate_spec h.sound h2 (fic_pos h) hn (by rw [h1]; exact hr) selfEdges (by
    intro hs hd l hl hall
    refine hself hs (by rw [← h3]; exact hd) l hl fun w hw => ?_
    obtain ⟨hw0, a, ha, b, hb, rfl⟩ := hall w hw
    have hR := hw0
    rw [h.reads_eq (hlen a ha) (hlen b hb)] at hR
    have hk := h.linked (hlen a ha) (hlen b hb) hR
    exact ⟨hw0, a, b, hk.1.2, hk.2.2, h.reads_eq (hlen a ha) (hlen b hb)⟩)
  rw [h1, h3, h4] at hb
  rw [h3] at r3 r4
  have hb' : Built m' (d - asp.length) 0 dir al (Spec.AggNames asp selfEdges al S NL R)
    (fun u => ∃ nl, NL nl ∧ u = Spec.reduce asp nl) R' := hb.congr ?hS (by simp only [h.isNL, implies_true]) (fun _ _ => rfl)
  refine ⟨m', R', e, (hb'.looks' ?_).congr (fun _ _ _ => Iff.rfl) (fun _ => Iff.rfl) (fun _ _ _ _ => rfl), fun u w hu => (r1 u w hu).trans (h.sum_product _ _),
    fun hs u => r2 u hs, fun hs hd u => (r3 u hs hd).trans (h.sum_product _ _), fun hs hd u => (r4 u hs hd).trans
      (congrArg₂ _ (h.sum_product _ _) (h.sum_diag _))⟩
  · rintro - nl ⟨a, ha, rfl⟩
    exact length_reduce_nl h hn hr ha
  case hS =>
    intro k x
    unfold Spec.AggNames
    refine or_congr (and_congr_right fun _ => h.inS (Nat.zero_le _) x) (or_congr ?_ ?_)
    · constructor
      · rintro ⟨a, b, ⟨ha, hb', hR, hs⟩, hx⟩
        rw [h.reads_eq (hlen a ha) (hlen b hb')] at hR
        have hk := h.linked (hlen a ha) (hlen b hb') hR
        exact ⟨a, b, hk.1.2, hk.2.2, hR, hs, hx⟩
      · rintro ⟨a, b, ha, hb', hR, hs, hx⟩
        refine ⟨a, b, ⟨h.nl_product ha, h.nl_product hb', ?_, hs⟩, hx⟩
        rwa [h.reads_eq (h.nl_length ha) (h.nl_length hb')]
    · simp only [h.isNL]

/-- **C26** without self-edges: whatever the weights, `aggregate` keeps the nodes and reads, between two
different reduced node-layers, the sum of the weights of the edges that reduce to that pair. -/
theorem C26_aggregate [AddCommMonoid W] (h : Spec.Looks m d (0 : W) dir al S NL R)
    {asp : List Nat} (hn : asp.Nodup) (hr : ∀ a ∈ asp, 1 ≤ a ∧ a ≤ d) :
    ∃ m', m.view.aggregate asp false = .ok m' ∧
      Spec.Looks m' (d - asp.length) 0 dir (decide (d - asp.length = 0) || al)
        (Spec.AggNames asp false al S NL R)
        (Spec.AggNodeLayers (d - asp.length) asp al (Spec.AggNames asp false al S NL R) NL)
        (fun u w => if u = w then 0 else Spec.collapsed m.nodeLayers.toFinset asp R u w) := by
  obtain ⟨m', R', e, hl, r1, r2, -, -⟩ := aggregate_looks h hn hr false (by simp)
  refine ⟨m', e, hl.congr (fun _ _ _ => Iff.rfl) (fun _ => Iff.rfl) fun u w _ _ => ?_⟩
  by_cases huw : u = w
  · subst huw; rw [if_pos rfl]; exact r2 rfl u
  · rw [if_neg huw]; exact r1 u w huw

example : ∃ m', (after 1 0 false true transOps).view.aggregate [1] false = .ok m' ∧
    m'.iterNodes none = [9, 1, 2, 3] ∧ m'.view.readItem [1, 2] = .ok (.weight 8) ∧ m'.view.readItem [3, 1] = .ok (.weight 4) ∧
    m'.view.readItem [1, 1] = .ok (.weight 0) := ⟨_, rfl, by decide, by decide, by decide, by decide⟩

/-- **C26** with self-edges, directed networks: self-links count too. -/
theorem C26_aggregate_self_directed [AddCommMonoid W] (h : Spec.Looks m d (0 : W) true al S NL R)
    {asp : List Nat} (hn : asp.Nodup) (hr : ∀ a ∈ asp, 1 ≤ a ∧ a ≤ d) :
    ∃ m', m.view.aggregate asp true = .ok m' ∧
      Spec.Looks m' (d - asp.length) 0 true (decide (d - asp.length = 0) || al)
        (Spec.AggNames asp true al S NL R)
        (Spec.AggNodeLayers (d - asp.length) asp al (Spec.AggNames asp true al S NL R) NL)
        (Spec.collapsed m.nodeLayers.toFinset asp R) := by
  obtain ⟨m', R', e, hl, r1, -, r3, -⟩ := aggregate_looks h hn hr true (by simp)
  refine ⟨m', e, hl.congr (fun _ _ _ => Iff.rfl) (fun _ => Iff.rfl) fun u w _ _ => ?_⟩
  by_cases huw : u = w
  · subst huw; exact r3 rfl rfl u
  · exact r1 u w huw

example : ∃ m', (after 1 0 true false transOps).view.aggregate [1] true = .ok m' ∧
    m'.view.readItem [1, 2] = .ok (.weight 8) ∧ m'.view.readItem [1, 1] = .ok (.weight 2) :=
  ⟨_, rfl, by decide, by decide⟩

/-- **C26** with self-edges, undirected networks whose weights are not negative. An edge between two
different node-layers that reduce to `u` counts once, so twice the value of the self-link is what is
reached by going through the ordered pairs, plus the self-links once more. Missing: negative weights, for
which the property is false (`C26_false`). -/
theorem C26_aggregate_self_partial [AddCommMonoid W] [PartialOrder W] [IsOrderedAddMonoid W]
    (h : Spec.Looks m d (0 : W) false al S NL R)
    {asp : List Nat} (hn : asp.Nodup) (hr : ∀ a ∈ asp, 1 ≤ a ∧ a ≤ d) (hpos : ∀ a b, NL a → NL b → 0 ≤ R a b) :
    ∃ m' R', m.view.aggregate asp true = .ok m' ∧
      Spec.Looks m' (d - asp.length) 0 false (decide (d - asp.length = 0) || al)
        (Spec.AggNames asp true al S NL R)
        (Spec.AggNodeLayers (d - asp.length) asp al (Spec.AggNames asp true al S NL R) NL) R' ∧
      (∀ u w, u ≠ w → R' u w = Spec.collapsed m.nodeLayers.toFinset asp R u w) ∧
      ∀ u, R' u u + R' u u = Spec.collapsed m.nodeLayers.toFinset asp R u u +
        ∑ a ∈ m.nodeLayers.toFinset with Spec.reduce asp a = u, R a a := by
  obtain ⟨m', R', e, hl, r1, -, -, r4⟩ := aggregate_looks h hn hr true (by
    rintro - - l hl hall hs
    obtain ⟨w, hw⟩ := List.exists_mem_of_ne_nil l hl
    have h0 : ∀ w ∈ l, 0 ≤ w := by
      intro w hw
      obtain ⟨-, a, b, ha, hb, rfl⟩ := hall w hw
      exact hpos a b ha hb
    exact (hall w hw).1 (List.all_zero_of_le_zero_le_of_sum_eq_zero h0 hs hw))
  exact ⟨m', R', e, hl, r1, r4 rfl rfl⟩

example : ∃ m', (after 1 0 false true transOps).view.aggregate [1] true = .ok m' ∧
    m'.view.readItem [1, 2] = .ok (.weight 8) ∧ m'.view.readItem [1, 1] = .ok (.weight 2) :=
  ⟨_, rfl, by decide, by decide⟩

/-- The property C26 is false with self-edges and weights that cancel: the second edge below brings the
self-link of node `1` back to `noEdge`, which `aggregate` then tries to delete twice. -/
theorem C26_false : (after 1 (0 : Int) false true [.setItem [1, 1, 10, 11] 1, .setItem [1, 1, 10, 12] (-1)]).view.aggregate
    [1] true = .error .keyError := by decide

/-! ### C27 -/

section

variable [LinearOrder α] [AddCommMonoid W]

theorem overlay_looks (h : Spec.Looks m 1 z dir al S NL R)
    (hself : dir = true → ∀ s i, R [i, s] [i, s] = 0) :
    ∃ m' R' layers, m.view.overlay = .ok m' ∧ m.getLayers 1 = .ok layers ∧
      Spec.Looks m' 0 0 false true (fun k x => k = 0 ∧ S 0 x ∧ (∃ s, S 1 s) ∧ (dir = true ∨ ∃ y, S 0 y ∧ y ≠ x))
        (fun nl => ∃ x, nl = [x] ∧ S 0 x ∧ (∃ s, S 1 s) ∧ (dir = true ∨ ∃ y, S 0 y ∧ y ≠ x)) R' ∧
      (∀ x y, S 0 x → S 0 y → x ≠ y → R' [x] [y] = (layers.map fun s => R [x, s] [y, s] +
        if dir = true then R [y, s] [x, s] else 0).sum) ∧
      ∀ x, R' [x] [x] = 0 := by
  have h1 : m.view.aspects = 1 := h.aspects_eq
  have h3 : m.view.directed = dir := h.directed_eq
  have hlen : m.slices.length = 2 := by rw [h.inv.r.slen, h.aspects_eq]
  obtain ⟨ns, ls, hsl⟩ : ∃ ns ls, m.slices = [ns, ls] := by
    match hs : m.slices, hlen with
    | [a, b], _ => exact ⟨a, b, rfl⟩
  have hsl' : m.view.slices = [ns, ls] := hsl
  have i0 : ∀ x, x ∈ ns ↔ S 0 x := by
    intro x; rw [← h.inSlice (Nat.zero_le _)]; unfold MNet.inSlice; rw [hsl]; simp
  have i1 : ∀ x, x ∈ ls ↔ S 1 x := by
    intro x; rw [← h.inSlice (Nat.le_refl _)]; unfold MNet.inSlice; rw [hsl]; simp
  have hread : ∀ s i j, m.view.readItem [i, j, s, s] = .ok (.weight (R [i, s] [j, s])) := fun s i j =>
    h.reads [i, j, s, s] [i, s] [j, s] ⟨rfl, rfl, Or.inl rfl⟩
  obtain ⟨m', e, hb⟩ := overlay_loops (v := m.view) (R := R) h1 (fun s _ i _ j _ _ => hread s i j)
    (fun hd s _ i _ => hself (h3 ▸ hd) s i)
  have hS : ∀ k x, (∃ t ∈ overlayTriples m.view, (m.view.directed = true ∨ t.2.2 < t.2.1) ∧
      ([t.2.1][k]? = some x ∨ [t.2.2][k]? = some x)) ↔
      (k = 0 ∧ S 0 x ∧ (∃ s, S 1 s) ∧ (dir = true ∨ ∃ y, S 0 y ∧ y ≠ x)) := by
    intro k x
    rw [h3]
    constructor
    · rintro ⟨⟨s, i, j⟩, ht, hc, hx⟩
      have ht := mem_overlayTriples.1 ht
      rw [hsl'] at ht
      simp only [List.getD_cons_succ, List.getD_cons_zero, List.headD_cons] at ht
      rw [i1, i0, i0] at ht
      have hk : k = 0 := by
        rcases hx with hx | hx
        · have := (List.getElem?_eq_some_iff.1 hx).1; simpa using this
        · have := (List.getElem?_eq_some_iff.1 hx).1; simpa using this
      subst hk
      simp only [List.getElem?_cons_zero, Option.some.injEq] at hx
      refine ⟨rfl, ?_, ⟨s, ht.1⟩, ?_⟩
      · rcases hx with rfl | rfl
        · exact ht.2.1
        · exact ht.2.2
      · rcases hc with hc | hc
        · exact Or.inl hc
        · right
          rcases hx with rfl | rfl
          · exact ⟨j, ht.2.2, ne_of_lt hc⟩
          · exact ⟨i, ht.2.1, ne_of_gt hc⟩
    · rintro ⟨rfl, hx, ⟨s, hs⟩, hc⟩
      have mk : ∀ i j, S 0 i → S 0 j → (s, i, j) ∈ overlayTriples m.view := by
        intro i j hi hj
        rw [mem_overlayTriples, hsl']
        simp only [List.getD_cons_succ, List.getD_cons_zero, List.headD_cons]
        rw [i1, i0, i0]
        exact ⟨hs, hi, hj⟩
      rcases hc with hc | ⟨y, hy, hne⟩
      · exact ⟨(s, x, x), mk x x hx hx, Or.inl hc, by simp⟩
      · rcases lt_or_gt_of_ne hne with hlt | hlt
        · exact ⟨(s, x, y), mk x y hx hy, Or.inr hlt, by simp⟩
        · exact ⟨(s, y, x), mk y x hy hx, Or.inr hlt, by simp⟩
  have hb' := (hb.congr hS (NL' := fun _ => True) (fun _ => Iff.rfl) (fun _ _ => rfl)).looks (fun _ => rfl) (by simp)
  refine ⟨m', ocontrib m.view.directed R (overlayTriples m.view), ls, e, by simp [MNet.getLayers, hsl],
    hb'.congr (fun _ _ _ => Iff.rfl) (fun nl => ?_) (fun _ _ _ _ => rfl), ?_, ?_⟩
  · rw [if_pos rfl]
    unfold Spec.AllNodeLayers
    constructor
    · rintro ⟨hl, hx⟩
      match nl, hl with
      | [x], _ => exact ⟨x, rfl, (hx 0 x rfl).2⟩
    · rintro ⟨x, rfl, hx⟩
      refine ⟨rfl, fun i y hy => ?_⟩
      cases i with
      | zero => simp at hy; subst hy; exact ⟨rfl, hx⟩
      | succ i => simp at hy
  · intro x y hx hy hxy
    have := ocontrib_eq (v := m.view) (R := R) h.sound.snodup hlen (fun hd s _ i _ j _ => by
      rw [h3] at hd; subst hd; exact h.sym rfl rfl) (x := x) (y := y) (by rw [hsl']; exact (i0 x).2 hx)
      (by rw [hsl']; exact (i0 y).2 hy) hxy
    rw [this, hsl', h3]; rfl
  · intro x
    unfold ocontrib
    apply List.sum_eq_zero
    intro w hw
    obtain ⟨⟨s, i, j⟩, ht, rfl⟩ := List.mem_map.1 hw
    by_cases hc : OContributes m.view.directed [x] [x] (s, i, j)
    · rw [if_pos hc]
      obtain ⟨hd, hx⟩ := hc
      have : i = j := by simp at hx; rcases hx with ⟨rfl, rfl⟩ | ⟨rfl, rfl⟩ <;> rfl
      subst this
      rcases hd with hd | hd
      · exact hself (h3 ▸ hd) s i
      · exact absurd hd (lt_irrefl _)
    · rw [if_neg hc]

/-- **C27.** The overlay network of an undirected network with one aspect is an undirected monoplex network
without self-links that reads, between two different nodes, the sum over the layers of the links in the
layers. (All nodes are kept as soon as there are a layer and a second node.) -/
theorem C27_overlay (h : Spec.Looks m 1 z false al S NL R) :
    ∃ m' R' layers, m.view.overlay = .ok m' ∧ m.getLayers 1 = .ok layers ∧
      Spec.Looks m' 0 0 false true (fun k x => k = 0 ∧ S 0 x ∧ (∃ s, S 1 s) ∧ ∃ y, S 0 y ∧ y ≠ x)
        (fun nl => ∃ x, nl = [x] ∧ S 0 x ∧ (∃ s, S 1 s) ∧ ∃ y, S 0 y ∧ y ≠ x) R' ∧
      (∀ x y, S 0 x → S 0 y → x ≠ y → R' [x] [y] = (layers.map fun s => R [x, s] [y, s]).sum) ∧
      ∀ x, R' [x] [x] = 0 := by
  obtain ⟨m', R', layers, e, el, hl, hr, h0⟩ := overlay_looks h (by simp)
  refine ⟨m', R', layers, e, el, hl.congr ?_ ?_ (fun _ _ _ _ => rfl), ?_, h0⟩
  · simp
  · simp
  · simpa using hr

example : ∃ m', (after 1 0 false true transOps).view.overlay = .ok m' ∧ m'.view.readItem [1, 2] = .ok (.weight 8) ∧
    m'.view.readItem [3, 2] = .ok (.weight 7) ∧ m'.view.readItem [3, 1] = .ok (.weight 0) :=
  ⟨_, rfl, by decide, by decide, by decide⟩

/-- The overlay network of a directed network without self-links inside layers is undirected: it sums
both directions. -/
theorem C27_overlay_directed (h : Spec.Looks m 1 z true al S NL R) (hself : ∀ s i, R [i, s] [i, s] = 0) :
    ∃ m' R' layers, m.view.overlay = .ok m' ∧ m.getLayers 1 = .ok layers ∧
      Spec.Looks m' 0 0 false true (fun k x => k = 0 ∧ S 0 x ∧ ∃ s, S 1 s)
        (fun nl => ∃ x, nl = [x] ∧ S 0 x ∧ ∃ s, S 1 s) R' ∧
      (∀ x y, S 0 x → S 0 y → x ≠ y → R' [x] [y] = (layers.map fun s => R [x, s] [y, s] + R [y, s] [x, s]).sum) ∧
      ∀ x, R' [x] [x] = 0 := by
  obtain ⟨m', R', layers, e, el, hl, hr, h0⟩ := overlay_looks h (fun _ => hself)
  refine ⟨m', R', layers, e, el, hl.congr ?_ ?_ (fun _ _ _ _ => rfl), ?_, h0⟩
  · simp
  · simp
  · simpa using hr

example : ∃ m', (after 1 0 true true (.setItem [2, 1, 10] 1 :: transOps)).view.overlay = .ok m' ∧
    m'.view.readItem [1, 2] = .ok (.weight 9) ∧ m'.view.readItem [2, 1] = .ok (.weight 9) :=
  ⟨_, rfl, by decide, by decide⟩

end

end Pymnet
