import Verif.Props.Transforms4
import Verif.Props.Plex3

/-! Transforms of multiplex networks: C54, and C32, C34 for multiplex networks. -/

set_option linter.unusedSectionVars false
set_option linter.unusedSimpArgs false
set_option linter.unnecessarySimpa false

namespace Pymnet

open Py MPlex

variable {α W : Type} [DecidableEq α] [DecidableEq W]

section
variable [Zero W] [LawfulIntNames α] {cs : List (Coupling α W)} {directed aligned : Bool} {ops : List (POp α W)}

/-- Internal: the value of an intra-layer link. -/
theorem main_R_intra (hcs : cs ≠ []) {s : List α} (hs : Spec.HasLayer cs.length aligned ops (.ofList s)) {i j : α}
    (hij : i ≠ j) : (afterP cs directed 0 aligned ops).R (i :: s) (j :: s) = Spec.readP cs.length directed aligned ops s i j := by
  rw [R_eq, after_intra hcs directed 0 aligned ops hij hs, okD_ok]

/-- Internal: there is no link between different nodes on different layers. -/
theorem main_R_inter (hU : Spec.Usable cs aligned ops) (hs : Spec.NoIntraSelf ops)
    (hal : aligned = true ∨ ∃ w, cs = [.categorical w]) {i j : α} {s t : List α} (hij : i ≠ j) (hst : s ≠ t)
    (h1 : i :: s ∈ product (afterP cs directed 0 aligned ops).slices)
    (h2 : j :: t ∈ product (afterP cs directed 0 aligned ops).slices) :
    (afterP cs directed 0 aligned ops).R (i :: s) (j :: t) = 0 := by
  by_contra hne
  have hsound := main_sound (directed := directed) hU hs hal
  obtain ⟨l, l1, -, -, l4⟩ := hsound.nls
  have hz : (afterP cs directed 0 aligned ops).view.noEdge = 0 := (after_params hU.some_aspect directed 0 aligned ops).2.2.1
  have hm := l4 _ h1 _ h2 (by rw [hz]; exact hne)
  obtain ⟨l', e1, -, e3⟩ := after_nodeLayers hU.some_aspect directed 0 aligned ops
  change (afterP cs directed 0 aligned ops).nodeLayers = _ at l1
  rw [l1] at e1; cases e1
  have hu := (e3 _).1 hm.1
  have hv := (e3 _).1 hm.2
  rw [main_R hU hu hv] at hne
  obtain ⟨w, hw⟩ := (after_weight hU.some_aspect directed aligned ops hU hu hv).2.1 hne
  rcases hw with ⟨i', j', s', a1, a2, -⟩ | ⟨i', s', t', a1, a2, -⟩
  · cases a1; cases a2; exact hst rfl
  · cases a1; cases a2; exact hij rfl

end

/-- **C54.** Aggregating all aspects of a multiplex network (with categorical or ordinal couplings, without
self-edges) gives a monoplex network on all its nodes that reads, between two different nodes, the sum over
all layers of the links in the layers; couplings do not contribute. -/
theorem C54_aggregate [AddCommMonoid W] [LawfulIntNames α] {cs : List (Coupling α W)} (directed : Bool) {aligned : Bool}
    {ops : List (POp α W)} (hU : Spec.Usable cs aligned ops) (hs : Spec.NoIntraSelf ops)
    (hal : aligned = true ∨ ∃ w, cs = [.categorical w]) :
    ∃ m' R', (afterP cs directed 0 aligned ops).view.aggregate (List.range' 1 cs.length) false = .ok m' ∧
      Spec.Looks m' 0 0 directed true (fun k x => k = 0 ∧ Spec.Happened (Spec.NamesNodeP cs.length aligned x) ops)
        (fun nl => ∃ x, nl = [x] ∧ Spec.Happened (Spec.NamesNodeP cs.length aligned x) ops) R' ∧
      (∀ i, R' [i] [i] = 0) ∧
      ∀ i j, i ≠ j → Spec.Happened (Spec.NamesNodeP cs.length aligned i) ops →
        Spec.Happened (Spec.NamesNodeP cs.length aligned j) ops →
        ∀ L : List (List α), L.Nodup → (∀ s, s ∈ L ↔ Spec.HasLayer cs.length aligned ops (.ofList s)) →
          R' [i] [j] = (L.map fun s => Spec.readP cs.length directed aligned ops s i j).sum := by
  have hcs := hU.some_aspect
  have hpar := after_params hcs directed 0 aligned ops
  have hsound := main_sound (directed := directed) hU hs hal
  have hpos : 1 ≤ cs.length := List.length_pos_iff.2 hcs
  set p := afterP cs directed 0 aligned ops with hp
  have v1 : p.view.aspects = cs.length := hpar.1
  have v2 : p.view.noEdge = 0 := hpar.2.2.1
  have v3 : p.view.directed = directed := hpar.2.1
  have v4 : p.view.fic = aligned := hpar.2.2.2.1
  have hn : (List.range' 1 cs.length).Nodup := List.nodup_range'
  have hr : ∀ d ∈ List.range' 1 cs.length, 1 ≤ d ∧ d ≤ p.view.aspects := by
    intro d hd
    rw [List.mem_range'_1] at hd
    omega
  obtain ⟨m', R', e, hb, r1, r2, -, -⟩ := aggregate_spec hsound v2 (fun _ => by omega) hn hr false (by simp)
  have hprod : ∀ u, u ∈ product p.slices ↔ ∃ n s, u = n :: s ∧ s.length = cs.length ∧
      Spec.Happened (Spec.NamesNodeP cs.length aligned n) ops ∧ Spec.HasLayer cs.length aligned ops (.ofList s) :=
    after_product hcs directed 0 aligned ops
  have hred : ∀ (n : α) (s : List α), s.length = cs.length → Spec.reduce (List.range' 1 cs.length) (n :: s) = [n] := by
    intro n s hl
    have := length_reduce (α := α) (k := cs.length) hn (fun d hd => by have := hr d hd; omega) (a := n :: s) (by simp [hl])
    rw [reduce_cons (by simp [List.mem_range'_1])] at this ⊢
    simp only [List.length_cons, List.length_range'] at this
    congr 1
    apply List.length_eq_zero_iff.1
    omega
  obtain ⟨s0, -⟩ := after_spec hcs directed 0 aligned ops
  rw [v1, v3, v4] at hb
  simp only [List.length_range', Nat.sub_self] at hb
  have hb2 := hb.looks' (by
    rintro - nl ⟨a, ⟨l, hl, ha⟩, rfl⟩
    obtain ⟨l', l1, -, l3, -⟩ := hsound.nls
    rw [hl] at l1; cases l1
    obtain ⟨n, s, rfl, hls, -, -⟩ := (hprod a).1 (l3 a ha)
    rw [hred n s hls]; rfl)
  simp only [decide_true, Bool.true_or, true_or, if_true] at hb2
  have hS : ∀ k x, ((k = 0 ∧ p.view.inS 0 x) ∨
          (∃ a b, Kept (List.range' 1 cs.length) false (product p.view.slices) 0 p.R a b ∧
            ((Spec.reduce (List.range' 1 cs.length) a)[k]? = some x ∨ (Spec.reduce (List.range' 1 cs.length) b)[k]? = some x)) ∨
          (aligned = false ∧ ∃ nl, p.view.isNL nl ∧ (Spec.reduce (List.range' 1 cs.length) nl)[k]? = some x)) ↔
      (k = 0 ∧ Spec.Happened (Spec.NamesNodeP cs.length aligned x) ops) := by
    intro k x
    have key : ∀ a ∈ product p.slices, (Spec.reduce (List.range' 1 cs.length) a)[k]? = some x →
        (k = 0 ∧ Spec.Happened (Spec.NamesNodeP cs.length aligned x) ops) := by
      intro a ha hx
      obtain ⟨n, s, rfl, hls, hnn, -⟩ := (hprod a).1 ha
      rw [hred n s hls] at hx
      cases k with
      | zero => simp at hx; subst hx; exact ⟨rfl, hnn⟩
      | succ k => simp at hx
    constructor
    · rintro (⟨rfl, hx⟩ | ⟨a, b, hk, hx | hx⟩ | ⟨-, nl, ⟨l, hl, ha⟩, hx⟩)
      · exact ⟨rfl, (s0 x).1 hx⟩
      · exact key a hk.1 hx
      · exact key b hk.2.1 hx
      · obtain ⟨l', l1, -, l3, -⟩ := hsound.nls
        rw [hl] at l1; cases l1
        exact key nl (l3 nl ha) hx
    · rintro ⟨rfl, hx⟩
      exact Or.inl ⟨rfl, (s0 x).2 hx⟩
  refine ⟨m', R', e, hb2.congr (fun k _ x => hS k x) (fun nl => ?_) (fun _ _ _ _ => rfl), fun i => r2 [i] rfl, ?_⟩
  · unfold Spec.AllNodeLayers
    simp only [hS]
    constructor
    · rintro ⟨hl, hx⟩
      match nl, hl with
      | [y], _ => exact ⟨y, rfl, (hx 0 y rfl).2⟩
    · rintro ⟨y, rfl, hy⟩
      refine ⟨rfl, fun i x hx => ?_⟩
      cases i with
      | zero => simp at hx; subst hx; exact ⟨rfl, hy⟩
      | succ i => simp at hx
  · intro i j hij hi hj L hL hmem
    rw [r1 [i] [j] (by simpa using hij)]
    have hlen : ∀ s ∈ L, s.length = cs.length := by
      intro s hs'
      obtain ⟨s', e', h', -⟩ := (hmem s).1 hs'
      cases ofList_inj' e'; exact h'
    have hin : ∀ n, Spec.Happened (Spec.NamesNodeP cs.length aligned n) ops → ∀ s ∈ L, n :: s ∈ product p.slices :=
      fun n hn' s hs' => (hprod _).2 ⟨n, s, rfl, hlen s hs', hn', (hmem s).1 hs'⟩
    have himg : ∀ n, Spec.Happened (Spec.NamesNodeP cs.length aligned n) ops →
        (product p.view.slices).toFinset.filter (fun a => Spec.reduce (List.range' 1 cs.length) a = [n]) =
          L.toFinset.image (List.cons n) := by
      intro n hn'
      ext a
      simp only [Finset.mem_filter, List.mem_toFinset, Finset.mem_image]
      constructor
      · rintro ⟨ha, hra⟩
        obtain ⟨n', s, rfl, hls, hnn, hL'⟩ := (hprod a).1 ha
        rw [hred n' s hls] at hra
        cases hra
        exact ⟨s, (hmem s).2 hL', rfl⟩
      · rintro ⟨s, hs', rfl⟩
        exact ⟨hin n hn' s hs', hred n s (hlen s hs')⟩
    rw [himg i hi, himg j hj, Finset.sum_image (by intro a _ b _ h; exact List.cons_injective h)]
    rw [← List.sum_toFinset _ hL]
    refine Finset.sum_congr rfl fun s hs' => ?_
    rw [List.mem_toFinset] at hs'
    rw [Finset.sum_image (by intro a _ b _ h; exact List.cons_injective h)]
    rw [Finset.sum_eq_single s]
    · exact main_R_intra hcs ((hmem s).1 hs') hij
    · intro t ht hts
      rw [List.mem_toFinset] at ht
      exact main_R_inter hU hs hal hij (Ne.symm hts) (hin i hi s hs') (hin j hj t ht)
    · intro h
      rw [List.mem_toFinset] at h
      exact absurd hs' h

example : ∃ m', (afterP [.categorical (1 : Int)] false 0 true samplePlex).view.aggregate [1] false = .ok m' ∧
    m'.view.readItem [1, 2] = .ok (.weight 13) ∧ m'.view.readItem [3, 2] = .ok (.weight 4) ∧
    m'.view.readItem [1, 1] = .ok (.weight 0) ∧ 9 ∈ m'.iterNodes none :=
  ⟨_, rfl, by decide, by decide, by decide, by decide⟩

/-- In an undirected network both orientations are written by the same calls. -/
theorem readP_symm [Zero W] (aspects : Nat) (aligned : Bool) (ops : List (POp α W)) (s : List α) (i j : α) :
    Spec.readP aspects false aligned ops s i j = Spec.readP aspects false aligned ops s j i := by
  have hl : ∀ a b, Spec.SameLink false a b i j ↔ Spec.SameLink false a b j i := by
    intro a b
    unfold Spec.SameLink
    simp only [true_and]
    tauto
  have hw : ∀ past op, Spec.writtenP aspects false aligned s i j past op = Spec.writtenP (W := W) aspects false aligned s j i past op := by
    intro past op
    cases op with
    | setItem item w =>
      simp only [Spec.writtenP]
      split <;> split <;> simp_all
    | intraSet L a b w =>
      simp only [Spec.writtenP]
      have := hl a b
      split <;> split <;> tauto
    | _ => rfl
  unfold Spec.readP
  simp only [hw]

/-- **C27** for multiplex networks with one aspect, whatever the coupling. -/
theorem C27_overlay_multiplex [LinearOrder α] [AddCommMonoid W] [IntNames α] (c : Coupling α W) (noEdge : W) (aligned : Bool)
    (ops : List (POp α W)) :
    ∃ m' R', (afterP [c] false noEdge aligned ops).view.overlay = .ok m' ∧
      Spec.Looks m' 0 0 false true (fun k x => k = 0 ∧ Spec.Happened (Spec.NamesNodeP 1 aligned x) ops ∧
          (∃ s, Spec.HasLayer 1 aligned ops (.el s)) ∧ ∃ y, Spec.Happened (Spec.NamesNodeP 1 aligned y) ops ∧ y ≠ x)
        (fun nl => ∃ x, nl = [x] ∧ Spec.Happened (Spec.NamesNodeP 1 aligned x) ops ∧
          (∃ s, Spec.HasLayer 1 aligned ops (.el s)) ∧ ∃ y, Spec.Happened (Spec.NamesNodeP 1 aligned y) ops ∧ y ≠ x) R' ∧
      ∀ x y, Spec.Happened (Spec.NamesNodeP 1 aligned x) ops → Spec.Happened (Spec.NamesNodeP 1 aligned y) ops → x ≠ y →
        ∃ layers : List α, layers.Nodup ∧ (∀ s, s ∈ layers ↔ Spec.HasLayer 1 aligned ops (.el s)) ∧
        R' [x] [y] = (layers.map fun s => Spec.readP 1 false aligned ops [s] x y).sum := by
  have hcs : [c] ≠ [] := by simp
  have hp := after_pinv hcs false noEdge aligned ops
  have hpar := after_params hcs false noEdge aligned ops
  obtain ⟨s0, s1, -⟩ := after_spec hcs false noEdge aligned ops
  set p := afterP [c] false noEdge aligned ops with hpd
  have v1 : p.view.aspects = 1 := hpar.1
  have v3 : p.view.directed = false := hpar.2.1
  have hlen : p.slices.length = 2 := by rw [hp.core.slen, hpar.1]; rfl
  obtain ⟨ns, ls, hsl⟩ : ∃ ns ls, p.slices = [ns, ls] := by
    match hs : p.slices, hlen with
    | [a, b], _ => exact ⟨a, b, rfl⟩
  have hsl' : p.view.slices = [ns, ls] := hsl
  have i0 : ∀ x, x ∈ ns ↔ Spec.Happened (Spec.NamesNodeP 1 aligned x) ops := by
    intro x
    refine Iff.trans ?_ (s0 x)
    unfold MPlex.inSlice; rw [hsl]; simp
  have i1 : ∀ x, x ∈ ls ↔ Spec.HasLayer 1 aligned ops (.el x) := by
    intro x
    have := s1 1 x (Nat.le_refl _)
    have h2 : x ∈ ls ↔ p.inSlice 1 x := by unfold MPlex.inSlice; rw [hsl]; simp
    rw [h2, this]
    constructor
    · intro h
      refine ⟨[x], rfl, rfl, fun k y hy => ?_⟩
      cases k with
      | zero => simp at hy; subst hy; exact h
      | succ k => simp at hy
    · rintro ⟨s, e, hl, h⟩
      cases ofList_inj' (show LKey.ofList [x] = _ from e)
      exact h 0 x rfl
  set R : List α → List α → W := fun u v => match u, v with
    | i :: s, j :: _ => Spec.readP 1 false aligned ops s i j
    | _, _ => 0 with hR
  have hread : ∀ s ∈ p.view.slices.getD 1 [], ∀ i ∈ p.view.slices.headD [], ∀ j ∈ p.view.slices.headD [],
      (p.view.directed = true ∨ j < i) → p.view.readItem [i, j, s, s] = .ok (.weight (R [i, s] [j, s])) := by
    intro s hs i hi j hj hc
    rw [v3] at hc
    have hji : j < i := by rcases hc with hc | hc; · cases hc
                           · exact hc
    rw [hsl'] at hs
    exact (C18_read hcs false noEdge aligned ops (s := [s]) ((i1 s).1 hs) i j).1 [i, j, s, s] (ne_of_gt hji)
      ⟨rfl, rfl, Or.inl rfl⟩
  obtain ⟨m', e, hb⟩ := overlay_loops (v := p.view) (R := R) v1 hread (by rw [v3]; simp)
  have hS : ∀ k x, (∃ t ∈ overlayTriples p.view, (p.view.directed = true ∨ t.2.2 < t.2.1) ∧
      ([t.2.1][k]? = some x ∨ [t.2.2][k]? = some x)) ↔
      (k = 0 ∧ Spec.Happened (Spec.NamesNodeP 1 aligned x) ops ∧
          (∃ s, Spec.HasLayer 1 aligned ops (.el s)) ∧ ∃ y, Spec.Happened (Spec.NamesNodeP 1 aligned y) ops ∧ y ≠ x) := by
    intro k x
    rw [v3]
    constructor
    · rintro ⟨⟨s, i, j⟩, ht, hc, hx⟩
      have ht := mem_overlayTriples.1 ht
      rw [hsl'] at ht
      simp only [List.getD_cons_succ, List.getD_cons_zero, List.headD_cons] at ht
      rw [i1, i0, i0] at ht
      have hlt : j < i := by rcases hc with hc | hc; · cases hc
                             · exact hc
      have hk : k = 0 := by
        rcases hx with hx | hx
        · have := (List.getElem?_eq_some_iff.1 hx).1; simpa using this
        · have := (List.getElem?_eq_some_iff.1 hx).1; simpa using this
      subst hk
      simp only [List.getElem?_cons_zero, Option.some.injEq] at hx
      refine ⟨rfl, ?_, ⟨s, ht.1⟩, ?_⟩
      · rcases hx with rfl | rfl
        · exact ht.2.1
        · exact ht.2.2
      · rcases hx with rfl | rfl
        · exact ⟨j, ht.2.2, ne_of_lt hlt⟩
        · exact ⟨i, ht.2.1, ne_of_gt hlt⟩
    · rintro ⟨rfl, hx, ⟨s, hs⟩, y, hy, hne⟩
      have mk : ∀ i j, Spec.Happened (Spec.NamesNodeP 1 aligned i) ops → Spec.Happened (Spec.NamesNodeP 1 aligned j) ops →
          (s, i, j) ∈ overlayTriples p.view := by
        intro i j hi hj
        rw [mem_overlayTriples, hsl']
        simp only [List.getD_cons_succ, List.getD_cons_zero, List.headD_cons]
        rw [i1, i0, i0]
        exact ⟨hs, hi, hj⟩
      rcases lt_or_gt_of_ne hne with hlt | hlt
      · exact ⟨(s, x, y), mk x y hx hy, Or.inr hlt, by simp⟩
      · exact ⟨(s, y, x), mk y x hy hx, Or.inr hlt, by simp⟩
  have hb' := (hb.congr hS (NL' := fun _ => True) (fun _ => Iff.rfl) (fun _ _ => rfl)).looks (fun _ => rfl) (by simp)
  refine ⟨m', _, e, hb'.congr (fun _ _ _ => Iff.rfl) (fun nl => ?_) (fun _ _ _ _ => rfl), ?_⟩
  · rw [if_pos rfl]
    unfold Spec.AllNodeLayers
    constructor
    · rintro ⟨hl, hx⟩
      match nl, hl with
      | [x], _ => exact ⟨x, rfl, (hx 0 x rfl).2⟩
    · rintro ⟨x, rfl, hx⟩
      refine ⟨rfl, fun i y hy => ?_⟩
      cases i with
      | zero => simp at hy; subst hy; exact ⟨rfl, hx⟩
      | succ i => simp at hy
  · intro x y hx hy hxy
    have hsn : ∀ s ∈ p.view.slices, s.Nodup := hp.core.snodup
    have := ocontrib_eq (v := p.view) (R := R) hsn hlen (fun _ s _ i _ j _ => readP_symm ..) (x := x) (y := y)
      (by rw [hsl']; exact (i0 x).2 hx) (by rw [hsl']; exact (i0 y).2 hy) hxy
    refine ⟨ls, hsn ls (by rw [hsl']; simp), i1, ?_⟩
    rw [this, hsl', v3]
    simp only [Bool.false_eq_true, if_false, add_zero]
    rfl

example : ∃ m', (afterP [.categorical (1 : Int)] false 0 true samplePlex).view.overlay = .ok m' ∧
    m'.view.readItem [1, 2] = .ok (.weight 13) ∧ m'.view.readItem [3, 2] = .ok (.weight 4) :=
  ⟨_, rfl, by decide, by decide⟩

open Classical in
/-- **C32** for node-aligned multiplex networks with couplings. The result is a general network whose
inter-layer links are the couplings. -/
theorem C32_threshold_multiplex_partial [Zero W] [LE W] [LT W] [DecidableLE W] [DecidableLT W] [LawfulIntNames α]
    {cs : List (Coupling α W)} (directed : Bool) {ops : List (POp α W)} (hU : Spec.Usable cs true ops)
    (hs : Spec.NoIntraSelf ops) (t : W) {method : Method} (hm : method ≠ .invalid) :
    ∃ m' R', (afterP cs directed 0 true ops).view.threshold t method = .ok m' ∧
      Spec.Looks m' cs.length 0 directed true
        (fun k x => if k = 0 then Spec.Happened (Spec.NamesNodeP cs.length true x) ops
          else ∃ op ∈ ops, Spec.NamesLayerP cs.length true k x op)
        (Spec.HasNodeLayer cs.length true ops) R' ∧
      ∀ u v, Spec.HasNodeLayer cs.length true ops u → Spec.HasNodeLayer cs.length true ops v →
        R' u v = if Spec.Keeps t (Spec.weight cs directed true ops u v) method then Spec.weight cs directed true ops u v else 0 := by
  have hcs := hU.some_aspect
  have hpar := after_params hcs directed 0 true ops
  have hsound := main_sound (directed := directed) hU hs (Or.inl rfl)
  obtain ⟨m', e, hb⟩ := threshold_spec hsound hpar.2.2.2.1 t hm
  set p := afterP cs directed 0 true ops with hp
  have v1 : p.view.aspects = cs.length := hpar.1
  have v2 : p.view.noEdge = 0 := hpar.2.2.1
  have v3 : p.view.directed = directed := hpar.2.1
  rw [v1, v2, v3] at hb
  obtain ⟨s0, s1, -⟩ := after_spec hcs directed 0 true ops
  have hS : ∀ k x, p.view.inS k x ↔ (if k = 0 then Spec.Happened (Spec.NamesNodeP cs.length true x) ops
          else ∃ op ∈ ops, Spec.NamesLayerP cs.length true k x op) := by
    intro k x
    by_cases hk : k = 0
    · subst hk; rw [if_pos rfl]; exact s0 x
    · rw [if_neg hk]; exact s1 k x (by omega)
  have hprod : ∀ u, u ∈ product p.view.slices ↔ Spec.HasNodeLayer cs.length true ops u := by
    intro u
    have := after_product hcs directed 0 true ops u
    refine this.trans ?_
    unfold Spec.HasNodeLayer
    simp
  refine ⟨m', _, e, (hb.looks (fun _ => rfl) (by simp)).congr (fun k _ x => hS k x) (fun nl => ?_) (fun _ _ _ _ => rfl), ?_⟩
  · rw [if_pos rfl, ← hprod, hsound.mem_product, v1]
  · intro u v hu hv
    have e1 := (hprod u).2 hu
    have e2 := (hprod v).2 hv
    rw [main_R hU hu hv]
    simp only [e1, e2, true_and]

example : ∃ m', (afterP [.categorical (1 : Int)] false 0 true samplePlex).view.threshold 5 .ge = .ok m' ∧
    m'.view.readItem [1, 2, 10] = .ok (.weight 6) ∧ m'.view.readItem [2, 3, 11] = .ok (.weight 0) ∧
    m'.view.readItem [1, 1, 10, 11] = .ok (.weight 0) := ⟨_, rfl, by decide, by decide, by decide⟩

/-- **C34** for multiplex networks: the underlying graph has one node per node-layer and the weights of the
intra-layer links and couplings. -/
theorem C34_underlying_multiplex [Zero W] [LawfulIntNames α] {β : Type} [DecidableEq β] {cs : List (Coupling α W)}
    (directed : Bool) {aligned : Bool} {ops : List (POp α W)} (hU : Spec.Usable cs aligned ops) (hs : Spec.NoIntraSelf ops)
    (hal : aligned = true ∨ ∃ w, cs = [.categorical w]) {name : List α → β} (hn : Function.Injective name) :
    ∃ m' R', (afterP cs directed 0 aligned ops).view.underlying name = .ok m' ∧
      Spec.Looks m' 0 0 directed true (fun k x => k = 0 ∧ ∃ nl, Spec.HasNodeLayer cs.length aligned ops nl ∧ x = name nl)
        (fun x => ∃ nl, Spec.HasNodeLayer cs.length aligned ops nl ∧ x = [name nl]) R' ∧
      ∀ u v, Spec.HasNodeLayer cs.length aligned ops u → Spec.HasNodeLayer cs.length aligned ops v →
        R' [name u] [name v] = Spec.weight cs directed aligned ops u v := by
  have hcs := hU.some_aspect
  have hpar := after_params hcs directed 0 aligned ops
  have hsound := main_sound (directed := directed) hU hs hal
  obtain ⟨l, l1, -, l3⟩ := after_nodeLayers hcs directed 0 aligned ops
  obtain ⟨m', R', e, hb, r1, r2⟩ := underlying_spec hsound hn l1
  set p := afterP cs directed 0 aligned ops with hp
  have v2 : p.view.noEdge = 0 := hpar.2.2.1
  have v3 : p.view.directed = directed := hpar.2.1
  obtain ⟨l', m1, -, m3, -⟩ := hsound.nls
  have hll : l' = l := by
    have : p.view.nodeLayers = .ok l := l1
    rw [m1] at this; cases this; rfl
  subst hll
  rw [v2, v3] at hb
  refine ⟨m', R', e, (hb.looks (fun _ => rfl) (by simp)).congr (fun k _ x => ?_) (fun nl => ?_) (fun _ _ _ _ => rfl), ?_⟩
  · simp only [l3]
  · rw [if_pos rfl]
    unfold Spec.AllNodeLayers
    simp only [l3]
    constructor
    · rintro ⟨hl, hx⟩
      match nl, hl with
      | [y], _ =>
        obtain ⟨-, a, ha, rfl⟩ := hx 0 y rfl
        exact ⟨a, ha, rfl⟩
    · rintro ⟨a, ha, rfl⟩
      refine ⟨rfl, fun i x hx => ?_⟩
      cases i with
      | zero => simp at hx; exact ⟨rfl, a, ha, hx.symm⟩
      | succ i => simp at hx
  · intro u v hu hv
    rw [r1 u (m3 u ((l3 u).2 hu)) v (m3 v ((l3 v).2 hv)), main_R hU hu hv]

example : ∃ m', (afterP [.categorical (1 : Int)] false 0 false samplePlex).view.underlying id = .ok m' ∧
    m'.view.readItem [[1, 10], [2, 10]] = .ok (.weight 6) ∧ m'.view.readItem [[2, 10], [2, 11]] = .ok (.weight 1) :=
  ⟨_, rfl, by decide, by decide⟩

end Pymnet
