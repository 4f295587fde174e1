import Verif.Proofs.Creators

/-! C117-C119: the generators `er_multilayer_partially_interconnected`, `geo` and `ws`. -/

set_option linter.unusedSectionVars false
set_option linter.unusedSimpArgs false

namespace Pymnet

open Py MPlex

variable {α W : Type} [DecidableEq α] [DecidableEq W] [Zero W] [One W]

/-- **C117.** `er_multilayer_partially_interconnected(nodes_by_layer, p)`, whatever the random numbers are: it does not raise; the
layers are 0, 1, ... (also those without nodes), node `n` is on layer `i` exactly if it is listed for it (once or more often), and
the node-layers can be numbered so that two of them are linked, with weight 1, exactly if the random number of the pair is below `p`;
every pair of different node-layers, also of one node on two layers, has its own random number, and no node-layer is linked to
itself. -/
theorem C117_er_pairs (ix : Nat → α) (nodes : List (List α)) (p : ℝ) (r : Nat → Nat → ℝ) :
    ∃ m R order, (erPart ix nodes p r : Except Err (MNet α W)) = .ok m ∧
      order.Nodup ∧ (∀ nl, nl ∈ order ↔ Spec.ListedOn ix nodes nl) ∧
      Spec.Looks m 1 0 false false
        (fun k x => (k = 0 ∧ ∃ ns ∈ nodes, x ∈ ns) ∨ (k = 1 ∧ ∃ i < nodes.length, x = ix i)) (Spec.ListedOn ix nodes) R ∧
      Spec.LinkedPairs order R (fun i j => r i j < p) := by
  obtain ⟨m, e, h⟩ := erPartNodes_ok (W := W) ix nodes
  have hmem : ∀ y, y ∈ nodes.zipIdx ↔ nodes[y.2]? = some y.1 := fun y => List.mem_zipIdx_iff_getElem?
  have hNL : ∀ nl, (∃ y ∈ nodes.zipIdx, ∃ n ∈ y.1, nl = [n, ix y.2]) ↔ Spec.ListedOn ix nodes nl := by
    intro nl
    constructor
    · rintro ⟨y, hy, n, hn, rfl⟩; exact ⟨y.2, y.1, n, (hmem y).1 hy, hn, rfl⟩
    · rintro ⟨i, ns, n, h1, h2, rfl⟩; exact ⟨(ns, i), (hmem _).2 h1, n, h2, rfl⟩
  have hl := h.looks (by simp) (fun _ nl hnl => by obtain ⟨y, -, n, -, rfl⟩ := hnl; rfl)
  have hord := hl.nodeLayers
  simp only [Bool.false_eq_true, if_false] at hord
  have hord2 : ∀ nl, nl ∈ m.nodeLayers ↔ Spec.ListedOn ix nodes nl := fun nl => (hord.2 nl).trans (hNL nl)
  have hlen : ∀ nl ∈ m.nodeLayers, nl.length = 2 := by
    intro nl hnl
    obtain ⟨i, ns, n, -, -, rfl⟩ := (hord2 nl).1 hnl; rfl
  generalize hO : m.nodeLayers = order at *
  have hz : ∀ y, y ∈ order.zipIdx ↔ order[y.2]? = some y.1 := fun y => List.mem_zipIdx_iff_getElem?
  have hin : ∀ y, y ∈ order.zipIdx → y.1 ∈ order := fun y hy => List.mem_of_getElem? ((hz y).1 hy)
  have uniq : ∀ {i j : Nat} {s}, order[i]? = some s → order[j]? = some s → i = j := by
    intro i j s h1 h2
    obtain ⟨l1, e1⟩ := List.getElem?_eq_some_iff.1 h1
    obtain ⟨l2, e2⟩ := List.getElem?_eq_some_iff.1 h2
    exact (List.Nodup.getElem_inj_iff hord.1).1 (e1.trans e2.symm)
  set l := order.zipIdx.flatMap fun a => order.zipIdx.map (Prod.mk a) with hl'
  have ml : ∀ y, y ∈ l ↔ order[y.1.2]? = some y.1.1 ∧ order[y.2.2]? = some y.2.1 := by
    rintro ⟨a, b⟩
    simp only [hl', List.mem_flatMap, List.mem_map, Prod.mk.injEq]
    constructor
    · rintro ⟨a', h1, b', h2, rfl, rfl⟩; exact ⟨(hz _).1 h1, (hz _).1 h2⟩
    · rintro ⟨h1, h2⟩; exact ⟨a, (hz _).2 h1, b, (hz _).2 h2, rfl, rfl⟩
  obtain ⟨m', R', e3, h3, h4⟩ := h.setItems l (fun y => y.1.2 > y.2.2 ∧ r y.1.2 y.2.2 < p) (fun y => y.1.1) (fun y => y.2.1)
    (fun _ => 1) (g := fun m y => if y.1.2 > y.2.2 ∧ r y.1.2 y.2.2 < p then (m.nodeSet y.1.1 y.2.1 1).toExcept else .ok m)
    (fun m y hy hq => by
      have l1 := hlen _ (List.mem_of_getElem? ((ml y).1 hy).1)
      have l2 := hlen _ (List.mem_of_getElem? ((ml y).1 hy).2)
      refine ⟨Spec.link y.1.1 y.2.1, ⟨l1, l2, .inl rfl⟩, (if_pos hq).trans ?_⟩
      match y.1.1, y.2.1, l1, l2 with
      | [a, b], [c, d], _, _ => simp [MNet.nodeSet, nodesToLink, interleave, Spec.link])
    (fun m y _ hq => if_neg hq)
    (fun y hy hq _ heq => by
      obtain ⟨h1, h2⟩ := (ml y).1 hy
      rw [← heq] at h2
      have := uniq h1 h2
      omega)
  have hnl3 : ∀ nl, ((∃ y ∈ nodes.zipIdx, ∃ n ∈ y.1, nl = [n, ix y.2]) ∨
      ∃ y ∈ l, (y.1.2 > y.2.2 ∧ r y.1.2 y.2.2 < p) ∧ (nl = y.1.1 ∨ nl = y.2.1)) ↔ Spec.ListedOn ix nodes nl := by
    intro nl
    rw [hNL]
    refine ⟨?_, .inl⟩
    rintro (h | ⟨y, hy, -, rfl | rfl⟩)
    · exact h
    · exact (hord2 _).1 (List.mem_of_getElem? ((ml y).1 hy).1)
    · exact (hord2 _).1 (List.mem_of_getElem? ((ml y).1 hy).2)
  have hS0 : ∀ (k : Nat) (x : α), ((k = 0 ∧ ∃ y ∈ nodes.zipIdx, x ∈ y.1) ∨ (k = 1 ∧ ∃ y ∈ nodes.zipIdx, x = ix y.2)) ↔
      ((k = 0 ∧ ∃ ns ∈ nodes, x ∈ ns) ∨ (k = 1 ∧ ∃ i < nodes.length, x = ix i)) := by
    intro k x
    refine or_congr (and_congr_right fun _ => ?_) (and_congr_right fun _ => ?_)
    · constructor
      · rintro ⟨y, hy, hx⟩; exact ⟨y.1, List.mem_of_getElem? ((hmem y).1 hy), hx⟩
      · rintro ⟨ns, hns, hx⟩
        obtain ⟨i, hi⟩ := List.getElem?_of_mem hns
        exact ⟨(ns, i), (hmem _).2 hi, hx⟩
    · constructor
      · rintro ⟨y, hy, hx⟩; exact ⟨y.2, (List.getElem?_eq_some_iff.1 ((hmem y).1 hy)).1, hx⟩
      · rintro ⟨i, hi, hx⟩; exact ⟨(nodes[i], i), (hmem _).2 (List.getElem?_eq_getElem hi), hx⟩
  have hS3 : ∀ (k : Nat) (x : α), (((k = 0 ∧ ∃ y ∈ nodes.zipIdx, x ∈ y.1) ∨ (k = 1 ∧ ∃ y ∈ nodes.zipIdx, x = ix y.2)) ∨
      ∃ y ∈ l, (y.1.2 > y.2.2 ∧ r y.1.2 y.2.2 < p) ∧ (y.1.1[k]? = some x ∨ y.2.1[k]? = some x)) ↔
      ((k = 0 ∧ ∃ ns ∈ nodes, x ∈ ns) ∨ (k = 1 ∧ ∃ i < nodes.length, x = ix i)) := by
    intro k x
    rw [hS0]
    refine ⟨?_, .inl⟩
    have key : ∀ nl ∈ order, nl[k]? = some x →
        ((k = 0 ∧ ∃ ns ∈ nodes, x ∈ ns) ∨ (k = 1 ∧ ∃ i < nodes.length, x = ix i)) := by
      intro nl hnl hx
      obtain ⟨i, ns, n, h1, h2, rfl⟩ := (hord2 nl).1 hnl
      match k with
      | 0 => cases hx; exact .inl ⟨rfl, ns, List.mem_of_getElem? h1, h2⟩
      | 1 => cases hx; exact .inr ⟨rfl, i, (List.getElem?_eq_some_iff.1 h1).1, rfl⟩
      | k + 2 => simp at hx
    rintro (h | ⟨y, hy, -, h | h⟩)
    · exact h
    · exact key _ (List.mem_of_getElem? ((ml y).1 hy).1) h
    · exact key _ (List.mem_of_getElem? ((ml y).1 hy).2) h
  have hl3 := (h3.congr hS3 hnl3 (fun _ _ => rfl)).looks (by simp) (fun _ nl hnl => by
    obtain ⟨i, ns, n, -, -, rfl⟩ := hnl; rfl)
  simp only [Bool.false_eq_true, if_false] at hl3
  have hpair : ∀ i j u v, j < i → order[i]? = some u → order[j]? = some v →
      (∀ w z, ((w = u ∧ z = v) ∨ (w = v ∧ z = u)) → R' w z = 1 ∧ r i j < p ∨ R' w z = 0 ∧ ¬ r i j < p) := by
    intro i j u v hij hu hv w z hwz
    rcases h4 w z with ⟨y, hy, hq, hab, e⟩ | ⟨hno, e⟩
    · obtain ⟨m1, m2⟩ := (ml y).1 hy
      left
      refine ⟨e, ?_⟩
      have : (u = y.1.1 ∧ v = y.2.1) ∨ (u = y.2.1 ∧ v = y.1.1) := by
        rcases hwz with ⟨rfl, rfl⟩ | ⟨rfl, rfl⟩
        · rcases hab with h | ⟨-, h1, h2⟩
          · exact .inl h
          · exact .inr ⟨h1, h2⟩
        · rcases hab with ⟨h1, h2⟩ | ⟨-, h1, h2⟩
          · exact .inr ⟨h2, h1⟩
          · exact .inl ⟨h2, h1⟩
      rcases this with ⟨rfl, rfl⟩ | ⟨rfl, rfl⟩
      · rw [uniq hu m1, uniq hv m2]; exact hq.2
      · have a1 := uniq hu m2
        have a2 := uniq hv m1
        have := hq.1
        omega
    · right
      refine ⟨e, fun hr => hno ((u, i), (v, j)) ((ml _).2 ⟨hu, hv⟩) ⟨hij, hr⟩ ?_⟩
      rcases hwz with ⟨rfl, rfl⟩ | ⟨rfl, rfl⟩
      · exact .inl ⟨rfl, rfl⟩
      · exact .inr ⟨rfl, rfl, rfl⟩
  refine ⟨m', R', order, ?_, hord.1, hord2, hl3, ⟨?_, ?_, ?_, ?_⟩⟩
  · unfold erPart
    rw [e]
    simp only
    rw [hO, forE_nest (g := fun (m : MNet α W) (a b : List α × Nat) =>
      if a.2 > b.2 ∧ r a.2 b.2 < p then (m.nodeSet a.1 b.1 1).toExcept else .ok m)]
    exact e3
  · intro i j u v hij hu hv hr
    have := hpair i j u v hij hu hv
    exact ⟨((this u v (.inl ⟨rfl, rfl⟩)).resolve_right (fun h => h.2 hr)).1,
      ((this v u (.inr ⟨rfl, rfl⟩)).resolve_right (fun h => h.2 hr)).1⟩
  · intro i j u v hij hu hv hr
    have := hpair i j u v hij hu hv
    exact ⟨((this u v (.inl ⟨rfl, rfl⟩)).resolve_left (fun h => hr h.2)).1,
      ((this v u (.inr ⟨rfl, rfl⟩)).resolve_left (fun h => hr h.2)).1⟩
  · intro u
    rcases h4 u u with ⟨y, hy, hq, hab, -⟩ | ⟨-, e⟩
    · exfalso
      obtain ⟨m1, m2⟩ := (ml y).1 hy
      have : y.1.1 = y.2.1 := by
        rcases hab with ⟨h1, h2⟩ | ⟨-, h1, h2⟩
        · exact h1.symm.trans h2
        · exact h2.symm.trans h1
      rw [← this] at m2
      have := uniq m1 m2
      have := hq.1
      omega
    · exact e
  · intro u v huv
    rcases h4 u v with ⟨y, hy, hq, hab, -⟩ | ⟨-, e⟩
    · exfalso
      obtain ⟨m1, m2⟩ := (ml y).1 hy
      rcases hab with ⟨rfl, rfl⟩ | ⟨-, rfl, rfl⟩
      · exact huv ⟨List.mem_of_getElem? m1, List.mem_of_getElem? m2⟩
      · exact huv ⟨List.mem_of_getElem? m2, List.mem_of_getElem? m1⟩
    · exact e

/-- The case of two layers with a common node: the four node-layers are `[1,0] [2,0] [2,1] [3,1]` in some order, and with the
random number 0 for one pair and 1 for the others there is one link. -/
example : Spec.ListedOn (fun i : Nat => (i : Int)) [[1, 2], [2, 3]] [2, 1] ∧
    ((if (1, 0) = ((1 : Nat), (0 : Nat)) then (0 : ℝ) else 1) < 0.5) :=
  ⟨⟨1, [2, 3], 2, rfl, by simp, rfl⟩, by norm_num⟩

/-! ### geo -/

open Classical in
/-- **C118.** `geo(n, edges)` for `n ≥ 2` with one coupling, if networkx returns graphs and keeps the positions it is given: it does
not raise; layer `i` has exactly the links of the graph that networkx returned for it, with weight 1; the nodes are those of the
graphs, on all layers; all the graphs after the first are asked for with the positions of the first, and each with the radius for
the required number of edges. -/
theorem C118_geo [IntNames α] {P : Type} (ix : Nat → α) {n : Nat} (hn : 2 ≤ n) (edges : List Nat)
    (coupling : Coupling α W) (gen : Nat → ℝ → Option P → GeoGraph α P) (hgen : ∀ i r q, Spec.IsGraph (gen i r q))
    (hpos : ∀ i r q, (gen i r (some q)).pos = q) :
    ∃ (p : MPlex α W) (G : Nat → GeoGraph α P), geo ix n edges coupling gen = .ok p ∧
      (∀ i m, edges[i]? = some m → ∃ r, Spec.IsRadius n m r ∧ G i = gen i r (if i = 0 then none else some (G 0).pos)) ∧
      Spec.LooksPlex p coupling true (fun x => ∃ i < edges.length, x ∈ (G i).nodes) (fun s => ∃ i < edges.length, s = ix i)
        (fun x _ => ∃ i < edges.length, x ∈ (G i).nodes)
        (fun s a b => if ∃ i < edges.length, s = ix i ∧ ((a, b) ∈ (G i).edges ∨ (b, a) ∈ (G i).edges) then 1 else 0) := by
  set p0 : Nat → P := fun m => (gen 0 (geoRadius n m) none).pos
  set G : Nat → GeoGraph α P := fun i =>
    gen i (geoRadius n (edges.getD i 0)) (if i = 0 then none else some (p0 (edges.getD 0 0))) with hG
  have hG0 : (G 0).pos = p0 (edges.getD 0 0) := rfl
  obtain ⟨⟨p, pos⟩, e, h⟩ := forE_ok (f := geoLayer ix n gen) (P := fun pre (st : MPlex α W × Option P) =>
      st.2 = (if pre = [] then none else some (G 0).pos) ∧
      BuiltP st.1 coupling true (fun x => ∃ y ∈ pre, x ∈ (G y.2).nodes) (fun s => ∃ y ∈ pre, s = ix y.2) (fun _ _ => False)
        (fun s a b => if ∃ y ∈ pre, s = ix y.2 ∧ ((a, b) ∈ (G y.2).edges ∨ (b, a) ∈ (G y.2).edges) then 1 else 0))
    edges.zipIdx (s := (MPlex.init [coupling] false 0 true, none))
    ⟨by simp, (BuiltP.init coupling true).congr (by simp) (by simp) (by simp) (by simp)⟩ (by
      rintro pre y post ⟨q, pos⟩ hl ⟨h1, h2⟩
      simp only at h1
      have hy : edges[pre.length]? = some y.1 ∧ y.2 = pre.length := by
        have : edges.zipIdx[pre.length]? = some y := by rw [hl]; simp
        rw [List.getElem?_zipIdx] at this
        cases hE : edges[pre.length]? with
        | none => rw [hE] at this; cases this
        | some m => rw [hE] at this; simp at this; cases this; exact ⟨rfl, rfl⟩
      have hp : pos = if y.2 = 0 then none else some (p0 (edges.getD 0 0)) := by
        rw [h1, hy.2, hG0]
        cases pre <;> simp
      have hGy : gen y.2 (geoRadius n y.1) pos = G y.2 := by
        rw [hp, hG]
        simp only [hy.2]
        rw [show edges.getD pre.length 0 = y.1 by rw [List.getD_eq_getElem?_getD, hy.1]; rfl]
      obtain ⟨q', e1, e2⟩ := geoLayer_ok (ix := ix) hn h2 pos y (hgen _ _ _)
      rw [hGy] at e1 e2
      refine ⟨_, e1, ?_, e2.congr (fun x => ?_) (fun t => ?_) (fun _ _ => Iff.rfl) (fun t a b => ?_)⟩
      · simp only [List.append_eq_nil_iff, List.cons_ne_self, reduceCtorEq, and_false, if_false]
        by_cases h0 : y.2 = 0
        · rw [h0]
        · rw [hG0, hG]
          simp only [h0, if_false, hpos]
      · simp only [List.mem_append, List.mem_singleton, or_and_right, exists_or, exists_eq_left]
      · simp only [List.mem_append, List.mem_singleton, or_and_right, exists_or, exists_eq_left]
      · by_cases hc : t = ix y.2 ∧ ((a, b) ∈ (G y.2).edges ∨ (b, a) ∈ (G y.2).edges)
        · rw [if_pos hc, if_pos ⟨y, by simp, hc⟩]
        · rw [if_neg hc]
          refine ite_iff ⟨fun ⟨z, hz, h⟩ => ⟨z, by simp [hz], h⟩, ?_⟩
          rintro ⟨z, hz, h⟩
          rcases List.mem_append.1 hz with hz | hz
          · exact ⟨z, hz, h⟩
          · rw [List.mem_singleton.1 hz] at h; exact absurd h hc)
  obtain ⟨-, h⟩ := h
  have hz : ∀ Q : Nat → Prop, (∃ y ∈ edges.zipIdx, Q y.2) ↔ ∃ i < edges.length, Q i := by
    intro Q
    constructor
    · rintro ⟨y, hy, hq⟩
      exact ⟨y.2, (List.getElem?_eq_some_iff.1 (List.mem_zipIdx_iff_getElem?.1 hy)).1, hq⟩
    · rintro ⟨i, hi, hq⟩
      exact ⟨(edges[i], i), List.mem_zipIdx_iff_getElem?.2 (List.getElem?_eq_getElem hi), hq⟩
  refine ⟨p, G, by unfold geo; rw [e]; rfl, fun i m hm => ⟨geoRadius n m, geoRadius_spec hn m, ?_⟩, ?_⟩
  · rw [hG0, hG]
    simp only
    rw [List.getD_eq_getElem?_getD, hm]; rfl
  · have h' := (h.congr (fun x => hz fun i => x ∈ (G i).nodes) (fun s => hz fun i => s = ix i) (fun _ _ => Iff.rfl)
      (R' := fun s a b => if ∃ i < edges.length, s = ix i ∧ ((a, b) ∈ (G i).edges ∨ (b, a) ∈ (G i).edges) then 1 else 0)
      (fun s a b => ite_iff (hz fun i => s = ix i ∧ ((a, b) ∈ (G i).edges ∨ (b, a) ∈ (G i).edges)))).looks
    simpa using h'

/-- `geo` with fewer than two nodes raises, unless no layer is asked for. -/
theorem C118_small {P : Type} (ix : Nat → α) {n : Nat} (hn : n < 2) (m : Nat) (edges : List Nat) (coupling : Coupling α W)
    (gen : Nat → ℝ → Option P → GeoGraph α P) : ∃ e, geo ix n (m :: edges) coupling gen = .error e := by
  obtain ⟨p1, e1, -⟩ := (BuiltP.init (W := W) coupling true).addLayer (ix 0)
  refine ⟨.zeroDivisionError, ?_⟩
  have : geoLayer ix n gen (MPlex.init [coupling] false 0 true, none) (m, 0) = .error .zeroDivisionError := by
    unfold geoLayer
    simp only [e1]
    rw [if_pos (by omega)]
  simp [geo, forE, List.zipIdx_cons, this, Except.map]

/-- The hypotheses of `C118_geo` are met by a generator that returns a path on three nodes. -/
example : ∃ gen : Nat → ℝ → Option Unit → GeoGraph Int Unit, (∀ i r q, Spec.IsGraph (gen i r q)) ∧
    (∀ i r q, (gen i r (some q)).pos = q) ∧ (gen 0 1 none).edges = [(0, 1), (1, 2)] :=
  ⟨fun _ _ _ => ⟨[0, 1, 2], [(0, 1), (1, 2)], ()⟩, by
    intro i r q e he
    fin_cases he <;> simp, by simp, rfl⟩

/-! ### ws -/

/-- **C119.** `ws(n, edges)` for `n ≥ 1` with one coupling, if networkx returns monoplex networks without self-links: it does not
raise; layer `i` has exactly the links of the network that networkx returned for it, with the same weights; the nodes are those of
these networks, on all layers; the networks are asked for with the smallest number `k` of neighbors for which `nk/2` is at least the
required number of edges. -/
theorem C119_ws [IntNames α] {ix : Nat → α} (hix : Function.Injective ix) {n : Nat} (hn : n ≠ 0) (edges : List Nat)
    (coupling : Coupling α W) (gen : Nat → Nat → MNet α W) (Sg : Nat → Nat → Nat → α → Prop) (NLg : Nat → Nat → List α → Prop)
    (Rg : Nat → Nat → List α → List α → W) (hgen : ∀ i k, Spec.Looks (gen i k) 0 0 false true (Sg i k) (NLg i k) (Rg i k))
    (hself : ∀ i k a, Rg i k [a] [a] = 0) :
    ∃ (p : MPlex α W) (R : α → α → α → W) (K : Nat → Nat), ws ix n edges coupling gen = .ok p ∧
      (∀ i m, edges[i]? = some m → Spec.IsNeighbors n m (K i)) ∧
      Spec.LooksPlex p coupling true (fun x => ∃ i < edges.length, Sg i (K i) 0 x) (fun s => ∃ i < edges.length, s = ix i)
        (fun x _ => ∃ i < edges.length, Sg i (K i) 0 x) R ∧
      ∀ i < edges.length, ∀ a b, R (ix i) a b = Rg i (K i) [a] [b] := by
  set K : Nat → Nat := fun i => wsNeighbors n (edges.getD i 0) with hK
  obtain ⟨p, e, R, h, hR⟩ := forE_ok (f := wsLayer ix n gen) (P := fun pre (p : MPlex α W) => ∃ R,
      BuiltP p coupling true (fun x => ∃ y ∈ pre, Sg y.2 (K y.2) 0 x) (fun s => ∃ y ∈ pre, s = ix y.2) (fun _ _ => False) R ∧
      ∀ y ∈ pre, ∀ a b, R (ix y.2) a b = Rg y.2 (K y.2) [a] [b])
    edges.zipIdx (s := MPlex.init [coupling] false 0 true)
    ⟨_, (BuiltP.init coupling true).congr (by simp) (by simp) (by simp) (fun _ _ _ => rfl), by simp⟩ (by
      rintro pre y post q hl ⟨R, h2, h3⟩
      have hy : K y.2 = wsNeighbors n y.1 := by
        have : y ∈ edges.zipIdx := by rw [hl]; simp
        have := List.mem_zipIdx_iff_getElem?.1 this
        rw [hK]; simp only
        rw [List.getD_eq_getElem?_getD, this]; rfl
      obtain ⟨q', e1, e2⟩ := wsLayer_ok (ix := ix) hn h2 y (by rw [← hy]; exact hgen y.2 (K y.2)) (hself _ _)
      refine ⟨q', e1, _, e2.congr (fun x => ?_) (fun t => ?_) (fun _ _ => Iff.rfl) (fun _ _ _ => rfl), fun z hz a b => ?_⟩
      · simp only [List.mem_append, List.mem_singleton, or_and_right, exists_or, exists_eq_left]
      · simp only [List.mem_append, List.mem_singleton, or_and_right, exists_or, exists_eq_left]
      · by_cases hzy : z.2 = y.2
        · simp [hzy]
        · simp only [hix.eq_iff, hzy, if_false]
          rcases List.mem_append.1 hz with hz | hz
          · exact h3 z hz a b
          · rw [List.mem_singleton.1 hz] at hzy; exact absurd rfl hzy)
  have hz : ∀ Q : Nat → Prop, (∃ y ∈ edges.zipIdx, Q y.2) ↔ ∃ i < edges.length, Q i := by
    intro Q
    constructor
    · rintro ⟨y, hy, hq⟩
      exact ⟨y.2, (List.getElem?_eq_some_iff.1 (List.mem_zipIdx_iff_getElem?.1 hy)).1, hq⟩
    · rintro ⟨i, hi, hq⟩
      exact ⟨(edges[i], i), List.mem_zipIdx_iff_getElem?.2 (List.getElem?_eq_getElem hi), hq⟩
  refine ⟨p, R, K, e, fun i m hm => ?_, ?_, fun i hi a b => ?_⟩
  · rw [hK]; simp only
    rw [List.getD_eq_getElem?_getD, hm]
    exact wsNeighbors_spec hn m
  · have h' := (h.congr (fun x => hz fun i => Sg i (K i) 0 x) (fun s => hz fun i => s = ix i) (fun _ _ => Iff.rfl)
      (fun _ _ _ => rfl)).looks
    simpa using h'
  · exact hR (edges[i], i) (List.mem_zipIdx_iff_getElem?.2 (List.getElem?_eq_getElem hi)) a b

/-- **The documented number of edges is not what is asked for**: a Watts-Strogatz network of `n` nodes with `k` neighbors has
`n * (k // 2)` edges, which is the number `m` given by the user only if `n` divides `m`. -/
theorem C119_false_edges {n m k : Nat} (hn : n ≠ 0) (hk : Spec.IsNeighbors n m k) : n * (k / 2) = m ↔ n ∣ m := by
  constructor
  · intro h; exact ⟨_, h.symm⟩
  · rintro ⟨c, rfl⟩
    have h1 : k ≤ 2 * c := hk.2 (2 * c) (by ring_nf; exact le_rfl)
    have h2 : n * (2 * c) ≤ n * k := by have := hk.1; calc n * (2 * c) = 2 * (n * c) := by ring
        _ ≤ _ := this
    have h3 := Nat.le_of_mul_le_mul_left h2 (Nat.pos_of_ne_zero hn)
    have : k = 2 * c := by omega
    rw [this]; simp

/-- The user asks for 15 edges between 10 nodes and gets 10. -/
example : Spec.IsNeighbors 10 15 3 ∧ 10 * (3 / 2) = 10 := ⟨⟨by omega, fun k h => by omega⟩, rfl⟩

/-- The hypotheses of `C119_ws` are met by a path on three nodes. -/
example : ∃ S NL R, Spec.Looks ((MNet.init 0 0 false true).run [.setItem [0, 1] 1, .setItem [1, 2] 1] : MNet Int Int) 0 0 false true S NL R ∧
    R [0] [1] = 1 ∧ ∀ a, R [a] [a] = 0 := by
  have h0 := Built.init (α := Int) 0 (0 : Int) false true
  obtain ⟨m1, e1, h1⟩ := h0.setItem (addresses_zero (i := 0) (j := 1)) 1 (by simp)
  obtain ⟨m2, e2, h2⟩ := h1.setItem (addresses_zero (i := 1) (j := 2)) 1 (by simp)
  have : ((MNet.init 0 0 false true).run [.setItem [0, 1] 1, .setItem [1, 2] 1] : MNet Int Int) = m2 := by
    have a1 : ((MNet.init 0 0 false true).setItem [0, 1] 1 : Outcome (MNet Int Int)).1 = m1 := by
      have := Outcome.toExcept_ok (r := (MNet.init 0 0 false true : MNet Int Int).setItem [0, 1] 1) (by decide +kernel)
      rw [e1] at this; cases this; rfl
    have a2 : (m1.setItem [1, 2] 1).1 = m2 := by
      have := Outcome.toExcept_ok (r := m1.setItem [1, 2] 1) (by rw [← a1]; decide +kernel)
      rw [e2] at this; cases this; rfl
    rw [← a2, ← a1]; rfl
  rw [this]
  refine ⟨_, _, _, h2.looks (by simp) (by simp), by simp, fun a => ?_⟩
  have : ∀ c : Int, ¬ ([a] = [c] ∧ [a] = [c + 1]) := by intro c ⟨h1, h2⟩; simp at h1 h2; omega
  have t0 := this 0
  have t1 := this 1
  simp only [zero_add] at t0
  norm_num at t1
  simp only [List.cons.injEq, and_true] at *
  split
  · omega
  · split
    · omega
    · rfl

end Pymnet
