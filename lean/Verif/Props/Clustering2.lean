import Verif.Props.Clustering

/-! Properties C40 and C61–C65: clustering coefficients of multilayer and multiplex networks. -/

set_option linter.unusedSectionVars false
set_option linter.unusedSimpArgs false

namespace Pymnet

open Py MPlex

namespace Spec

/-- The nodes `N`, the layers `B` and the nodes `M l` of each layer of a one-aspect multiplex network after a
history. -/
structure Sets {α W : Type} [DecidableEq α] (aligned : Bool) (ops : List (POp α W)) (N B : Finset α) (M : α → Finset α) :
    Prop where
  nodes : ∀ x, x ∈ N ↔ Happened (NamesNodeP 1 aligned x) ops
  layers : ∀ x, x ∈ B ↔ ∃ op ∈ ops, NamesLayerP 1 aligned 1 x op
  inLayer : ∀ l ∈ B, ∀ x, x ∈ M l ↔ HasNodeLayer 1 aligned ops [x, l]

/-- The rank-3 weighted adjacency tensor of an undirected one-aspect multiplex network after a history. -/
noncomputable def tensor {α W : Type} [DecidableEq α] [Zero W] (aligned : Bool) (ops : List (POp α W)) (i j l : α) : W :=
  readP 1 false aligned ops [l] i j

end Spec

theorem inSlice_getD {α W : Type} {p : MPlex α W} {a : Nat} {x : α} : p.inSlice a x ↔ x ∈ p.slices.getD a [] := by
  unfold inSlice
  rw [List.getD_eq_getElem?_getD]
  cases p.slices[a]? <;> simp

/-- Every history has such sets, so the hypothesis of the theorems below can always be met; the number of layers is
the number of elementary layers the network lists. -/
theorem exists_sets {α W : Type} [DecidableEq α] [DecidableEq W] [Zero W] [LawfulIntNames α] (c : Coupling α W)
    (aligned : Bool) (ops : List (POp α W)) : ∃ N B M, Spec.Sets aligned ops N B M := by
  have hcs : [c] ≠ [] := by simp
  obtain ⟨s0, s1, -, -, -⟩ := after_spec hcs false 0 aligned ops
  obtain ⟨nls, -, -, n3⟩ := after_nodeLayers hcs false 0 aligned ops
  refine ⟨((afterP [c] false 0 aligned ops).slices.getD 0 []).toFinset,
    ((afterP [c] false 0 aligned ops).slices.getD 1 []).toFinset,
    fun l => ((nls.filter fun x => x.getLast? = some l).flatMap fun x => x.take 1).toFinset, ⟨?_, ?_, ?_⟩⟩
  · intro x
    rw [List.mem_toFinset, ← inSlice_getD]
    exact s0 x
  · intro x
    rw [List.mem_toFinset, ← inSlice_getD]
    exact s1 1 x (le_refl _)
  · intro l _ x
    rw [List.mem_toFinset, List.mem_flatMap]
    constructor
    · rintro ⟨u, hu, hx⟩
      rw [List.mem_filter] at hu
      have hu1 := (n3 u).1 hu.1
      obtain ⟨n, s, rfl, hl, -⟩ := id hu1
      match s, hl with
      | [k], _ =>
        simp at hu hx
        rw [hx, ← hu.2]
        exact hu1
    · intro hx
      exact ⟨[x, l], by rw [List.mem_filter]; exact ⟨(n3 _).2 hx, by simp⟩, by simp⟩

theorem sets_card {α W : Type} [DecidableEq α] [DecidableEq W] [Zero W] [LawfulIntNames α] (c : Coupling α W)
    {aligned : Bool} {ops : List (POp α W)} {N B : Finset α} {M : α → Finset α} (h : Spec.Sets aligned ops N B M) :
    B.card = ((afterP [c] false 0 aligned ops).slices.getD 1 []).length := by
  have hcs : [c] ≠ [] := by simp
  obtain ⟨-, s1, -, -, -⟩ := after_spec hcs false 0 aligned ops
  have hp := after_pinv hcs false 0 aligned ops
  have hB : B = ((afterP [c] false 0 aligned ops).slices.getD 1 []).toFinset := by
    ext x
    rw [List.mem_toFinset, h.layers, ← inSlice_getD]
    exact (s1 1 x (le_refl _)).symm
  have hn : ((afterP [c] false 0 aligned ops).slices.getD 1 []).Nodup := by
    have hl := hp.core.slen
    rw [(after_params hcs false 0 aligned ops).1] at hl
    apply hp.core.snodup
    simp only [List.length_cons, List.length_nil] at hl
    rw [List.getD_eq_getElem?_getD, List.getElem?_eq_getElem (by omega)]
    exact List.getElem_mem _
  rw [hB, List.toFinset_card_of_nodup hn]

section plex

variable {α K : Type} [DecidableEq α] [Field K] [LinearOrder K] [IsStrictOrderedRing K] [LawfulIntNames α]
  {c : Coupling α K} {aligned : Bool} {ops : List (POp α K)} {N B : Finset α} {M : α → Finset α}

/-- Internal: the aggregated network of a multiplex network. -/
theorem plexAgg (hU : Spec.Usable [c] aligned ops) (hs : Spec.NoIntraSelf ops)
    (hal : aligned = true ∨ ∃ w, [c] = [.categorical w]) (h : Spec.Sets aligned ops N B M) :
    ∃ m' w, (afterP [c] false 0 aligned ops).view.aggregate [1] false = .ok m' ∧ Mono m'.view N w ∧ m'.view.noEdge = 0 ∧
      (∀ x, w x x = 0) ∧ ∀ i ∈ N, ∀ j ∈ N, w i j = ∑ l ∈ B, Spec.tensor aligned ops i j l := by
  obtain ⟨m', R', e, hl, h1, h2⟩ := C54_aggregate false hU hs hal
  have hp := plexL (c := c) hs h.nodes h.layers h.inLayer
  refine ⟨m', fun i j => R' [i] [j], e, hl.mono (fun x => by rw [h.nodes]; simp), hl.noEdge_eq, h1, fun i hi j hj => ?_⟩
  by_cases hij : i = j
  · subst hij
    change R' [i] [i] = _
    rw [h1, eq_comm]
    exact Finset.sum_eq_zero fun l _ => hp.self i l
  · have hLay : ∀ l, l ∈ B ↔ Spec.HasLayer 1 aligned ops (.ofList [l]) := by
      intro l
      rw [h.layers]
      constructor
      · intro h
        refine ⟨[l], rfl, rfl, fun k x hx => ?_⟩
        cases k with
        | zero => simp at hx; subst hx; exact h
        | succ k => simp at hx
      · rintro ⟨s, e, -, h⟩
        cases ofList_inj' e
        exact h 0 l rfl
    have := h2 i j hij ((h.nodes i).1 hi) ((h.nodes j).1 hj) (B.toList.map fun l => [l])
      (B.nodup_toList.map fun a b h => by simpa using h) (by
        intro s
        rw [List.mem_map]
        constructor
        · rintro ⟨l, hl, rfl⟩
          exact (hLay l).1 (Finset.mem_toList.1 hl)
        · intro hs
          obtain ⟨s', e, hl, hx⟩ := hs
          cases ofList_inj' e
          match s, hl with
          | [l], _ => exact ⟨l, Finset.mem_toList.2 ((h.layers l).2 (hx 0 l rfl)), rfl⟩)
    change R' [i] [j] = _
    rw [this, List.map_map, ← Finset.sum_map_toList]
    rfl

/-- **C40, Barrett et al.** On an undirected one-aspect multiplex network (categorical couplings, or node-aligned),
`cc_barrett` with the aggregated network, and `cc_barrett_explicit` agree with each other and with the formula
`Σ_j Σ_h Σ_k (A_ijk Σ_l (A_ihl Σ_m A_jhm)) / Σ_j Σ_h Σ_k (A_ijk Σ_l max(A_ihl,A_jhl))` when undefined values
are returned as 0 (the default). If weights are not negative, so does `cc_barrett_optimized`. -/
theorem C40_barrett_partial (hU : Spec.Usable [c] aligned ops) (hs : Spec.NoIntraSelf ops)
    (hal : aligned = true ∨ ∃ w, [c] = [.categorical w]) (h : Spec.Sets aligned ops N B M) {n : α} (hn : n ∈ N) :
    ∃ m' r r', (afterP [c] false 0 aligned ops).view.aggregate [1] false = .ok m' ∧
      View.barrett (afterP [c] false 0 aligned ops).view m'.view n = .ok r ∧
      (afterP [c] false 0 aligned ops).view.barrettExplicit n = .ok r' ∧
      r.getD 0 = r'.getD 0 ∧
      r' = Spec.quotient (Spec.barrettNom N B (Spec.tensor aligned ops) n) (Spec.barrettDen N B (Spec.tensor aligned ops) n) ∧
      ((∀ i j l, 0 ≤ Spec.tensor aligned ops i j l) → (afterP [c] false 0 aligned ops).barrettOpt m'.view n = .ok r) := by
  obtain ⟨m', w, e, hm, h0, hself, hw⟩ := plexAgg hU hs hal h
  have hp := plexL (c := c) hs h.nodes h.layers h.inLayer
  refine ⟨m', _, _, e, barrett_spec hp.lay hm h0 hself hw hn, hp.lay.barrettExplicit n, ?_, rfl, fun hpos =>
    barrettOpt_spec hp hm h0 hself hw hpos hn⟩
  by_cases hk : (Spec.neighbours N (fun i j => w i j ≠ 0) n).card < 2
  · have hb := barrett_few hm h0 hself hw hn hk
    change Spec.barrettNom N B (fun i j l => Spec.readP 1 false aligned ops [l] i j) n = 0 at hb
    rw [if_pos hk, hb]
    unfold Spec.quotient
    split <;> simp
  · rw [if_neg hk]

/-- **C63.** `lcc_criado` on an undirected one-aspect multiplex network with any coupling is
`2 Σ_α |E_α(u)| / Σ_α |Γ_α(u)| (|Γ_α(u)| - 1)` with `Γ_α(u)` the nodes of layer `α` linked to `u` in some layer and
`E_α(u)` the links *of layer `α`* among them; it is undefined iff the denominator is 0, and in `[0,1]`. -/
theorem C63_criado (hs : Spec.NoIntraSelf ops) (h : Spec.Sets aligned ops N B M) (n : α) :
    ∃ r, (afterP [c] false 0 aligned ops).criado none n = .ok r ∧
      r = Spec.criado N B M (fun i j l => Spec.tensor aligned ops i j l ≠ 0) n ∧ ∀ q, r = some q → 0 ≤ q ∧ q ≤ 1 := by
  have hp := plexL (c := c) hs h.nodes h.layers h.inLayer
  refine ⟨_, criado_spec hp n, rfl, fun q hq => ?_⟩
  exact criado_range N B M (fun x a hx => hx (hp.self x a)) n hq

/-- **C63, with the aggregated network.** The same value for networks without negative weights. -/
theorem C63_criado_aggregated (hU : Spec.Usable [c] aligned ops) (hs : Spec.NoIntraSelf ops)
    (hal : aligned = true ∨ ∃ w, [c] = [.categorical w]) (h : Spec.Sets aligned ops N B M)
    (hpos : ∀ i j l, 0 ≤ Spec.tensor aligned ops i j l) {n : α} (hn : n ∈ N) :
    ∃ m', (afterP [c] false 0 aligned ops).view.aggregate [1] false = .ok m' ∧
      (afterP [c] false 0 aligned ops).criado (some m'.view) n = (afterP [c] false 0 aligned ops).criado none n := by
  obtain ⟨m', w, e, hm, h0, hself, hw⟩ := plexAgg hU hs hal h
  have hp := plexL (c := c) hs h.nodes h.layers h.inLayer
  refine ⟨m', e, ?_⟩
  rw [criado_agg hp hm h0 hw hpos hn, criado_spec hp]

/-- **C62.** `lcc_brodka` on an undirected one-aspect multiplex network with any coupling is
`Σ_α Σ_{v,h ∈ N(u,t)} (W_hvα + W_vhα) / (2 |N(u,t)| |L|)` (0 if `N(u,t)` is empty), with `N(u,t)` the nodes linked
to `u` in some layer and in at least `t` layers. `threshold='all'` is `t = |L|`. -/
theorem C62_brodka (hs : Spec.NoIntraSelf ops) (h : Spec.Sets aligned ops N B M) (n : α) (t : Option ℕ) :
    (afterP [c] false 0 aligned ops).brodka n t = .ok (Spec.brodka B
      (Spec.manyLayers N B (fun i j l => Spec.tensor aligned ops i j l ≠ 0) n (t.getD B.card)) (Spec.tensor aligned ops)) :=
  brodka_spec (plexL (c := c) hs h.nodes h.layers h.inLayer) n t

/-- **C62, with the aggregated network.** The same value for unweighted networks. -/
theorem C62_brodka_aggregated_partial (hU : Spec.Usable [c] aligned ops) (hs : Spec.NoIntraSelf ops)
    (hal : aligned = true ∨ ∃ w, [c] = [.categorical w]) (h : Spec.Sets aligned ops N B M)
    (hA : ∀ i j l, Spec.tensor aligned ops i j l = 0 ∨ Spec.tensor aligned ops i j l = 1) {n : α} (hn : n ∈ N) (t : Option ℕ) :
    ∃ m', (afterP [c] false 0 aligned ops).view.aggregate [1] false = .ok m' ∧
      (afterP [c] false 0 aligned ops).brodkaAgg m'.view n t = (afterP [c] false 0 aligned ops).brodka n t := by
  obtain ⟨m', w, e, hm, h0, hself, hw⟩ := plexAgg hU hs hal h
  have hp := plexL (c := c) hs h.nodes h.layers h.inLayer
  refine ⟨m', e, ?_⟩
  rw [brodka_agg hp hm h0 hw hA hn, brodka_spec hp]

/-- **C61, multiplex networks.** See `C61_battiston1`. -/
theorem C61_battiston_multiplex (hs : Spec.NoIntraSelf ops) (h : Spec.Sets aligned ops N B M) (n : α) :
    (afterP [c] false 0 aligned ops).view.battiston1 n = (if B.card < 2 then .error .assertionError
      else .ok (if Spec.battiston1Den N B (fun i j l => Spec.tensor aligned ops i j l ≠ 0) n = 0 then none
        else some ((Spec.battiston1Num N B (fun i j l => Spec.tensor aligned ops i j l ≠ 0) n : ℚ) /
          Spec.battiston1Den N B (fun i j l => Spec.tensor aligned ops i j l ≠ 0) n / (B.card - 1)))) ∧
    (afterP [c] false 0 aligned ops).view.battiston2 n =
      .ok (if B.card < 3 ∨ Spec.battiston2Den N B (fun i j l => Spec.tensor aligned ops i j l ≠ 0) n = 0 then none
        else some ((Spec.battiston2Num N B (fun i j l => Spec.tensor aligned ops i j l ≠ 0) n : ℚ) /
          Spec.battiston2Den N B (fun i j l => Spec.tensor aligned ops i j l ≠ 0) n / (B.card - 2))) := by
  have hp := plexL (c := c) hs h.nodes h.layers h.inLayer
  have e1 := hp.lay.battiston1 n
  have e2 := hp.lay.battiston2 n
  have hl : Lay.link (afterP [c] false 0 aligned ops).view (fun i j l => Spec.readP 1 false aligned ops [l] i j) =
      fun i j l => Spec.tensor aligned ops i j l ≠ 0 := by
    funext i j l
    unfold Lay.link
    rw [show (afterP [c] false 0 aligned ops).view.noEdge = 0 from hp.ne]
    rfl
  rw [hl] at e1 e2
  exact ⟨e1, e2⟩

/-- **C65, layer by layer.** `cc_layers_wavg` is the number of triangles at the node in the layers divided by the
number of connected triples at it (`ZeroDivisionError` if there are none), `gcc_super_graph_no_couplings` the same
summed over all nodes (`None` if there are no connected triples). -/
theorem C65_layers (hs : Spec.NoIntraSelf ops) (h : Spec.Sets aligned ops N B M) :
    (∀ n, (afterP [c] false 0 aligned ops).layersWavg n =
      if (∑ l ∈ B, ((Spec.triads (M l) (fun i j => Spec.tensor aligned ops i j l ≠ 0) n).card : ℚ)) = 0
      then .error .zeroDivisionError
      else .ok ((∑ l ∈ B, ((Spec.triangles (M l) (fun i j => Spec.tensor aligned ops i j l ≠ 0) n).card : ℚ)) /
        (∑ l ∈ B, ((Spec.triads (M l) (fun i j => Spec.tensor aligned ops i j l ≠ 0) n).card : ℚ)))) ∧
    (afterP [c] false 0 aligned ops).superGraphNoCouplings =
      .ok (Spec.quotient (∑ n ∈ N, ∑ l ∈ B, ((Spec.triangles (M l) (fun i j => Spec.tensor aligned ops i j l ≠ 0) n).card : ℚ))
        (∑ n ∈ N, ∑ l ∈ B, ((Spec.triads (M l) (fun i j => Spec.tensor aligned ops i j l ≠ 0) n).card : ℚ))) := by
  have hp := plexL (c := c) hs h.nodes h.layers h.inLayer
  have hK := keyed (c := c) h.layers
  exact ⟨layersWavg_spec hp hK, superGraphNoCouplings_spec hp hK⟩

/-- **C65, sequences.** `cc_sequence` lists, for the layers in some order, the number of triangles at the node and
the number of pairs of neighbours (half the numbers of ordered pairs). -/
theorem C65_sequence (hs : Spec.NoIntraSelf ops) (h : Spec.Sets aligned ops N B M) (n : α) :
    ∃ ls : List α, ls.Nodup ∧ (∀ x, x ∈ ls ↔ x ∈ B) ∧ ∃ ts : List ℕ,
      ts.map (fun t => 2 * t) = ls.map (fun l => (Spec.triangles (M l) (fun i j => Spec.tensor aligned ops i j l ≠ 0) n).card) ∧
      (afterP [c] false 0 aligned ops).ccSequence n =
        .ok (ts, ls.map fun l => ((Spec.triads (M l) (fun i j => Spec.tensor aligned ops i j l ≠ 0) n).card : ℚ) / 2) :=
  ccSequence_spec (plexL (c := c) hs h.nodes h.layers h.inLayer) (keyed (c := c) h.layers) n

end plex

/-! ### general one-aspect networks -/

section general

variable {α W : Type} [DecidableEq α] [DecidableEq W] {m : MNet α W} {d : Nat} {z : W} {dir al : Bool} {S : Nat → α → Prop}
  {NL : List α → Prop} {R : List α → List α → W}

/-- **C61, first coefficient of Battiston et al.** on a one-aspect network: `AssertionError` with fewer than two
layers; undefined iff the denominator of the documented formula is 0, otherwise the documented quotient divided by
the number of layers minus one, which makes it lie in `[0,1]`. -/
theorem C61_battiston1 (h : Spec.Looks m 1 z dir al S NL R) {N B : Finset α} (hN : ∀ x, x ∈ N ↔ S 0 x)
    (hB : ∀ x, x ∈ B ↔ S 1 x) (n : α) :
    m.view.battiston1 n = (if B.card < 2 then .error .assertionError
      else .ok (if Spec.battiston1Den N B (fun i j l => R [i, l] [j, l] ≠ z) n = 0 then none
        else some ((Spec.battiston1Num N B (fun i j l => R [i, l] [j, l] ≠ z) n : ℚ) /
          Spec.battiston1Den N B (fun i j l => R [i, l] [j, l] ≠ z) n / (B.card - 1)))) := by
  have e := (h.lay hN hB).battiston1 n
  have hl : Lay.link m.view (fun i j l => R [i, l] [j, l]) = fun i j l => R [i, l] [j, l] ≠ z := by
    funext i j l
    unfold Lay.link
    rw [show m.view.noEdge = z from h.noEdge_eq]
  rwa [hl] at e

/-- **C61, second coefficient**, with at least three layers. -/
theorem C61_battiston2 (h : Spec.Looks m 1 z dir al S NL R) {N B : Finset α} (hN : ∀ x, x ∈ N ↔ S 0 x)
    (hB : ∀ x, x ∈ B ↔ S 1 x) (n : α) :
    m.view.battiston2 n =
      .ok (if B.card < 3 ∨ Spec.battiston2Den N B (fun i j l => R [i, l] [j, l] ≠ z) n = 0 then none
        else some ((Spec.battiston2Num N B (fun i j l => R [i, l] [j, l] ≠ z) n : ℚ) /
          Spec.battiston2Den N B (fun i j l => R [i, l] [j, l] ≠ z) n / (B.card - 2))) := by
  have e := (h.lay hN hB).battiston2 n
  have hl : Lay.link m.view (fun i j l => R [i, l] [j, l]) = fun i j l => R [i, l] [j, l] ≠ z := by
    funext i j l
    unfold Lay.link
    rw [show m.view.noEdge = z from h.noEdge_eq]
  rwa [hl] at e

/-- **C61, range.** Both values lie in `[0,1]`, for every finite set of nodes and layers and every link relation. -/
theorem C61_range (N B : Finset α) (link : α → α → α → Prop) (n : α) :
    (2 ≤ B.card → 0 ≤ (Spec.battiston1Num N B link n : ℚ) / Spec.battiston1Den N B link n / (B.card - 1) ∧
      (Spec.battiston1Num N B link n : ℚ) / Spec.battiston1Den N B link n / (B.card - 1) ≤ 1) ∧
    (3 ≤ B.card → 0 ≤ (Spec.battiston2Num N B link n : ℚ) / Spec.battiston2Den N B link n / (B.card - 2) ∧
      (Spec.battiston2Num N B link n : ℚ) / Spec.battiston2Den N B link n / (B.card - 2) ≤ 1) := by
  have key : ∀ (k : ℕ) (a b : ℕ), k < B.card → a ≤ (B.card - k) * b →
      0 ≤ (a : ℚ) / b / (B.card - k) ∧ (a : ℚ) / b / (B.card - k) ≤ 1 := by
    intro k a b hk hab
    have hk' : (0 : ℚ) ≤ B.card - k := by rw [sub_nonneg]; exact_mod_cast hk.le
    have hab' : (a : ℚ) ≤ (B.card - k) * b := by
      have : ((a : ℕ) : ℚ) ≤ (((B.card - k) * b : ℕ) : ℚ) := by exact_mod_cast hab
      rwa [Nat.cast_mul, Nat.cast_sub hk.le] at this
    refine ⟨div_nonneg (by positivity) hk', ?_⟩
    rw [div_div, mul_comm]
    exact div_le_one_of_le₀ hab' (mul_nonneg hk' (by positivity))
  refine ⟨fun h => ?_, fun h => ?_⟩
  · have := key 1 _ _ (by omega) (battiston1_le N B link n)
    simpa using this
  · have := key 2 _ _ (by omega) (battiston2_le N B link n)
    simpa using this

/-- **C65, supra graph.** `gcc_super_graph` of an undirected network of any kind is the number of triangles of the
graph on all node-layers divided by the number of its connected triples (counted at each node-layer); `None` if
there are none. -/
theorem C65_super_graph (h : Spec.Looks m d z false al S NL R) {X : Finset (List α)}
    (hX : ∀ x, x ∈ X ↔ Spec.AllNodeLayers d S x) :
    m.view.gccSuperGraph = .ok (Spec.quotient (∑ a ∈ X, ((Spec.triangles X (fun u v => R u v ≠ z) a).card : ℚ))
      (∑ a ∈ X, ((Spec.triads X (fun u v => R u v ≠ z) a).card : ℚ))) := by
  have := (h.sup hX).gcc
  rwa [show m.view.noEdge = z from h.noEdge_eq] at this

/-- **C65, supra graph**, for node-aligned multiplex networks with categorical or ordinal couplings; couplings are
links. -/
theorem C65_super_graph_multiplex [Zero W] [LawfulIntNames α] {cs : List (Coupling α W)} {ops : List (POp α W)}
    (hU : Spec.Usable cs true ops) (hs : Spec.NoIntraSelf ops) {X : Finset (List α)}
    (hX : ∀ x, x ∈ X ↔ Spec.HasNodeLayer cs.length true ops x) :
    (afterP cs false 0 true ops).view.gccSuperGraph =
      .ok (Spec.quotient (∑ a ∈ X, ((Spec.triangles X (fun u v => Spec.weight cs false true ops u v ≠ 0) a).card : ℚ))
        (∑ a ∈ X, ((Spec.triads X (fun u v => Spec.weight cs false true ops u v ≠ 0) a).card : ℚ))) := by
  have := (plex_sup hU hs hX).gcc
  rwa [show (afterP cs false 0 true ops).view.noEdge = 0 from (after_params hU.some_aspect false 0 true ops).2.2.1] at this

/-- **C65, range.** -/
theorem C65_range {V : Type} (X : Finset V) (link : V → V → Prop) {q : ℚ}
    (hq : Spec.quotient (∑ a ∈ X, ((Spec.triangles X link a).card : ℚ)) (∑ a ∈ X, ((Spec.triads X link a).card : ℚ)) = some q) :
    0 ≤ q ∧ q ≤ 1 :=
  quotient_range (Finset.sum_nonneg fun _ _ => by positivity)
    (Finset.sum_le_sum fun a _ => by exact_mod_cast triangles_le_triads X link a) hq

end general

/-! ### contractions -/

section contraction

variable {α K : Type} [DecidableEq α] [Field K] [LinearOrder K] [IsStrictOrderedRing K] {m : MNet α K} {z : K}
  {dir al : Bool} {S : Nat → α → Prop} {NL : List α → Prop} {R : List α → List α → K}

/-- **C40, contractions.** `gcc_contraction_m`, `_m_ct` and `_m_full` give the same value on every one-aspect
network, directed or not: the closed walks of length three on the node-layers divided by the walks of length two
with different ends, with their weights. -/
theorem C40_contraction_m (h : Spec.Looks m 1 z dir al S NL R) {N B : Finset α} (hN : ∀ x, x ∈ N ↔ S 0 x)
    (hB : ∀ x, x ∈ B ↔ S 1 x) :
    m.view.contractionM = .ok (Spec.quotient (Spec.closedWalks (N ×ˢ B) fun x y => R [x.1, x.2] [y.1, y.2])
      (Spec.openWalks (N ×ˢ B) fun x y => R [x.1, x.2] [y.1, y.2])) ∧
    m.view.contractionMct = m.view.contractionM ∧ m.view.contractionMfull = m.view.contractionM := by
  have h4 := h.four hN hB
  refine ⟨h4.contractionM, ?_, ?_⟩
  · rw [h4.contractionM, h4.contractionMct]
  · rw [h4.contractionM, h4.contractionMfull]

/-- **C64.** `gcc_contraction_o2` and `_o_full` agree on every one-aspect network: the closed walks of length three
in the aggregated network divided by the number of layers times the walks of length two with different ends. -/
theorem C64_contraction_o (h : Spec.Looks m 1 z dir al S NL R) {N B : Finset α} (hN : ∀ x, x ∈ N ↔ S 0 x)
    (hB : ∀ x, x ∈ B ↔ S 1 x) :
    m.view.contractionO2 = .ok (Spec.quotient (Spec.closedWalks N fun a b => ∑ l ∈ B, R [a, l] [b, l])
      (B.card * Spec.openWalks N fun a b => ∑ l ∈ B, R [a, l] [b, l])) ∧
    m.view.contractionOfull = m.view.contractionO2 := by
  have h4 := h.four hN hB
  refine ⟨h4.contractionO2, ?_⟩
  rw [h4.contractionO2, h4.contractionOfull]

/-- **C64, range.** With weights in `[0,1]` and no self-links these coefficients lie in `[0,1]`. -/
theorem C64_range (h : Spec.Looks m 1 z dir al S NL R) {N B : Finset α} (hN : ∀ x, x ∈ N ↔ S 0 x)
    (hB : ∀ x, x ∈ B ↔ S 1 x) (hw : ∀ u v, 0 ≤ R u v ∧ R u v ≤ 1) (hself : ∀ u, R u u = 0) :
    ∃ r s, m.view.contractionM = .ok r ∧ m.view.contractionO2 = .ok s ∧ (∀ q, r = some q → 0 ≤ q ∧ q ≤ 1) ∧
      ∀ q, s = some q → 0 ≤ q ∧ q ≤ 1 := by
  have h4 := h.four hN hB
  refine ⟨_, _, h4.contractionM, h4.contractionO2, fun q hq => ?_, fun q hq => ?_⟩
  · obtain ⟨h1, -, h3⟩ := closed_le_open (X := N ×ˢ B) (w := fun x y => R [x.1, x.2] [y.1, y.2]) (c := 1)
      (fun _ _ _ _ => (hw _ _).1) (fun _ _ _ _ => (hw _ _).2) (fun _ _ => hself _)
    rw [one_mul] at h3
    exact quotient_range h1 h3 hq
  · have hf := fun a (ha : a ∈ N) b (hb : b ∈ N) => flat_range (N := N) (B := B)
      (w := fun x y => R [x.1, x.2] [y.1, y.2]) (fun _ _ _ _ => hw _ _) ha hb
    obtain ⟨h1, -, h3⟩ := closed_le_open (X := N) (w := flat B fun x y => R [x.1, x.2] [y.1, y.2]) (c := B.card)
      (fun a ha b hb => (hf a ha b hb).1) (fun a ha b hb => (hf a ha b hb).2)
      (fun a _ => Finset.sum_eq_zero fun l _ => hself _)
    exact quotient_range h1 h3 hq

end contraction

/-! ### concrete networks -/

section concrete

theorem of_ok {β : Type} {e : Except Err β} {P : β → Prop} [DecidablePred P]
    (h : (match e with | .ok m => decide (P m) | .error _ => false) = true) : ∃ m, e = .ok m ∧ P m := by
  match e, h with
  | .ok m, h => exact ⟨m, rfl, of_decide_eq_true h⟩

/-- Three layers; layer `10` a triangle, layer `11` a path, node `4` linked in layer `11`, node `5` on layer `12`
only (not node-aligned). -/
def plexQ : List (POp Int ℚ) :=
  [.setItem [1, 2, 10] 1, .setItem [1, 3, 10] 1, .setItem [2, 3, 10] 1, .setItem [1, 2, 11] 1, .setItem [2, 3, 11] 1,
   .setItem [3, 4, 11] 1, .addNode 5 (some (.el 12))]

theorem plexQ_noSelf : Spec.NoIntraSelf plexQ := by
  intro L i w h
  simp only [plexQ, List.mem_cons, reduceCtorEq, List.not_mem_nil, or_false] at h

example : ∃ m', (afterP [.categorical 1] false 0 false plexQ).view.aggregate [1] false = .ok m' ∧
    View.barrett (afterP [.categorical 1] false 0 false plexQ).view m'.view 1 = .ok (some (8 / 17)) ∧
    (afterP [.categorical 1] false 0 false plexQ).view.barrettExplicit 1 = .ok (some (8 / 17)) ∧
    (afterP [.categorical 1] false 0 false plexQ).barrettOpt m'.view 1 = .ok (some (8 / 17)) ∧
    (afterP [.categorical 1] false 0 false plexQ).brodka 2 (some 2) = .ok (1 / 3) ∧
    (afterP [.categorical 1] false 0 false plexQ).brodka 2 none = .ok 0 ∧
    (afterP [.categorical 1] false 0 false plexQ).brodkaAgg m'.view 2 (some 2) = .ok (1 / 3) ∧
    (afterP [.categorical 1] false 0 false plexQ).criado none 3 = .ok (some (1 / 2)) ∧
    (afterP [.categorical 1] false 0 false plexQ).criado (some m'.view) 3 = .ok (some (1 / 2)) ∧
    (afterP [.categorical 1] false 0 false plexQ).layersWavg 3 = .ok (1 / 2) ∧
    (afterP [.categorical 1] false 0 false plexQ).superGraphNoCouplings = .ok (some (3 / 5)) :=
  of_ok (by decide +kernel)

/-- The full multiplex network with three nodes and three layers. -/
def full33 : List (POp Int ℚ) :=
  [10, 11, 12].flatMap fun l => [.setItem [1, 2, l] 1, .setItem [1, 3, l] 1, .setItem [2, 3, l] 1]

theorem full33_noSelf : Spec.NoIntraSelf full33 := by
  intro L i w h
  simp only [full33, List.flatMap_cons, List.flatMap_nil, List.append_nil, List.mem_append, List.mem_cons, reduceCtorEq,
    List.not_mem_nil, or_false] at h

example : (afterP [.categorical 1] false 0 true full33).view.battiston1 1 = .ok (some (1 / 2)) ∧
    (afterP [.categorical 1] false 0 true full33).view.battiston2 1 = .ok (some (1 / 2)) ∧
    (afterP [.categorical 1] false 0 true full33).view.gccSuperGraph = .ok (some (1 / 3)) := by decide +kernel

/-- **C61 is false of the documented formula and value**: on the full network with three nodes and three layers the
first coefficient is 1/2, neither the documented quotient nor the documented value `(n-1)/(n-2) = 2`. -/
theorem C61_false_documented {N B : Finset Int} {M : Int → Finset Int} (h : Spec.Sets true full33 N B M) :
    (afterP [.categorical 1] false 0 true full33).view.battiston1 1 = .ok (some (1 / 2)) ∧
    (1 / 2 : ℚ) ≠ (Spec.battiston1Num N B (fun i j l => Spec.tensor true full33 i j l ≠ 0) 1 : ℚ) /
      Spec.battiston1Den N B (fun i j l => Spec.tensor true full33 i j l ≠ 0) 1 := by
  have e : (afterP [.categorical 1] false 0 true full33).view.battiston1 1 = .ok (some (1 / 2)) := by decide +kernel
  refine ⟨e, fun hne => ?_⟩
  have e' := (C61_battiston_multiplex (c := .categorical 1) full33_noSelf h 1).1
  have hc : B.card = 3 := by
    rw [sets_card (.categorical 1) h]
    decide +kernel
  rw [e, hc, if_neg (by norm_num)] at e'
  simp only [Except.ok.injEq] at e'
  split at e'
  · cases e'
  · simp only [Option.some.injEq] at e'
    rw [← hne] at e'
    norm_num at e'

example : ∃ N B M, Spec.Sets true full33 N B M := exists_sets (.categorical 1) true full33

/-- **C40 is false when the undefined value is not 0**: for a node with one neighbour `cc_barrett` returns the
undefined value and `cc_barrett_explicit` returns 0. -/
theorem C40_false_undefined : ∃ (ops : List (POp Int ℚ)) (m' : MNet Int ℚ),
    (afterP [.categorical 1] false 0 true ops).view.aggregate [1] false = .ok m' ∧
    View.barrett (afterP [.categorical 1] false 0 true ops).view m'.view 1 = .ok none ∧
    (afterP [.categorical 1] false 0 true ops).view.barrettExplicit 1 = .ok (some 0) :=
  ⟨[.setItem [1, 2, 10] 1], of_ok (by decide +kernel)⟩

/-- **C40 is false of `cc_barrett_optimized` with negative weights**: a node whose links cancel in the aggregated
network is left out of the denominator. -/
theorem C40_false_negative : ∃ (ops : List (POp Int ℚ)) (m' : MNet Int ℚ),
    (afterP [.categorical 1] false 0 true ops).view.aggregate [1] false = .ok m' ∧
    View.barrett (afterP [.categorical 1] false 0 true ops).view m'.view 1 = .ok (some (1 / 4)) ∧
    (afterP [.categorical 1] false 0 true ops).barrettOpt m'.view 1 = .ok (some (1 / 3)) :=
  ⟨[.setItem [1, 2, 10] 1, .setItem [1, 3, 10] 1, .setItem [2, 3, 10] 1, .setItem [1, 4, 10] 1, .setItem [1, 4, 11] (-1)],
    of_ok (by decide +kernel)⟩

/-- **C62 is false with weights**: the aggregated network gives another neighbourhood, as weights instead of layers
are compared with the threshold. -/
theorem C62_false_weighted : ∃ (ops : List (POp Int ℚ)) (m' : MNet Int ℚ),
    (afterP [.categorical 1] false 0 true ops).view.aggregate [1] false = .ok m' ∧
    (afterP [.categorical 1] false 0 true ops).brodka 1 (some 1) = .ok (1 / 2) ∧
    (afterP [.categorical 1] false 0 true ops).brodkaAgg m'.view 1 (some 1) = .ok 0 :=
  ⟨[.setItem [1, 2, 10] (1 / 2), .setItem [1, 3, 10] (1 / 2), .setItem [2, 3, 10] (1 / 2)],
    of_ok (by decide +kernel)⟩

/-- Two layers: a triangle in one, a link in the other, and an inter-layer link. -/
def contrOps : List (Op Nat ℚ) :=
  [.setItem [1, 2, 10] 1, .setItem [1, 3, 10] 1, .setItem [2, 3, 10] 1, .setItem [1, 2, 11] 1, .setItem [1, 1, 10, 11] 1]

example : (after 1 0 false true contrOps).view.contractionM = .ok (some (1 / 2)) ∧
    (after 1 0 false true contrOps).view.contractionMct = .ok (some (1 / 2)) ∧
    (after 1 0 false true contrOps).view.contractionMfull = .ok (some (1 / 2)) ∧
    (after 1 0 false true contrOps).view.contractionO2 = .ok (some (3 / 5)) ∧
    (after 1 0 false true contrOps).view.contractionOfull = .ok (some (3 / 5)) ∧
    (after 1 0 false true contrOps).view.gccSuperGraph = .ok (some (1 / 2)) := by decide +kernel

/-- **C64 is false of `gcc_contraction_o`** with more than one layer: the walks that return are subtracted once
instead of once for each layer. -/
theorem C64_false_o : ∃ ops : List (Op Nat ℚ), (after 1 0 false true ops).view.contractionO2 = .ok (some (3 / 5)) ∧
    (after 1 0 false true ops).view.contractionO = .ok (some (3 / 8)) := ⟨contrOps, by decide +kernel⟩

end concrete

end Pymnet
