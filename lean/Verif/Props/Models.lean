import Verif.Proofs.Full

/-! Properties C44, C45, C69 and C70: the Erdos-Renyi generators and the full networks. -/

set_option linter.unusedSectionVars false

namespace Pymnet

open Py Models

variable {α W : Type} [DecidableEq α] [DecidableEq W] [Zero W] [One W]

theorem erPlex_ok [IntNames α] {ix : Nat → α} (hix : Function.Injective ix) {c : Coupling α W} {al : Bool}
    {rnd : Nat → ErRandom} {pars : List LayerPar} {nodes : List (List α)} (hlen : pars.length = nodes.length)
    (hn : ∀ ns ∈ nodes, ns.Nodup) (hp : ∀ par ∈ pars, ∀ p, par.1 = some p → 0 < p ∧ p ≤ 1) {p : MPlex α W}
    (hr : erLayers ix rnd (zipLayers pars nodes) (MPlex.init [c] false 0 al) = .ok p) :
    ∃ R, Spec.LooksPlex p c al (fun x => ∃ ns ∈ nodes, x ∈ ns) (fun s => ∃ l < nodes.length, s = ix l)
        (fun x s => if al = true then ∃ ns ∈ nodes, x ∈ ns else ∃ l ns, nodes[l]? = some ns ∧ s = ix l ∧ x ∈ ns) R ∧
      ∀ l par ns, pars[l]? = some par → nodes[l]? = some ns →
        ∃ I, Spec.LinkedAt ns (R (ix l)) I ∧ ErIndices par (ns.length * (ns.length - 1) / 2) (rnd l) I := by
  obtain ⟨R, h1, h2, -⟩ := erLayers_ok (nodup_zipLayers hix pars nodes)
    (fun l hl => hn _ (List.mem_of_getElem? (mem_zipLayers.1 hl).2))
    (fun l hl => hp _ (List.mem_of_getElem? (mem_zipLayers.1 hl).1)) hr
  have hmem : ∀ {l ns}, nodes[l]? = some ns → ∃ par, (l, par, ns) ∈ zipLayers pars nodes := by
    intro l ns h
    have : l < pars.length := hlen ▸ (List.getElem?_eq_some_iff.1 h).1
    exact ⟨pars[l], mem_zipLayers.2 ⟨List.getElem?_eq_getElem this, h⟩⟩
  refine ⟨R, ?_, fun l par ns e1 e2 => h2 (l, par, ns) (mem_zipLayers.2 ⟨e1, e2⟩)⟩
  have hS : ∀ x, (∃ l ∈ zipLayers pars nodes, x ∈ l.2.2) ↔ ∃ ns ∈ nodes, x ∈ ns := by
    intro x
    constructor
    · rintro ⟨l, hl, hx⟩; exact ⟨l.2.2, List.mem_of_getElem? (mem_zipLayers.1 hl).2, hx⟩
    · rintro ⟨ns, hns, hx⟩
      obtain ⟨l, hl, rfl⟩ := List.getElem_of_mem hns
      obtain ⟨par, hm⟩ := hmem (List.getElem?_eq_getElem hl)
      exact ⟨_, hm, hx⟩
  have := h1.congr (S' := fun x => ∃ ns ∈ nodes, x ∈ ns) (LY' := fun s => ∃ l < nodes.length, s = ix l)
    (NL' := fun x s => ∃ l ns, nodes[l]? = some ns ∧ s = ix l ∧ x ∈ ns) (R' := R) hS
    (fun s => ?_) (fun n s => ?_) (fun _ _ _ => rfl)
  · exact this.looks
  · constructor
    · rintro ⟨l, hl, rfl⟩; exact ⟨l.1, (List.getElem?_eq_some_iff.1 (mem_zipLayers.1 hl).2).1, rfl⟩
    · rintro ⟨l, hl, rfl⟩
      obtain ⟨par, hm⟩ := hmem (List.getElem?_eq_getElem hl)
      exact ⟨_, hm, rfl⟩
  · constructor
    · rintro ⟨l, hl, rfl, hx⟩; exact ⟨l.1, l.2.2, (mem_zipLayers.1 hl).2, rfl, hx⟩
    · rintro ⟨l, ns, h, rfl, hx⟩
      obtain ⟨par, hm⟩ := hmem h
      exact ⟨_, hm, rfl, hx⟩

/-! ### C44: a given number of edges -/

/-- **C44.** The formulas turn the indices below `n(n-1)/2` into the pairs `w < v < n`, each pair exactly once. -/
theorem C44_pairs (n : Nat) :
    (∀ e < n * (n - 1) / 2, ∃ v w : Nat, w < v ∧ v < n ∧ edgeRow e = v ∧ edgeCol e = w) ∧
    (∀ v w : Nat, w < v → v < n → ∃! e, e < n * (n - 1) / 2 ∧ edgeRow e = v ∧ edgeCol e = w) := by
  constructor
  · intro e he
    obtain ⟨v, w, h1, rfl, h3, h4⟩ := edge_spec e
    exact ⟨v, w, h1, lt_of_pairIndex he, h3, h4⟩
  · intro v w h1 h2
    refine ⟨Spec.pairIndex v w, ⟨pairIndex_lt h1 h2, edgeRow_pairIndex h1, edgeCol_pairIndex h1⟩, ?_⟩
    rintro e ⟨he, h3, h4⟩
    obtain ⟨v', w', h1', rfl, h3', h4'⟩ := edge_spec e
    rw [h3] at h3'; rw [h4] at h4'
    have : v' = v := by exact_mod_cast h3'.symm
    have : w' = w := by exact_mod_cast h4'.symm
    subst_vars; rfl

/-- **C44**, the single-layer generator on an empty network: whatever is sampled, the nodes are those given and there are
exactly `k` links, of weight 1 and between distinct nodes. It returns for every sample, if there are enough pairs, and
raises `ValueError` otherwise. -/
theorem C44_single_layer {nodes : List α} (hn : nodes.Nodup) (k : Nat) (rnd : ErRandom) :
    (∀ m, singleLayerEr netTarget nodes none (some k) rnd (MNet.init 0 0 false true : MNet α W) = .ok m →
      ∃ R L, Spec.LooksMono m (· ∈ nodes) R ∧ Spec.SimpleLinks (· ∈ nodes) R L ∧ L.length = k) ∧
    (k ≤ nodes.length * (nodes.length - 1) / 2 → rnd.sample.Nodup → rnd.sample.length = k →
      (∀ e ∈ rnd.sample, e < nodes.length * (nodes.length - 1) / 2) →
      ∃ m, singleLayerEr netTarget nodes none (some k) rnd (MNet.init 0 0 false true : MNet α W) = .ok m) ∧
    (nodes.length * (nodes.length - 1) / 2 < k →
      singleLayerEr netTarget nodes none (some k) rnd (MNet.init 0 0 false true : MNet α W) =
        .error (.raised .valueError)) := by
  refine ⟨fun m hm => ?_, fun h1 h2 h3 h4 => ?_, fun h => ?_⟩
  · obtain ⟨R, I, h1, h2, h3⟩ := singleLayerEr_ok fills_net BuiltM.init hn (par := (none, some k)) (by simp) hm
    obtain ⟨L, h4, h5⟩ := simple_of_edges hn h2 h3
    exact ⟨R, L, (fills_net.congr h1 (fun x => by simp) (fun _ _ => rfl)).looks, h4, h5⟩
  · exact singleLayerEr_returns fills_net BuiltM.init hn (par := (none, some k)) (.inl ⟨k, rfl, h1, h2, h3, h4⟩)
  · obtain ⟨s1, h1, -⟩ := fills_net.addNodes (BuiltM.init (α := α) (W := W)) nodes
    simp only [singleLayerEr, h1, erEdges]
    rw [if_pos (by omega)]

/-- **C44**, `er(n, edges=k)`. -/
theorem C44_er_monoplex {ix : Nat → α} (hix : Function.Injective ix) (n k : Nat) (rnd : Nat → ErRandom)
    {x : Either α W} (h : er ix (.num n) none (some (.one k)) rnd = .ok x) :
    ∃ m R L, x = .mono m ∧ Spec.LooksMono m (fun a => ∃ i < n, a = ix i) R ∧
      Spec.SimpleLinks (fun a => ∃ i < n, a = ix i) R L ∧ L.length = k := by
  simp only [er, erPars, Option.isNone_none, Option.isNone_some, Option.isSome_none, Option.isSome_some,
    Bool.false_eq_true, and_false, false_and, or_false, if_false] at h
  split at h
  · cases h
  · rename_i m hm
    cases h
    obtain ⟨R, L, h1, h2, h3⟩ := (C44_single_layer (nodup_rangeNames hix n) k (rnd 0)).1 m hm
    refine ⟨m, R, L, rfl, ?_, ?_, h3⟩
    · simpa only [mem_rangeNames] using h1
    · simpa only [mem_rangeNames] using h2

/-- **C44**, `er(n, edges=[k0,k1,...])`: a node-aligned multiplex network with one layer for each number; layer `l` has
exactly the `l`-th number of links, of weight 1 and between distinct nodes. -/
theorem C44_er_layers [IntNames α] {ix : Nat → α} (hix : Function.Injective ix) (n : Nat) (ks : List Nat)
    (rnd : Nat → ErRandom) {x : Either α W} (h : er ix (.num n) none (some (.many ks)) rnd = .ok x) :
    ∃ p R, x = .plex p ∧
      Spec.LooksPlex p (.categorical 1) true (fun a => ks ≠ [] ∧ ∃ i < n, a = ix i) (fun s => ∃ l < ks.length, s = ix l)
        (fun a _ => ks ≠ [] ∧ ∃ i < n, a = ix i) R ∧
      ∀ l k, ks[l]? = some k → ∃ L, Spec.SimpleLinks (fun a => ∃ i < n, a = ix i) (R (ix l)) L ∧ L.length = k := by
  simp only [er, erPars, Option.isNone_none, Option.isNone_some, Option.isSome_none, Option.isSome_some,
    Bool.false_eq_true, and_false, false_and, or_false, if_false] at h
  split at h
  · cases h
  · rename_i p hp
    cases h
    obtain ⟨R, h1, h2⟩ := erPlex_ok hix (by simp) (by simp [nodup_rangeNames hix]) (by simp) hp
    have hS : ∀ a : α, (∃ ns ∈ (ks.map fun e => ((none, some e) : LayerPar)).map (fun _ => rangeNames ix n), a ∈ ns) ↔
        (ks ≠ [] ∧ ∃ i < n, a = ix i) := by
      intro a
      simp only [List.map_map, List.mem_map, Function.comp_apply]
      constructor
      · rintro ⟨ns, ⟨e, he, rfl⟩, ha⟩
        exact ⟨by rintro rfl; simp at he, mem_rangeNames.1 ha⟩
      · rintro ⟨h1, h2⟩
        obtain ⟨e, he⟩ := List.exists_mem_of_ne_nil _ h1
        exact ⟨_, ⟨e, he, rfl⟩, mem_rangeNames.2 h2⟩
    refine ⟨p, R, rfl, ?_, fun l k hk => ?_⟩
    · simpa only [hS, List.length_map, if_true] using h1
    · obtain ⟨I, i1, i2⟩ := h2 l (none, some k) (rangeNames ix n) (by simp [hk]) (by simp [hk])
      obtain ⟨L, j1, j2⟩ := simple_of_edges (nodup_rangeNames hix n) i1 i2
      exact ⟨L, by simpa only [mem_rangeNames] using j1, j2⟩

/-- **C44**, `er(lists of nodes, edges=...)`: a multiplex network that is not node-aligned, whose layers have the given
nodes; `ks l` is the number given for layer `l`, by a list or by one number for all layers. -/
theorem C44_er_layers_nodes [IntNames α] {ix : Nat → α} (hix : Function.Injective ix) (nodes : List (List α))
    (hn : ∀ ns ∈ nodes, ns.Nodup) (edges : Arg Nat) (rnd : Nat → ErRandom) {x : Either α W}
    (h : er ix (.lists nodes) none (some edges) rnd = .ok x) :
    ∃ p R, x = .plex p ∧
      Spec.LooksPlex p (.categorical 1) false (fun a => ∃ ns ∈ nodes, a ∈ ns) (fun s => ∃ l < nodes.length, s = ix l)
        (fun a s => ∃ l ns, nodes[l]? = some ns ∧ s = ix l ∧ a ∈ ns) R ∧
      ∀ l ns, nodes[l]? = some ns → ∃ k L, (edges = .one k ∨ ∃ ks, edges = .many ks ∧ ks[l]? = some k) ∧
        Spec.SimpleLinks (· ∈ ns) (R (ix l)) L ∧ L.length = k := by
  cases edges with
  | one k =>
    simp only [er, erPars, Option.isNone_none, Option.isNone_some, Option.isSome_none, Option.isSome_some,
      Bool.false_eq_true, and_false, false_and, or_false, if_false] at h
    split at h
    · cases h
    · rename_i p hp
      cases h
      obtain ⟨R, h1, h2⟩ := erPlex_ok hix (by simp) hn (by simp) hp
      refine ⟨p, R, rfl, by simpa only [Bool.false_eq_true, if_false] using h1, fun l ns hns => ?_⟩
      obtain ⟨I, i1, i2⟩ := h2 l (none, some k) ns (by rw [List.getElem?_map, hns]; rfl) hns
      obtain ⟨L, j1, j2⟩ := simple_of_edges (hn ns (List.mem_of_getElem? hns)) i1 i2
      exact ⟨k, L, .inl rfl, j1, j2⟩
  | many ks =>
    simp only [er, erPars, Option.isNone_none, Option.isNone_some, Option.isSome_none, Option.isSome_some,
      Bool.false_eq_true, and_false, false_and, or_false, if_false] at h
    split at h
    · cases h
    rename_i hlen
    rw [ne_eq, not_not, List.length_map] at hlen
    split at h
    · cases h
    · rename_i p hp
      cases h
      obtain ⟨R, h1, h2⟩ := erPlex_ok hix (by simp [hlen]) hn (by simp) hp
      refine ⟨p, R, rfl, by simpa only [Bool.false_eq_true, if_false] using h1, fun l ns hns => ?_⟩
      have hl : l < ks.length := by
        have := (List.getElem?_eq_some_iff.1 hns).1; omega
      obtain ⟨I, i1, i2⟩ := h2 l (none, some ks[l]) ns (by simp [hl]) hns
      obtain ⟨L, j1, j2⟩ := simple_of_edges (hn ns (List.mem_of_getElem? hns)) i1 i2
      exact ⟨ks[l], L, .inr ⟨ks, rfl, List.getElem?_eq_getElem hl⟩, j1, j2⟩

/-! ### C69: a given probability -/

/-- **C69.** The random number `r` makes the generator pass over `s` pairs exactly if `r` is in the interval
`1-(1-p)^s ≤ r < 1-(1-p)^(s+1)`, and every number in [0,1) is in one of these intervals. -/
theorem C69_skips {p r : ℝ} (hp : 0 < p) (hp1 : p < 1) (hr : 0 ≤ r) (hr1 : r < 1) :
    (∀ s : Nat, erSkip p r = s ↔ Spec.Skips p r s) ∧ ∃! s : Nat, Spec.Skips p r s := by
  refine ⟨skip_iff hp hp1 hr1, ?_⟩
  obtain ⟨k, hk⟩ := Int.eq_ofNat_of_zero_le (skip_nonneg hp hp1 hr hr1)
  refine ⟨k, (skip_iff hp hp1 hr1 k).1 hk, fun k' hk' => ?_⟩
  have := (skip_iff hp hp1 hr1 k').2 hk'
  rw [hk] at this
  exact_mod_cast this.symm

/-- **C69**, the single-layer generator on an empty network, for `0 < p ≤ 1`: the nodes are those given, the links are of
weight 1 between distinct nodes, and the linked pairs are those that the random numbers select. It returns after at most
one random number more than there are pairs. -/
theorem C69_single_layer {nodes : List α} (hn : nodes.Nodup) {p : ℝ} (hp : 0 < p) (hp1 : p ≤ 1) (rnd : ErRandom) :
    (∀ m, singleLayerEr netTarget nodes (some p) none rnd (MNet.init 0 0 false true : MNet α W) = .ok m →
      ∃ R I, Spec.LooksMono m (· ∈ nodes) R ∧ Spec.LinkedAt nodes R I ∧
        Spec.Selects p (nodes.length * (nodes.length - 1) / 2) rnd.rs I) ∧
    ((∀ r ∈ rnd.rs, 0 ≤ r ∧ r < 1) → nodes.length * (nodes.length - 1) / 2 < rnd.rs.length →
      ∃ m, singleLayerEr netTarget nodes (some p) none rnd (MNet.init 0 0 false true : MNet α W) = .ok m) := by
  refine ⟨fun m hm => ?_, fun h1 h2 => ?_⟩
  · obtain ⟨R, I, h1, h2, h3⟩ := singleLayerEr_ok fills_net BuiltM.init hn (par := (some p, none))
      (by simp [hp, hp1]) hm
    exact ⟨R, I, (fills_net.congr h1 (fun x => by simp) (fun _ _ => rfl)).looks, h2, h3⟩
  · exact singleLayerEr_returns fills_net BuiltM.init hn (par := (some p, none)) (.inr ⟨p, rfl, hp, hp1, h1, h2⟩)

/-- **C69**, `er(n, p)`. -/
theorem C69_er_monoplex {ix : Nat → α} (hix : Function.Injective ix) (n : Nat) {p : ℝ} (hp : 0 < p) (hp1 : p ≤ 1)
    (rnd : Nat → ErRandom) {x : Either α W} (h : er ix (.num n) (some (.one p)) none rnd = .ok x) :
    ∃ m R I, x = .mono m ∧ Spec.LooksMono m (fun a => ∃ i < n, a = ix i) R ∧
      Spec.LinkedAt ((List.range n).map ix) R I ∧ Spec.Selects p (n * (n - 1) / 2) (rnd 0).rs I := by
  simp only [er, erPars, Option.isNone_none, Option.isNone_some, Option.isSome_none, Option.isSome_some,
    Bool.false_eq_true, and_false, false_and, or_false, if_false, reduceCtorEq, true_and, and_true, and_self] at h
  split at h
  · cases h
  · rename_i m hm
    cases h
    obtain ⟨R, I, h1, h2, h3⟩ := (C69_single_layer (nodup_rangeNames hix n) hp hp1 (rnd 0)).1 m hm
    refine ⟨m, R, I, rfl, ?_, h2, ?_⟩
    · simpa only [mem_rangeNames] using h1
    · simpa [rangeNames] using h3

/-- **C69**, `er(n, [p0,p1,...])`: a node-aligned multiplex network; the links of layer `l` are selected with the `l`-th
probability. -/
theorem C69_er_layers [IntNames α] {ix : Nat → α} (hix : Function.Injective ix) (n : Nat) (ps : List ℝ)
    (hps : ∀ p ∈ ps, 0 < p ∧ p ≤ 1) (rnd : Nat → ErRandom) {x : Either α W}
    (h : er ix (.num n) (some (.many ps)) none rnd = .ok x) :
    ∃ net R, x = .plex net ∧
      Spec.LooksPlex net (.categorical 1) true (fun a => ps ≠ [] ∧ ∃ i < n, a = ix i) (fun s => ∃ l < ps.length, s = ix l)
        (fun a _ => ps ≠ [] ∧ ∃ i < n, a = ix i) R ∧
      ∀ l p, ps[l]? = some p → ∃ I, Spec.LinkedAt ((List.range n).map ix) (R (ix l)) I ∧
        Spec.Selects p (n * (n - 1) / 2) (rnd l).rs I := by
  simp only [er, erPars, Option.isNone_none, Option.isNone_some, Option.isSome_none, Option.isSome_some,
    Bool.false_eq_true, and_false, false_and, or_false, if_false, reduceCtorEq, true_and, and_true, and_self] at h
  split at h
  · cases h
  · rename_i p hp
    cases h
    obtain ⟨R, h1, h2⟩ := erPlex_ok hix (by simp) (by simp [nodup_rangeNames hix])
      (by simp only [List.mem_map]; rintro _ ⟨q, hq, rfl⟩ p hp; cases hp; exact hps q hq) hp
    have hS : ∀ a : α, (∃ ns ∈ (ps.map fun e => ((some e, none) : LayerPar)).map (fun _ => rangeNames ix n), a ∈ ns) ↔
        (ps ≠ [] ∧ ∃ i < n, a = ix i) := by
      intro a
      simp only [List.map_map, List.mem_map, Function.comp_apply]
      constructor
      · rintro ⟨ns, ⟨e, he, rfl⟩, ha⟩
        exact ⟨by rintro rfl; simp at he, mem_rangeNames.1 ha⟩
      · rintro ⟨h1, h2⟩
        obtain ⟨e, he⟩ := List.exists_mem_of_ne_nil _ h1
        exact ⟨_, ⟨e, he, rfl⟩, mem_rangeNames.2 h2⟩
    refine ⟨p, R, rfl, ?_, fun l k hk => ?_⟩
    · simpa only [hS, List.length_map, if_true] using h1
    · obtain ⟨I, i1, i2⟩ := h2 l (some k, none) (rangeNames ix n) (by simp [hk]) (by simp [hk])
      exact ⟨I, i1, by simpa [rangeNames, ErIndices] using i2⟩

/-- **C69**, `er(lists of nodes, p or list of probabilities)` and `er_partially_interconnected`: a multiplex network that
is not node-aligned, whose layers have the given nodes and are linked with the given probabilities. -/
theorem C69_er_layers_nodes [IntNames α] {ix : Nat → α} (hix : Function.Injective ix) (nodes : List (List α))
    (hn : ∀ ns ∈ nodes, ns.Nodup) (p : Arg ℝ) (rnd : Nat → ErRandom)
    (hp : (∀ q, p = .one q → 0 < q ∧ q ≤ 1) ∧ ∀ qs, p = .many qs → ∀ q ∈ qs, 0 < q ∧ q ≤ 1) {x : Either α W}
    (h : er ix (.lists nodes) (some p) none rnd = .ok x) :
    ∃ net R, x = .plex net ∧
      Spec.LooksPlex net (.categorical 1) false (fun a => ∃ ns ∈ nodes, a ∈ ns) (fun s => ∃ l < nodes.length, s = ix l)
        (fun a s => ∃ l ns, nodes[l]? = some ns ∧ s = ix l ∧ a ∈ ns) R ∧
      ∀ l ns, nodes[l]? = some ns → ∃ q I, (p = .one q ∨ ∃ qs, p = .many qs ∧ qs[l]? = some q) ∧
        Spec.LinkedAt ns (R (ix l)) I ∧ Spec.Selects q (ns.length * (ns.length - 1) / 2) (rnd l).rs I := by
  cases p with
  | one q =>
    simp only [er, erPars, Option.isNone_none, Option.isNone_some, Option.isSome_none, Option.isSome_some,
      Bool.false_eq_true, and_false, false_and, or_false, if_false, reduceCtorEq, true_and, and_true, and_self] at h
    split at h
    · cases h
    · rename_i net hnet
      cases h
      obtain ⟨R, h1, h2⟩ := erPlex_ok hix (by simp) hn
        (by simp only [List.mem_map]; rintro _ ⟨_, _, rfl⟩ p hp'; cases hp'; exact hp.1 q rfl) hnet
      refine ⟨net, R, rfl, by simpa only [Bool.false_eq_true, if_false] using h1, fun l ns hns => ?_⟩
      obtain ⟨I, i1, i2⟩ := h2 l (some q, none) ns (by rw [List.getElem?_map, hns]; rfl) hns
      exact ⟨q, I, .inl rfl, i1, i2⟩
  | many qs =>
    simp only [er, erPars, Option.isNone_none, Option.isNone_some, Option.isSome_none, Option.isSome_some,
      Bool.false_eq_true, and_false, false_and, or_false, if_false, reduceCtorEq, true_and, and_true, and_self] at h
    split at h
    · cases h
    rename_i hlen
    rw [ne_eq, not_not, List.length_map] at hlen
    split at h
    · cases h
    · rename_i net hnet
      cases h
      obtain ⟨R, h1, h2⟩ := erPlex_ok hix (by simp [hlen]) hn
        (by simp only [List.mem_map]; rintro _ ⟨q, hq, rfl⟩ p hp'; cases hp'; exact hp.2 qs rfl q hq) hnet
      refine ⟨net, R, rfl, by simpa only [Bool.false_eq_true, if_false] using h1, fun l ns hns => ?_⟩
      have hl : l < qs.length := by
        have := (List.getElem?_eq_some_iff.1 hns).1; omega
      obtain ⟨I, i1, i2⟩ := h2 l (some qs[l], none) ns (by simp [hl]) hns
      exact ⟨qs[l], I, .inr ⟨qs, rfl, List.getElem?_eq_getElem hl⟩, i1, i2⟩

/-- **C69**, `er_partially_interconnected`. -/
theorem C69_er_partially_interconnected [IntNames α] {ix : Nat → α} (hix : Function.Injective ix)
    (nodes : List (List α)) (hn : ∀ ns ∈ nodes, ns.Nodup) (ps : List ℝ) (hps : ∀ p ∈ ps, 0 < p ∧ p ≤ 1)
    (coupling : Coupling α W) (rnd : Nat → ErRandom) :
    (∀ net, erPartiallyInterconnected ix nodes ps coupling rnd = .ok net →
      ∃ R, Spec.LooksPlex net coupling false (fun a => ∃ ns ∈ nodes, a ∈ ns) (fun s => ∃ l < nodes.length, s = ix l)
          (fun a s => ∃ l ns, nodes[l]? = some ns ∧ s = ix l ∧ a ∈ ns) R ∧
        ∀ l ns, nodes[l]? = some ns → ∃ p I, ps[l]? = some p ∧
          Spec.LinkedAt ns (R (ix l)) I ∧ Spec.Selects p (ns.length * (ns.length - 1) / 2) (rnd l).rs I) ∧
    (nodes.length = ps.length → (∀ l, ∀ r ∈ (rnd l).rs, 0 ≤ r ∧ r < 1) →
      (∀ l ns, nodes[l]? = some ns → ns.length * (ns.length - 1) / 2 < (rnd l).rs.length) →
      ∃ net, erPartiallyInterconnected ix nodes ps coupling rnd = .ok net) ∧
    (nodes.length ≠ ps.length →
      erPartiallyInterconnected ix nodes ps coupling rnd = .error (.raised .assertionError)) := by
  refine ⟨fun net hr => ?_, fun h1 h2 h3 => ?_, fun h => if_pos h⟩
  · unfold erPartiallyInterconnected at hr
    split at hr
    · cases hr
    rename_i hlen
    rw [ne_eq, not_not] at hlen
    obtain ⟨R, h1, h2⟩ := erPlex_ok hix (by simp [hlen]) hn
      (by simp only [List.mem_map]; rintro _ ⟨q, hq, rfl⟩ p hp'; cases hp'; exact hps q hq) hr
    refine ⟨R, by simpa only [Bool.false_eq_true, if_false] using h1, fun l ns hns => ?_⟩
    have hl : l < ps.length := by
      have := (List.getElem?_eq_some_iff.1 hns).1; omega
    obtain ⟨I, i1, i2⟩ := h2 l (some ps[l], none) ns (by simp [hl]) hns
    exact ⟨ps[l], I, List.getElem?_eq_getElem hl, i1, i2⟩
  · unfold erPartiallyInterconnected
    rw [if_neg (by simpa using h1)]
    refine erLayers_returns (nodup_zipLayers hix _ _)
      (fun l hl => hn _ (List.mem_of_getElem? (mem_zipLayers.1 hl).2)) fun l hl => .inr ?_
    obtain ⟨e1, e2⟩ := mem_zipLayers.1 hl
    rw [List.getElem?_map, Option.map_eq_some_iff] at e1
    obtain ⟨p, e3, e4⟩ := e1
    have := hps p (List.mem_of_getElem? e3)
    exact ⟨p, e4.symm, this.1, this.2, h2 l.1, h3 l.1 _ e2⟩

/-- **C69 is false for `p = 0`**: with at least two nodes the generator raises `ZeroDivisionError` instead of returning a
network without links. -/
theorem C69_false_zero {nodes : List α} (h2 : 2 ≤ nodes.length) (sample : List Nat) {r : ℝ} (hr : 0 ≤ r ∧ r < 1)
    (rs : List ℝ) :
    singleLayerEr netTarget nodes (some 0) none ⟨sample, r :: rs⟩ (MNet.init 0 0 false true : MNet α W) =
      .error (.raised .zeroDivisionError) := by
  obtain ⟨s1, h1, -⟩ := fills_net.addNodes (BuiltM.init (α := α) (W := W)) nodes
  simp only [singleLayerEr, h1]
  rw [if_neg (by norm_num)]
  unfold erLoop
  rw [if_pos (by exact_mod_cast h2)]
  simp only
  rw [if_neg (by rw [not_not]; exact hr), if_neg (by norm_num), if_pos trivial]

/-- **C69.** Giving both or none of `p` and `edges` is an error. -/
theorem C69_parameters (ix : Nat → α) (n : NodesArg α) (p : Option (Arg ℝ)) (edges : Option (Arg Nat))
    (rnd : Nat → ErRandom) (h : p.isSome = edges.isSome) :
    er ix n p edges rnd = (.error (.raised .exception) : Except Stop (Either α W)) := by
  unfold er
  rw [if_pos]
  cases p <;> cases edges <;> simp_all

/-- the assumptions are met: three nodes, two sampled links -/
example : ∃ m, singleLayerEr netTarget [10, 20, (30 : Int)] none (some 2) ⟨[2, 0], []⟩
    (MNet.init 0 0 false true : MNet Int Int) = .ok m :=
  (C44_single_layer (by decide) 2 ⟨[2, 0], []⟩).2.1 (by decide) (by decide) rfl (by decide)

/-- probability 1/2 and the random numbers 0 (take the next pair) and 1/2 (skip one pair) and 1/2 -/
example : ∃ m, singleLayerEr netTarget [10, 20, (30 : Int)] (some (1 / 2)) none ⟨[], [0, 1 / 2, 1 / 2, 1 / 2]⟩
    (MNet.init 0 0 false true : MNet Int Int) = .ok m :=
  (C69_single_layer (by decide) (by norm_num) (by norm_num) ⟨[], [0, 1 / 2, 1 / 2, 1 / 2]⟩).2
    (by
      intro r hr
      simp only [List.mem_cons, List.not_mem_nil, or_false] at hr
      rcases hr with rfl | rfl | rfl | rfl <;> norm_num)
    (by decide)

example : Spec.Skips (1 / 2) (1 / 2) 1 ∧ Spec.Skips (1 / 2) 0 0 := by unfold Spec.Skips; norm_num

/-! ### C45: full networks -/

open Classical in
/-- **C45**, `full(n, None)`. -/
theorem C45_full_monoplex {ix : Nat → α} (hix : Function.Injective ix) {n : Nat} (hn : 2 ≤ n) (c : Coupling α W) :
    ∃ m, full ix n none c = .ok (.mono m) ∧ Spec.LooksMono m (fun x => ∃ i < n, x = ix i)
      (fun a b => if a ≠ b ∧ (∃ i < n, a = ix i) ∧ (∃ i < n, b = ix i) then 1 else 0) := by
  obtain ⟨m, h1, h2⟩ := fullMono_ok (W := W) hix hn
  exact ⟨m, by simp [full, h1, Except.map], h2⟩

open Classical in
/-- **C45**, `full(n, layers)`: every layer has all links between distinct nodes, and no self-links. -/
theorem C45_full_layers [IntNames α] {ix : Nat → α} (hix : Function.Injective ix) {n : Nat} (hn : 2 ≤ n)
    (layers : Nat ⊕ List α) (c : Coupling α W) :
    ∃ p, full ix n (some layers) c = .ok (.plex p) ∧
      Spec.LooksPlex p c true (fun x => Spec.layerNames ix layers ≠ [] ∧ ∃ i < n, x = ix i)
        (· ∈ Spec.layerNames ix layers) (fun x _ => Spec.layerNames ix layers ≠ [] ∧ ∃ i < n, x = ix i)
        (fun _ a b => if a ≠ b ∧ (∃ i < n, a = ix i) ∧ (∃ i < n, b = ix i) then 1 else 0) := by
  obtain ⟨p, h1, h2⟩ := fullPlex_ok (W := W) hix hn (Spec.layerNames ix layers) c
  refine ⟨p, ?_, h2⟩
  cases layers with
  | inl k => show (fullPlex ix n (Spec.layerNames ix (.inl k)) c).map _ = _; rw [h1]; rfl
  | inr ls => show (fullPlex ix n (Spec.layerNames ix (.inr ls)) c).map _ = _; rw [h1]; rfl

open Classical in
/-- **C45**, `full_multilayer(n, layers)`: all links between distinct node-layers, and no self-links. -/
theorem C45_full_multilayer {ix : Nat → α} (hix : Function.Injective ix) {n : Nat} (layers : Nat ⊕ List α)
    (h2 : 2 ≤ n ∨ ∃ s ∈ Spec.layerNames ix layers, ∃ t ∈ Spec.layerNames ix layers, s ≠ t) :
    ∃ m, (fullMultilayer ix n layers : Except Err (MNet α W)) = .ok m ∧
      Spec.Looks m 1 0 false true
        (fun k x => (k = 0 ∧ Spec.layerNames ix layers ≠ [] ∧ ∃ i < n, x = ix i) ∨
          (k = 1 ∧ 1 ≤ n ∧ x ∈ Spec.layerNames ix layers))
        (fun nl => ∃ i < n, ∃ s ∈ Spec.layerNames ix layers, nl = [ix i, s])
        (fun u v => if u ≠ v ∧ (∃ i < n, ∃ s ∈ Spec.layerNames ix layers, u = [ix i, s]) ∧
          (∃ i < n, ∃ s ∈ Spec.layerNames ix layers, v = [ix i, s]) then 1 else 0) :=
  fullMultilayer_ok hix layers h2

/-- **C45** does not extend to one node: `full(1, layers)` has neither the node nor the layers. -/
theorem C45_one_node (ix : Nat → α) (ls : List α) (c : Coupling α W) :
    full ix 1 none c = .ok (.mono (MNet.init 0 0 false true : MNet α W)) ∧
    full ix 1 (some (.inr ls)) c = .ok (.plex (MPlex.init [c] false 0 true)) := by
  refine ⟨by simp [full, fullMono, forE, Except.map], ?_⟩
  have : ∀ p : MPlex α W, forE (fun p l => forE (fun p a => forE (fun p b =>
      if a ≠ b then (p.setItem [ix a, ix b, l, l] 1).toExcept else .ok p) (List.range 1) p) (List.range 1) p) ls p =
      .ok p := by
    intro p
    induction ls with
    | nil => rfl
    | cons l ls ih => simp [forE] at ih ⊢; exact ih
  simp only [full, fullPlex, this]
  rfl

/-! ### C70: `er_multilayer` -/

/-- **C70.** Whatever the random numbers are: the link between node `a` on one layer and node `b > a` on another or the
same layer is there exactly if its own random number is below `p`, with weight 1 or the random weight; node-layers of the
same node are never linked. The network has the nodes and the layers that occur in links, and no others. -/
theorem C70_er_multilayer {ix : Nat → α} (hix : Function.Injective ix) (n : Nat) (layers : Nat ⊕ List α)
    (hnd : (Spec.layerNames ix layers).Nodup) (p : ℝ) (randomWeights : Bool) (r : Nat → Nat → Nat → Nat → ℝ)
    (w : Nat → Nat → Nat → Nat → W) :
    ∃ m R, erMultilayer ix n layers p randomWeights r w = .ok m ∧
      Spec.Looks m 1 0 false true
        (fun k x => ∃ u v i j a b, Spec.Crosses ix n (Spec.layerNames ix layers) u v i j a b ∧ r i j a b < p ∧
          (u[k]? = some x ∨ v[k]? = some x))
        (Spec.AllNodeLayers 1 (fun k x => ∃ u v i j a b, Spec.Crosses ix n (Spec.layerNames ix layers) u v i j a b ∧
          r i j a b < p ∧ (u[k]? = some x ∨ v[k]? = some x))) R ∧
      (∀ u v i j a b, Spec.Crosses ix n (Spec.layerNames ix layers) u v i j a b →
        R u v = (if r i j a b < p then (if randomWeights then w i j a b else 1) else 0) ∧ R v u = R u v) ∧
      ∀ u v, (∀ i j a b, ¬ Spec.Crosses ix n (Spec.layerNames ix layers) u v i j a b ∧
        ¬ Spec.Crosses ix n (Spec.layerNames ix layers) v u i j a b) → R u v = 0 :=
  erMultilayer_ok hix n layers hnd p randomWeights r w

/-- **C70 does not extend to the documented number of nodes**: if no random number is below `p` the network has no nodes
and no layers. -/
theorem C70_false_nodes {ix : Nat → α} (hix : Function.Injective ix) (n : Nat) (layers : Nat ⊕ List α)
    (hnd : (Spec.layerNames ix layers).Nodup) (p : ℝ) (randomWeights : Bool) (r : Nat → Nat → Nat → Nat → ℝ)
    (hr : ∀ i j a b, p ≤ r i j a b) (w : Nat → Nat → Nat → Nat → W) :
    ∃ m, erMultilayer ix n layers p randomWeights r w = .ok m ∧ m.getLayers 0 = .ok [] ∧ m.getLayers 1 = .ok [] := by
  obtain ⟨m, R, h1, h2, -⟩ := erMultilayer_ok hix n layers hnd p randomWeights r w
  have : ∀ k ≤ 1, m.getLayers k = .ok [] := by
    intro k hk
    obtain ⟨l, l1, -, l3⟩ := h2.layers k hk
    rw [l1]
    congr 1
    apply List.eq_nil_iff_forall_not_mem.2
    intro x hx
    obtain ⟨u, v, i, j, a, b, -, h, -⟩ := (l3 x).1 hx
    exact absurd h (not_lt.2 (hr i j a b))
  exact ⟨m, h1, this 0 (by omega), this 1 (by omega)⟩

example : ((3 : Nat) ≥ 2) ∧ Function.Injective (fun i : Nat => (i : Int)) ∧
    (Spec.layerNames (fun i : Nat => (i : Int)) (.inl 2)).Nodup ∧
    Spec.Crosses (fun i : Nat => (i : Int)) 3 (Spec.layerNames (fun i : Nat => (i : Int)) (.inl 2)) [0, 1] [2, 0] 1 0 0 2 := by
  refine ⟨by omega, Nat.cast_injective, by decide, by omega, by omega, 1, 0, rfl, rfl, rfl, rfl⟩

end Pymnet
