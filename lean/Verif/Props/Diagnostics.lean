import Verif.Proofs.Diagnostics
import Verif.Proofs.Dijkstra
import Verif.Props.TransformsPlex
import Mathlib.Algebra.Order.Field.Basic
import Mathlib.Tactic.Positivity

/-! Properties C35–C38: degree distributions, density and shortest paths. -/

set_option linter.unusedSectionVars false
set_option linter.unusedSimpArgs false

namespace Pymnet

open Py MPlex

variable {α W : Type} [DecidableEq α] [DecidableEq W]

variable {m : MNet α W} {d : Nat} {z : W} {dir al : Bool} {S : Nat → α → Prop} {NL : List α → Prop}
  {R : List α → List α → W}

section core

variable {v : View α W} {R' : List α → List α → W}

/-- Internal: `degs` on any kind of network. -/
theorem degs_core (hv : v.Sound R) (h0 : v.aspects = 0 → v.nodeLayers = .ok (product v.slices))
    (hNL : ∃ l, v.nodeLayers = .ok l ∧ ∀ nl, nl ∈ l ↔ NL nl) (f : List α → Int)
    (hf : ∀ nl, NL nl → v.deg nl none = .ok (f nl)) :
    (∃ D, v.degs = .ok D ∧ (D.map Prod.fst).Nodup ∧
      (∀ k n, Dict.get D k = some n ↔ n = {nl | NL nl ∧ f nl = k}.ncard ∧ 0 < n) ∧
      (D.map Prod.snd).sum = {nl | NL nl}.ncard ∧
      (∀ l : List (List α), l.Nodup → (∀ nl, nl ∈ l ↔ NL nl) → (D.map fun p => p.1 * (p.2 : Int)).sum = (l.map f).sum)) ∧
    (∃ D, v.degsNodes = .ok D ∧ ∀ nl k, Dict.get D nl = some k ↔ NL nl ∧ k = f nl) := by
  obtain ⟨nls, hn, hm⟩ := hNL
  obtain ⟨l, l1, l2, l3⟩ := hv.degsIter h0 hn
  obtain ⟨l', n1, n2, n3, -⟩ := hv.nls
  rw [hn] at n1; cases n1
  have hl : ∀ nl, nl ∈ l ↔ NL nl := fun nl => (l3 nl).trans (hm nl)
  have hf' : ∀ nl ∈ l, v.itemDeg nl = .ok (f nl) := by
    intro nl hnl
    rw [View.itemDeg_eq (hv.length_of_mem (n3 nl ((l3 nl).1 hnl)))]
    exact hf nl ((hl nl).1 hnl)
  obtain ⟨D, d1, d2, d3, d4, d5⟩ := View.count_loop l hf'
  obtain ⟨D', d1', d2'⟩ := View.note_loop l hf'
  constructor
  · refine ⟨D, by simp only [View.degs, l1]; exact d1, d2, fun k n => ?_, ?_, fun l' hl' hm' => ?_⟩
    · rw [d3, MNet.ncard_of_list (l := l.filter fun nl => f nl = k) (l2.filter _)
        (by intro nl; simp [hl]), ← List.countP_eq_length_filter]
    · rw [d4, MNet.ncard_of_list l2 (p := fun nl => NL nl) hl]
    · rw [d5]
      exact (((List.perm_ext_iff_of_nodup l2 hl').2 (by intro a; rw [hl, hm'])).map f).sum_eq
  · exact ⟨D', by simp only [View.degsNodes, l1]; exact d1', fun nl k => by rw [d2', hl]⟩

/-- Internal: the degree sum of an undirected network of any kind. -/
theorem degs_handshake (hv : v.Sound R) (h0 : v.aspects = 0 → v.nodeLayers = .ok (product v.slices))
    (hNL : ∃ l, v.nodeLayers = .ok l ∧ ∀ nl, nl ∈ l ↔ NL nl) (hR : ∀ a b, NL a → NL b → R a b = R' a b)
    (hd : v.directed = false) :
    ∃ D es, v.degs = .ok D ∧ v.edges = .ok es ∧ (D.map Prod.fst).Nodup ∧
      (∀ k n, Dict.get D k = some n ↔ n = {nl | NL nl ∧ ({b | NL b ∧ R' nl b ≠ v.noEdge}.ncard : Int) = k}.ncard ∧ 0 < n) ∧
      (D.map Prod.snd).sum = {nl | NL nl}.ncard ∧
      (D.map fun p => p.1 * (p.2 : Int)).sum =
        2 * (es.length : Int) - ({nl | NL nl ∧ R' nl nl ≠ v.noEdge}.ncard : Int) := by
  obtain ⟨nls, hn, hm⟩ := hNL
  obtain ⟨l', n1, n2, n3, -⟩ := hv.nls
  rw [hn] at n1; cases n1
  have hdeg : ∀ nl, NL nl → v.deg nl none = .ok ((v.neigh nl).length : Int) := by
    intro nl hnl
    have hnl' := (hm nl).2 hnl
    exact hv.degU hd _ hn nl hnl' _ (hv.neigh_spec (n3 nl hnl')).1
  obtain ⟨⟨D, d1, d2, d3, d4, d5⟩, -⟩ := degs_core hv h0 ⟨nls, hn, hm⟩ (fun nl => ((v.neigh nl).length : Int)) hdeg
  obtain ⟨n, -, ⟨es, e1, e2⟩, -, e3⟩ := hv.ordered hn
  obtain ⟨s1, s2⟩ := hv.sum_deg hd hn (fun nl => ((v.neigh nl).length : Int)) (fun nl hnl => hdeg nl ((hm nl).1 hnl))
  refine ⟨D, es, d1, e1, d2, fun k n => ?_, d4, ?_⟩
  · rw [d3]
    have : {nl | NL nl ∧ ((v.neigh nl).length : Int) = k} =
        {nl | NL nl ∧ ({b | NL b ∧ R' nl b ≠ v.noEdge}.ncard : Int) = k} := by
      ext nl
      simp only [Set.mem_setOf_eq]
      refine and_congr_right fun hnl => ?_
      rw [s1 nl ((hm nl).2 hnl)]
      have : {b | b ∈ nls ∧ R nl b ≠ v.noEdge} = {b | NL b ∧ R' nl b ≠ v.noEdge} := by
        ext b
        simp only [Set.mem_setOf_eq, hm]
        exact and_congr_right fun hb => by rw [hR nl b hnl hb]
      rw [this]
    rw [this]
  · rw [d5 nls n2 hm, s2]
    have hself : {nl | NL nl ∧ R' nl nl ≠ v.noEdge}.ncard = (nls.filter fun a => R a a ≠ v.noEdge).length := by
      apply MNet.ncard_of_list (n2.filter _)
      intro a
      simp only [List.mem_filter, hm, decide_eq_true_eq, Set.mem_setOf_eq]
      exact and_congr_right fun ha => by rw [hR a a ha ha]
    have := e3 hd
    rw [hself, e2]
    omega

/-- Internal: the density of any kind of node-aligned network. -/
theorem density_core (hv : v.Sound R) (hf : v.fic = true) (hp : v.nodeLayers = .ok (product v.slices))
    (hm : ∀ nl, nl ∈ product v.slices ↔ NL nl) (hR : ∀ a b, NL a → NL b → R a b = R' a b)
    (hs : ∀ a, NL a → R' a a = v.noEdge) (h2 : 2 ≤ {nl | NL nl}.ncard) :
    ∃ q : ℚ, v.density = .ok q ∧
      q = ({p : List α × List α | NL p.1 ∧ NL p.2 ∧ R' p.1 p.2 ≠ v.noEdge}.ncard : ℚ) /
        ({nl | NL nl}.ncard * ({nl | NL nl}.ncard - 1)) ∧
      0 ≤ q ∧ q ≤ 1 ∧ (q = 1 ↔ ∀ a b, NL a → NL b → a ≠ b → R' a b ≠ v.noEdge) := by
  have hN : {nl | NL nl}.ncard = (product v.slices).length :=
    MNet.ncard_of_list hv.nodupP (by intro a; simp [hm])
  rw [hN] at h2 ⊢
  have hq := hv.density hf hp rfl (fun a ha => by rw [hR a a ((hm a).1 ha) ((hm a).1 ha)]; exact hs a ((hm a).1 ha)) h2
  set P := product v.slices with hP
  set A := View.linkedPairs v R P with hA
  have hmem : ∀ a b, (a, b) ∈ A ↔ NL a ∧ NL b ∧ R' a b ≠ v.noEdge := by
    intro a b
    simp only [hA, View.linkedPairs, Finset.mem_filter, Finset.mem_product, List.mem_toFinset, hm, and_assoc]
    exact and_congr_right fun ha => and_congr_right fun hb => by rw [hR a b ha hb]
  have hcard : {p : List α × List α | NL p.1 ∧ NL p.2 ∧ R' p.1 p.2 ≠ v.noEdge}.ncard = A.card := by
    rw [← Set.ncard_coe_finset]
    congr 1
    ext ⟨a, b⟩
    simp [hmem]
  have hoff : A ⊆ P.toFinset.offDiag := by
    rintro ⟨a, b⟩ hab
    have := (hmem a b).1 hab
    simp only [Finset.mem_offDiag, List.mem_toFinset, hm]
    refine ⟨this.1, this.2.1, ?_⟩
    rintro rfl
    exact this.2.2 (hs a this.1)
  have hoc : P.toFinset.offDiag.card = P.length * (P.length - 1) := by
    rw [Finset.offDiag_card, List.toFinset_card_of_nodup hv.nodupP, Nat.mul_sub, Nat.mul_one]
  have hocq : (P.toFinset.offDiag.card : ℚ) = P.length * (P.length - 1) := by
    rw [hoc]; push_cast [Nat.cast_sub (show 1 ≤ P.length by omega)]; ring
  have hpos : (0 : ℚ) < P.length * (P.length - 1) := by
    have : (2 : ℚ) ≤ P.length := by exact_mod_cast h2
    nlinarith
  have hle : (A.card : ℚ) ≤ P.length * (P.length - 1) := by
    rw [← hocq]; exact_mod_cast Finset.card_le_card hoff
  refine ⟨_, hq, by rw [hcard], div_nonneg (Nat.cast_nonneg _) hpos.le, (div_le_one hpos).2 hle, ?_⟩
  rw [div_eq_one_iff_eq hpos.ne', ← hocq, Nat.cast_inj]
  constructor
  · intro hc a b ha hb hab
    have := Finset.eq_of_subset_of_card_le hoff hc.ge
    have hin : (a, b) ∈ A := by
      rw [this]; simp [Finset.mem_offDiag, hm, ha, hb, hab]
    exact ((hmem a b).1 hin).2.2
  · intro hall
    congr 1
    refine Finset.Subset.antisymm hoff ?_
    rintro ⟨a, b⟩ hab
    simp only [Finset.mem_offDiag, List.mem_toFinset, hm] at hab
    exact (hmem a b).2 ⟨hab.1, hab.2.1, hall a b hab.1 hab.2.1 hab.2.2⟩

end core

/-! ### C35 -/

/-- Internal: in a monoplex network the node-layers are all the nodes. -/
theorem looks_nl0 (h : Spec.Looks m d z dir al S NL R) :
    m.view.aspects = 0 → m.view.nodeLayers = .ok (product m.view.slices) := by
  intro h0
  have : m.fic = true := h.inv.r.fic0 h0
  change Except.ok m.nodeLayers = .ok (product m.slices)
  unfold MNet.nodeLayers
  rw [if_pos this]

/-- **C35.** `degs(net)` maps each degree to the number of node-layers with this degree (degrees that do not
occur are not keys); the counts sum to the number of node-layers. `degs(net,degstype="nodes")` maps each
node-layer to its degree. The degree is the one `net[...].deg()` gives (C04, C05). -/
theorem C35_degs (h : Spec.Looks m d z dir al S NL R) :
    (∃ D, m.view.degs = .ok D ∧ (D.map Prod.fst).Nodup ∧
      (∀ k n, Dict.get D k = some n ↔ n = {nl | NL nl ∧ m.deg nl none = k}.ncard ∧ 0 < n) ∧
      (D.map Prod.snd).sum = {nl | NL nl}.ncard) ∧
    (∃ D, m.view.degsNodes = .ok D ∧ ∀ nl k, Dict.get D nl = some k ↔ NL nl ∧ k = m.deg nl none) := by
  obtain ⟨⟨D, d1, d2, d3, d4, -⟩, h2⟩ := degs_core h.sound (looks_nl0 h) ⟨_, rfl, h.nodeLayers.2⟩ (fun nl => m.deg nl none)
    (fun nl _ => rfl)
  exact ⟨⟨D, d1, d2, d3, d4⟩, h2⟩

/-- **C35.** In an undirected network `degs` counts the node-layers by their number of neighbours, and the
degree-weighted sum of the counts is twice the number of edges minus the number of self-links. -/
theorem C35_handshake (h : Spec.Looks m d z false al S NL R) :
    ∃ D es, m.view.degs = .ok D ∧ m.view.edges = .ok es ∧ (D.map Prod.fst).Nodup ∧
      (∀ k n, Dict.get D k = some n ↔ n = {nl | NL nl ∧ ({b | NL b ∧ R nl b ≠ z}.ncard : Int) = k}.ncard ∧ 0 < n) ∧
      (D.map Prod.snd).sum = {nl | NL nl}.ncard ∧
      (D.map fun p => p.1 * (p.2 : Int)).sum = 2 * (es.length : Int) - ({nl | NL nl ∧ R nl nl ≠ z}.ncard : Int) := by
  have := degs_handshake h.sound (looks_nl0 h) ⟨_, rfl, h.nodeLayers.2⟩
    (fun a b ha hb => h.reads_eq (h.nl_length ha) (h.nl_length hb)) h.directed_eq
  rw [show m.view.noEdge = z from h.noEdge_eq] at this
  exact this

example : (after 1 0 false true transOps).view.degs = .ok [(0, 5), (3, 1), (2, 1), (1, 5)] := by decide
example : (after 1 0 false true (transOps ++ [.setItem [3, 3, 10] 1])).view.degs = .ok [(0, 4), (3, 1), (2, 1), (1, 6)] := by
  decide
example : (after 0 0 true true [.setItem [1, 2] 5, .setItem [2, 1] 5, .setItem [2, 3] (4 : Int)]).view.degsNodes =
    .ok [([(1 : Nat)], 1), ([2], 2), ([3], 1)] := by decide

/-- Internal: no node-layer of a multiplex network is linked to itself. -/
theorem weight_self [Zero W] [LawfulIntNames α] {cs : List (Coupling α W)} {directed aligned : Bool} {ops : List (POp α W)}
    (u : List α) : Spec.weight cs directed aligned ops u u = 0 := by
  unfold Spec.weight
  rw [dif_neg]
  rintro ⟨w, ⟨i, j, s, rfl, h, hij, -⟩ | ⟨i, s, t, rfl, h, d, x, y, h1, h2, h3, -⟩⟩
  · cases h; exact hij rfl
  · cases h
    have : s[d]? = (s.set d y)[d]? := by rw [← h3]
    have hlt : d < s.length := by
      by_contra hge
      rw [List.getElem?_eq_none (by omega)] at h1
      cases h1
    rw [List.getElem?_set_self hlt, h1] at this
    cases this
    exact h2 rfl

/-- **C35**, undirected multiplex networks: node-layers are counted by their number of neighbours, intra- and
inter-layer. -/
theorem C35_multiplex [Zero W] [LawfulIntNames α] {cs : List (Coupling α W)} {aligned : Bool} {ops : List (POp α W)}
    (hU : Spec.Usable cs aligned ops) (hs : Spec.NoIntraSelf ops) (hal : aligned = true ∨ ∃ w, cs = [.categorical w]) :
    ∃ D es, (afterP cs false 0 aligned ops).view.degs = .ok D ∧ (afterP cs false 0 aligned ops).view.edges = .ok es ∧
      (D.map Prod.fst).Nodup ∧
      (∀ k n, Dict.get D k = some n ↔ n = {nl | Spec.HasNodeLayer cs.length aligned ops nl ∧
        ({b | Spec.HasNodeLayer cs.length aligned ops b ∧ Spec.weight cs false aligned ops nl b ≠ 0}.ncard : Int) = k}.ncard ∧ 0 < n) ∧
      (D.map Prod.snd).sum = {nl | Spec.HasNodeLayer cs.length aligned ops nl}.ncard ∧
      (D.map fun p => p.1 * (p.2 : Int)).sum = 2 * (es.length : Int) := by
  have hcs := hU.some_aspect
  have hpar := after_params hcs false 0 aligned ops
  have hpos : 1 ≤ cs.length := List.length_pos_iff.2 hcs
  obtain ⟨l, l1, -, l3⟩ := after_nodeLayers hcs false 0 aligned ops
  have := degs_handshake (main_sound (directed := false) hU hs hal)
    (fun h0 => by have h1 : (afterP cs false 0 aligned ops).view.aspects = cs.length := hpar.1; omega)
    ⟨l, l1, l3⟩ (fun a b ha hb => main_R hU ha hb) hpar.2.1
  rw [show (afterP cs false 0 aligned ops).view.noEdge = 0 from hpar.2.2.1] at this
  simpa only [weight_self, ne_eq, not_true_eq_false, and_false, Set.setOf_false, Set.ncard_empty, Nat.cast_zero,
    sub_zero] using this

example : (afterP [.ordinal (1 : Int)] false 0 true samplePlex).view.degs = .ok [(2, 4), (3, 1), (1, 3)] := by decide

/-! ### C36 -/

/-- **C36.** The density of a node-aligned network without self-links and with at least two node-layers is the
number of ordered pairs of linked node-layers over the number of all ordered pairs of different node-layers; it
lies between 0 and 1, and is 1 iff all different node-layers are linked. -/
theorem C36_density (h : Spec.Looks m d z dir true S NL R) (hs : ∀ a, NL a → R a a = z) (h2 : 2 ≤ {nl | NL nl}.ncard) :
    ∃ q : ℚ, m.view.density = .ok q ∧
      q = ({p : List α × List α | NL p.1 ∧ NL p.2 ∧ R p.1 p.2 ≠ z}.ncard : ℚ) /
        ({nl | NL nl}.ncard * ({nl | NL nl}.ncard - 1)) ∧
      0 ≤ q ∧ q ≤ 1 ∧ (q = 1 ↔ ∀ a b, NL a → NL b → a ≠ b → R a b ≠ z) := by
  have hf : m.fic = true := h.aligned_eq
  have hz : m.view.noEdge = z := h.noEdge_eq
  have := density_core (v := m.view) (NL := NL) (R' := R) h.sound hf
    (by change Except.ok m.nodeLayers = .ok (product m.slices); unfold MNet.nodeLayers; rw [if_pos hf])
    (fun nl => (h.mem_product nl).trans (h.nl_aligned nl).symm)
    (fun a b ha hb => h.reads_eq (h.nl_length ha) (h.nl_length hb)) (by rw [hz]; exact hs) h2
  rw [hz] at this
  exact this

example : (after 1 0 false true transOps).view.density = .ok (5 / 66) := by decide +kernel

/-- **C36**, the calls that raise: without nodes the density is 0; with a node, `density` raises
`UnboundLocalError` for every network that is not node-aligned, and `ZeroDivisionError` for a node-aligned
network with exactly one node-layer. -/
theorem C36_raises (h : Spec.Looks m d z dir al S NL R) :
    ((∀ x, ¬ S 0 x) → m.view.density = .ok 0) ∧
    ((∃ x, S 0 x) → al = false → m.view.density = .error .unboundLocalError) ∧
    (al = true → {nl | NL nl}.ncard = 1 → m.view.density = .error .zeroDivisionError) := by
  have hlen : ∀ x, x ∈ m.view.slices.headD [] ↔ S 0 x := by
    intro x
    rw [← h.inS (Nat.zero_le d)]
    have := h.sound.slen
    match hs : m.view.slices with
    | s0 :: st => unfold View.inS; rw [hs]; simp
    | [] => rw [hs] at this; simp at this
  obtain ⟨n, e1, -, -, -⟩ := h.sound.ordered (nls := m.nodeLayers) rfl
  refine ⟨fun h0 => ?_, ?_, ?_⟩
  · unfold View.density
    rw [if_pos]
    rw [List.length_eq_zero_iff, List.eq_nil_iff_forall_not_mem]
    intro x hx
    exact h0 x ((hlen x).1 hx)
  · rintro ⟨x, hx⟩ hal
    have hf : m.view.fic = false := h.aligned_eq.trans hal
    unfold View.density
    rw [if_neg, e1]
    · simp only [hf, if_true]
    · intro h0
      rw [List.length_eq_zero_iff] at h0
      have := (hlen x).2 hx
      rw [h0] at this
      cases this
  · rintro rfl h1
    have hf : m.view.fic = true := h.aligned_eq
    have hN : {nl | NL nl}.ncard = (product m.view.slices).length :=
      MNet.ncard_of_list h.sound.nodupP (by
        intro a; exact (h.mem_product a).trans (h.nl_aligned a).symm)
    have hl : ((m.view.slices.headD []).length : ℚ) * ((m.view.slices.drop 1).map fun s => ((s.length : Nat) : ℚ)).prod = 1 := by
      have hsl := h.sound.slen
      rw [hN, length_product] at h1
      match hs : m.view.slices with
      | s0 :: st =>
        rw [hs] at h1
        simp only [List.map_cons, List.prod_cons] at h1
        simp only [List.headD_cons, List.drop_succ_cons, List.drop_zero]
        have := congrArg (Nat.cast : Nat → ℚ) h1
        simpa [Nat.cast_list_prod, Function.comp_def] using this
      | [] => rw [hs] at hsl; simp at hsl
    have hne : (m.view.slices.headD []).length ≠ 0 := by
      intro h0; rw [h0] at hl; simp at hl
    have hp : m.view.possibleEdges = 0 := by
      unfold View.possibleEdges
      simp only [hl]
      split <;> norm_num
    unfold View.density
    rw [if_neg hne, e1]
    simp only [hf, hp, Bool.true_eq_false, if_false, if_true]

example : (after 1 0 false false transOps).view.density = .error .unboundLocalError := by decide
example : (after (α := Nat) 0 (0 : Int) false true [.addNode 1 none]).view.density = .error .zeroDivisionError := by decide +kernel

/-- **C36**, node-aligned multiplex networks; couplings count as edges. -/
theorem C36_multiplex [Zero W] [LawfulIntNames α] {cs : List (Coupling α W)} (directed : Bool) {ops : List (POp α W)}
    (hU : Spec.Usable cs true ops) (hs : Spec.NoIntraSelf ops)
    (h2 : 2 ≤ {nl | Spec.HasNodeLayer cs.length true ops nl}.ncard) :
    ∃ q : ℚ, (afterP cs directed 0 true ops).view.density = .ok q ∧
      q = ({p : List α × List α | Spec.HasNodeLayer cs.length true ops p.1 ∧ Spec.HasNodeLayer cs.length true ops p.2 ∧
          Spec.weight cs directed true ops p.1 p.2 ≠ 0}.ncard : ℚ) /
        ({nl | Spec.HasNodeLayer cs.length true ops nl}.ncard * ({nl | Spec.HasNodeLayer cs.length true ops nl}.ncard - 1)) ∧
      0 ≤ q ∧ q ≤ 1 ∧ (q = 1 ↔ ∀ a b, Spec.HasNodeLayer cs.length true ops a → Spec.HasNodeLayer cs.length true ops b →
        a ≠ b → Spec.weight cs directed true ops a b ≠ 0) := by
  have hcs := hU.some_aspect
  have hpar := after_params hcs directed 0 true ops
  have hf : (afterP cs directed 0 true ops).fic = true := hpar.2.2.2.1
  have hz : (afterP cs directed 0 true ops).view.noEdge = 0 := hpar.2.2.1
  have hp : (afterP cs directed 0 true ops).nodeLayers = .ok (product (afterP cs directed 0 true ops).slices) := by
    unfold MPlex.nodeLayers; rw [if_pos hf]
  obtain ⟨l, l1, -, l3⟩ := after_nodeLayers hcs directed 0 true ops
  rw [hp] at l1; cases l1
  have := density_core (v := (afterP cs directed 0 true ops).view) (NL := Spec.HasNodeLayer cs.length true ops)
    (R' := Spec.weight cs directed true ops) (main_sound (directed := directed) hU hs (Or.inl rfl)) hf hp l3
    (fun a b ha hb => main_R hU ha hb) (by rw [hz]; exact fun a _ => weight_self a) h2
  rw [hz] at this
  exact this

example : (afterP [.ordinal (1 : Int)] false 0 true samplePlex).view.density = .ok (1 / 4) := by decide +kernel
/-! ### C37, C38 -/

section
variable [CommRing W] [LinearOrder W] [IsStrictOrderedRing W]
  {pop : List (QEntry α W) → QEntry α W × List (QEntry α W)} {src : List (List α)}

open Classical in
/-- **C37.** Whatever the order in which the heap yields entries of equal distance: if the link weights are not
negative and `dijkstra` returns, it does not raise, it maps exactly the node-layers that can be reached from a
source to their distance, and the forest consists of these node-layers and of the last steps of shortest walks,
with their weights (and of the self-pair of each source, with its value in the network). -/
theorem C37_distances (h : Spec.Looks m d z dir al S NL R) (hw : ∀ a b, NL a → NL b → R a b ≠ z → 0 ≤ R a b)
    (hsrc : ∀ x ∈ src, NL x) (hpop : Spec.PopsLeast pop) (fuel : Nat)
    (r : Except Err (Dict (List α) W × MNet α W)) (hr : m.view.dijkstra pop src fuel = some r) :
    ∃ D F, r = .ok (D, F) ∧
      (∀ x t, Dict.get D x = some t ↔ Spec.IsDist (Spec.LinkStep NL z R) R src x t) ∧
      (∀ x ℓ, Spec.Reaches (Spec.LinkStep NL z R) R src x ℓ → ∃ t, Dict.get D x = some t) ∧
      Spec.Looks F d (-1) true (decide (d = 0))
        (fun k x => ∃ nl t, Spec.IsDist (Spec.LinkStep NL z R) R src nl t ∧ nl[k]? = some x)
        (fun nl => ∃ t, Spec.IsDist (Spec.LinkStep NL z R) R src nl t)
        (fun a b => if (a = b ∧ a ∈ src) ∨ Spec.OnShortest (Spec.LinkStep NL z R) R src a b then R a b else -1) := by
  have hz : m.view.noEdge = z := h.noEdge_eq
  have ha : m.view.aspects = d := h.aspects_eq
  have := (dijkstra_spec (v := m.view) (NL := NL) (R' := R) h.sound ⟨_, rfl, h.nodeLayers.2⟩
    (fun a b ha hb => h.reads_eq (h.nl_length ha) (h.nl_length hb)) (by rw [hz]; exact hw) hsrc hpop).1 fuel r hr
  rw [hz, ha] at this
  exact this

/-- **C38**, the part that holds: with non-negative weights `dijkstra` returns iff no closed walk of total
weight zero (with at least one step) can be reached from the sources. -/
theorem C38_terminates_partial (h : Spec.Looks m d z dir al S NL R) (hw : ∀ a b, NL a → NL b → R a b ≠ z → 0 ≤ R a b)
    (hsrc : ∀ x ∈ src, NL x) (hpop : Spec.PopsLeast pop) :
    (∃ fuel r, m.view.dijkstra pop src fuel = some r) ↔
      ∀ x ℓ, Spec.Reaches (Spec.LinkStep NL z R) R src x ℓ → ¬ Spec.OnZeroCycle (Spec.LinkStep NL z R) R x := by
  have hz : m.view.noEdge = z := h.noEdge_eq
  have := (dijkstra_spec (v := m.view) (NL := NL) (R' := R) h.sound ⟨_, rfl, h.nodeLayers.2⟩
    (fun a b ha hb => h.reads_eq (h.nl_length ha) (h.nl_length hb)) (by rw [hz]; exact hw) hsrc hpop).2
  rw [hz] at this
  exact this

/-- Internal: walks along non-negative steps have non-negative weight. -/
theorem walk_nonneg {V : Type} {Step : V → V → Prop} {w : V → V → W} (hw : ∀ a b, Step a b → 0 ≤ w a b) {a b : V} {ℓ : W}
    (h : Spec.Walk Step w a b ℓ) : 0 ≤ ℓ := by
  induction h with
  | nil => exact le_rfl
  | snoc _ hs ih => exact add_nonneg ih (hw _ _ hs)

/-- **C37.** With positive link weights `dijkstra` terminates. -/
theorem C37_terminates (h : Spec.Looks m d z dir al S NL R) (hw : ∀ a b, NL a → NL b → R a b ≠ z → 0 < R a b)
    (hsrc : ∀ x ∈ src, NL x) (hpop : Spec.PopsLeast pop) : ∃ fuel r, m.view.dijkstra pop src fuel = some r := by
  refine (C38_terminates_partial h (fun a b ha hb hR => (hw a b ha hb hR).le) hsrc hpop).2 ?_
  rintro x ℓ - ⟨y, ℓ', hs, hwalk, h0⟩
  have h1 := hw x y hs.1 hs.2.1 hs.2.2
  have h2 := walk_nonneg (fun a b (h : Spec.LinkStep NL z R a b) => (hw a b h.1 h.2.1 h.2.2).le) hwalk
  linarith

open Classical in
/-- **C37**, **C38** for multiplex networks: if `dijkstra` returns, it gives the distances and the forest; it
returns iff no closed walk of weight zero can be reached. -/
theorem C37_multiplex [LawfulIntNames α] {cs : List (Coupling α W)} (directed : Bool) {aligned : Bool} {ops : List (POp α W)}
    (hU : Spec.Usable cs aligned ops) (hs : Spec.NoIntraSelf ops) (hal : aligned = true ∨ ∃ w, cs = [.categorical w])
    (hw : ∀ a b, Spec.HasNodeLayer cs.length aligned ops a → Spec.HasNodeLayer cs.length aligned ops b →
      Spec.weight cs directed aligned ops a b ≠ 0 → 0 ≤ Spec.weight cs directed aligned ops a b)
    (hsrc : ∀ x ∈ src, Spec.HasNodeLayer cs.length aligned ops x) (hpop : Spec.PopsLeast pop) :
    let St := Spec.LinkStep (Spec.HasNodeLayer cs.length aligned ops) 0 (Spec.weight cs directed aligned ops)
    let wt := Spec.weight cs directed aligned ops
    (∀ fuel r, (afterP cs directed 0 aligned ops).view.dijkstra pop src fuel = some r → ∃ D F, r = .ok (D, F) ∧
      (∀ x t, Dict.get D x = some t ↔ Spec.IsDist St wt src x t) ∧
      (∀ x ℓ, Spec.Reaches St wt src x ℓ → ∃ t, Dict.get D x = some t) ∧
      Spec.Looks F cs.length (-1) true false
        (fun k x => ∃ nl t, Spec.IsDist St wt src nl t ∧ nl[k]? = some x)
        (fun nl => ∃ t, Spec.IsDist St wt src nl t)
        (fun a b => if (a = b ∧ a ∈ src) ∨ Spec.OnShortest St wt src a b then wt a b else -1)) ∧
    ((∃ fuel r, (afterP cs directed 0 aligned ops).view.dijkstra pop src fuel = some r) ↔
      ∀ x ℓ, Spec.Reaches St wt src x ℓ → ¬ Spec.OnZeroCycle St wt x) := by
  have hcs := hU.some_aspect
  have hpar := after_params hcs directed 0 aligned ops
  have hz : (afterP cs directed 0 aligned ops).view.noEdge = 0 := hpar.2.2.1
  have ha : (afterP cs directed 0 aligned ops).view.aspects = cs.length := hpar.1
  have hpos : cs.length ≠ 0 := (List.length_pos_iff.2 hcs).ne'
  obtain ⟨l, l1, -, l3⟩ := after_nodeLayers hcs directed 0 aligned ops
  have := dijkstra_spec (v := (afterP cs directed 0 aligned ops).view) (R' := Spec.weight cs directed aligned ops)
    (main_sound (directed := directed) hU hs hal) ⟨l, l1, l3⟩ (fun a b ha hb => main_R hU ha hb) (by rw [hz]; exact hw) hsrc hpop
  rw [hz, ha] at this
  simp only [hpos, decide_false] at this
  exact this

end

/-- A priority queue for the examples: the entry with the least distance that was pushed last. -/
def popMin (q : List (QEntry Nat Int)) : QEntry Nat Int × List (QEntry Nat Int) :=
  match q.insertionSort (fun a b => a.1 ≤ b.1) with
  | [] => ((0, [], []), [])
  | e :: t => (e, t)

theorem popMin_least : Spec.PopsLeast popMin := by
  intro q hq
  have hp := List.perm_insertionSort (fun a b : QEntry Nat Int => a.1 ≤ b.1) q
  have hs := List.pairwise_insertionSort (fun a b : QEntry Nat Int => a.1 ≤ b.1) q
  unfold popMin
  cases hc : q.insertionSort (fun a b => a.1 ≤ b.1) with
  | nil => rw [hc] at hp; exact absurd hp.symm.eq_nil hq
  | cons e t =>
    rw [hc] at hp hs
    refine ⟨hp, fun x hx => ?_⟩
    rcases List.mem_cons.1 (hp.symm.subset hx) with rfl | hx
    · exact le_rfl
    · exact List.rel_of_pairwise_cons hs hx

example : ((after 1 0 false true transOps).view.dijkstra popMin [[1, 10], [2, 12]] 20).map (fun r => r.toOption.map
      fun r => (r.1, r.2.reads [1, 11] [2, 11], r.2.reads [2, 11] [1, 11], r.2.reads [1, 10] [1, 10])) =
    some (some ([([1, 10], 0), ([2, 12], 0), ([3, 12], 7), ([2, 10], 5), ([3, 11], 4), ([1, 11], 2), ([2, 11], 5)],
      3, -1, 0)) := by decide +kernel

/-- The property C38 is false: on a network with one link of weight 0 (written as a link, `noEdge` being −1),
started from one of its end points, the loop of `dijkstra` never ends, whatever the heap does with ties. -/
theorem C38_false (pop : List (QEntry Nat Int) → QEntry Nat Int × List (QEntry Nat Int)) (hpop : Spec.PopsLeast pop)
    (fuel : Nat) : (after 0 (-1) false true [.setItem [1, 2] (0 : Int)]).view.dijkstra pop [[1]] fuel = none := by
  have hl := network_looks (α := Nat) 0 (-1 : Int) false true [.setItem [1, 2] 0]
  have h1 : Spec.HasNodeLayerG 0 true [.setItem [(1 : Nat), 2] (0 : Int)] [1] :=
    (hl.nodeLayers.2 _).1 (by decide)
  have h2 : Spec.HasNodeLayerG 0 true [.setItem [(1 : Nat), 2] (0 : Int)] [2] :=
    (hl.nodeLayers.2 _).1 (by decide)
  have hall : ∀ a, Spec.HasNodeLayerG 0 true [.setItem [(1 : Nat), 2] (0 : Int)] a → a = [1] ∨ a = [2] := by
    intro a ha
    have := (hl.nodeLayers.2 _).2 ha
    have he : (after 0 (-1) false true [.setItem [1, 2] (0 : Int)]).nodeLayers = [[1], [2]] := by decide
    rw [he] at this
    simpa using this
  have r1 : Spec.read 0 false (-1) [.setItem [(1 : Nat), 2] (0 : Int)] [1] [2] = 0 := by
    rw [← hl.reads_eq rfl rfl]; decide
  have r2 : Spec.read 0 false (-1) [.setItem [(1 : Nat), 2] (0 : Int)] [2] [1] = 0 := by
    rw [← hl.reads_eq rfl rfl]; decide
  have r3 : Spec.read 0 false (-1) [.setItem [(1 : Nat), 2] (0 : Int)] [1] [1] = -1 := by
    rw [← hl.reads_eq rfl rfl]; decide
  have r4 : Spec.read 0 false (-1) [.setItem [(1 : Nat), 2] (0 : Int)] [2] [2] = -1 := by
    rw [← hl.reads_eq rfl rfl]; decide
  by_contra hne
  obtain ⟨r, hr⟩ := Option.ne_none_iff_exists'.1 hne
  have := (C38_terminates_partial (pop := pop) (src := [[1]]) hl ?_ (by simpa using h1) hpop).1 ⟨fuel, r, hr⟩ [1] 0
    ⟨[1], by simp, .nil _⟩
  · refine this ⟨[2], 0, ⟨h1, h2, by rw [r1]; decide⟩, ?_, by rw [r1]; decide⟩
    have := Spec.Walk.snoc (w := Spec.read 0 false (-1) [.setItem [(1 : Nat), 2] (0 : Int)])
      (Step := Spec.LinkStep (Spec.HasNodeLayerG 0 true [.setItem [(1 : Nat), 2] (0 : Int)]) (-1)
        (Spec.read 0 false (-1) [.setItem [(1 : Nat), 2] (0 : Int)])) (.nil [2]) (show Spec.LinkStep _ _ _ [2] [1] from
        ⟨h2, h1, by rw [r2]; decide⟩)
    rw [r2] at this
    exact this
  · intro a b ha hb
    rcases hall a ha with rfl | rfl <;> rcases hall b hb with rfl | rfl <;> simp [r1, r2, r3, r4]

end Pymnet
