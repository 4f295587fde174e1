import Verif.Proofs.Flatten

/-! C150: `subnet` of a multiplex network into a general network (/repo/pymnet/transforms.py 120-233). -/

set_option linter.unusedSectionVars false
set_option linter.unusedSimpArgs false

namespace Pymnet

open Py MPlex

variable {α W : Type} [DecidableEq α] [DecidableEq W]

/-- A node (`k = 0`) or an elementary layer of aspect `k` of a node-aligned multiplex network with this history. -/
def Spec.NamedP (aspects : Nat) (ops : List (POp α W)) (k : Nat) (x : α) : Prop :=
  if k = 0 then Spec.Happened (fun past op => Spec.NamesNodeP aspects true x past op) ops else ∃ op ∈ ops, Spec.NamesLayerP aspects true k x op

open Classical in
/-- **C150.** `subnet(net,nodes,*layers,newNet=MultilayerNetwork(aspects=...,directed=...))` of a node-aligned multiplex network with categorical and
ordinal couplings, directed or not, for selections of nodes and layers of the network: the general network, node-aligned or not (`f`), has the selected names and
node-layers, and reads for every pair of them the weight of the link in the multiplex network, intra-layer or coupling. Missing: self-links
written through an intra-layer network; and networks that are not node-aligned, other couplings and unknown names, for which it is false (below). -/
theorem C150_flatten_partial [Zero W] [LawfulIntNames α] {cs : List (Coupling α W)} {ops : List (POp α W)} (hU : Spec.Usable cs true ops)
    (hs : Spec.NoIntraSelf ops) {sel : List (Option (List α))} (hl : sel.length = cs.length + 1)
    (hsub : ∀ (k : Nat) l, sel[k]? = some (some l) → ∀ x ∈ l, Spec.NamedP cs.length ops k x) (directed f nolinks : Bool) :
    ∃ m', (afterP cs directed 0 true ops).view.subnetInto sel nolinks (MNet.init cs.length 0 directed f) = .ok m' ∧
      Spec.Looks m' cs.length 0 directed f (fun k x => Spec.NamedP cs.length ops k x ∧ ∀ l, sel[k]? = some (some l) → x ∈ l)
        (fun nl => Spec.HasNodeLayer cs.length true ops nl ∧ Spec.Selected sel nl)
        (fun u v => if nolinks = false ∧ (Spec.HasNodeLayer cs.length true ops u ∧ Spec.Selected sel u) ∧
          (Spec.HasNodeLayer cs.length true ops v ∧ Spec.Selected sel v) then Spec.weight cs directed true ops u v else 0) := by
  have hcs := hU.some_aspect
  have hpar := after_params hcs directed 0 true ops
  have hsound := main_sound (directed := directed) hU hs (Or.inl rfl)
  have hpos : 1 ≤ cs.length := List.length_pos_iff.2 hcs
  obtain ⟨s0, s1, -⟩ := after_spec hcs directed 0 true ops
  obtain ⟨nls, e1, -, e3⟩ := after_nodeLayers hcs directed 0 true ops
  have hcore := (after_pinv hcs directed 0 true ops).core
  obtain ⟨nls', e1', -, -, e4'⟩ := MPlex.mem_nodeLayers hcore
  set p := afterP cs directed 0 true ops with hp
  have v1 : p.view.aspects = cs.length := hpar.1
  have v2 : p.view.noEdge = 0 := hpar.2.2.1
  have v3 : p.view.directed = directed := hpar.2.1
  have v4 : p.view.fic = true := hpar.2.2.2.1
  rw [e1] at e1'; cases e1'
  have hprod : ∀ a, a ∈ product p.slices ↔ Spec.HasNodeLayer cs.length true ops a := by
    intro a
    rw [← e3]
    cases a with
    | nil =>
      constructor
      · intro h0
        have := hsound.length_of_mem h0
        simp at this
      · intro h0
        obtain ⟨n, s, h1, -⟩ := (e3 _).1 h0
        cases h1
    | cons i s => rw [e4']; exact ⟨fun h1 => ⟨h1, Or.inl v4⟩, fun h1 => h1.1⟩
  have hinS : ∀ k x, p.view.inS k x ↔ Spec.NamedP cs.length ops k x := by
    intro k x
    unfold Spec.NamedP
    by_cases hk : k = 0
    · subst hk; rw [if_pos rfl]; exact s0 x
    · rw [if_neg hk]; exact s1 k x (by omega)
  have hdeg : ∀ a ∈ product p.view.slices, ∃ k, p.view.deg a none = .ok k := by
    intro a ha
    have hn : a ∈ nls := (e3 a).2 ((hprod a).1 ha)
    obtain ⟨l, ho, -⟩ := hsound.out a ha
    have hk := hsound.degOut nls e1 a hn l ho
    change (∃ k, (if p.directed then p.degTotalDir a none else p.degOut a none) = .ok k)
    split
    · exact degTotalDir_ok hk
    · exact ⟨_, hk⟩
  obtain ⟨m', e, hb⟩ := subnetInto_flat hsound
    (fun a ha b hb => by
      rw [main_R hU ((hprod a).1 ha) ((hprod b).1 hb)]
      exact (after_weight hcs directed true ops hU ((hprod a).1 ha) ((hprod b).1 hb)).1)
    v4 ⟨nls, e1, fun a => (e3 a).trans (hprod a).symm⟩ hdeg (sel := sel) (by rw [v1]; exact hl)
    (fun k l h1 x hx => (hinS k x).2 (hsub k l h1 x hx)) f (fun _ => by omega) nolinks
  rw [v1, v2, v3] at e hb
  have hslen : p.slices.length = cs.length + 1 := hsound.slen.trans (congrArg (· + 1) v1)
  have hS : ∀ k ≤ cs.length, ∀ x, selName p.view.slices sel k x ↔ (Spec.NamedP cs.length ops k x ∧ ∀ l, sel[k]? = some (some l) → x ∈ l) := by
    intro k hk x
    rw [← hinS]
    have q1 : p.view.slices[k]? = some p.slices[k] := List.getElem?_eq_getElem (l := p.slices) (by omega)
    have q2 : sel[k]? = some sel[k] := List.getElem?_eq_getElem (by omega)
    unfold selName View.inS
    rw [q1, q2]
    constructor
    · rintro ⟨s, o, he1, he2, g⟩
      cases he1; cases he2
      cases ho : sel[k] with
      | none => rw [ho] at g; exact ⟨⟨_, rfl, g⟩, fun l hl => by simp at hl⟩
      | some l' =>
        rw [ho] at g
        have := (hinS k x).2 (hsub k l' (by rw [q2, ho]) x g)
        unfold View.inS at this
        rw [q1] at this
        refine ⟨this, fun l hl => ?_⟩
        simp only [Option.some.injEq] at hl
        subst hl; exact g
    · rintro ⟨⟨s, he, hx⟩, g⟩
      refine ⟨_, _, he, rfl, ?_⟩
      cases ho : sel[k] with
      | none => exact hx
      | some l => exact g l (by rw [ho])
  have hsel : ∀ a, a ∈ product (selSets p.view.slices sel) ↔ (Spec.HasNodeLayer cs.length true ops a ∧ Spec.Selected sel a) := by
    intro a
    rw [← hprod, mem_product_get, length_selSets (by rw [hl]; exact hslen.symm)]
    have hmp := hsound.mem_product a
    rw [v1] at hmp
    change a ∈ product p.slices ↔ _ at hmp
    rw [hmp]
    have hsl : p.view.slices.length = cs.length + 1 := hslen
    rw [hsl]
    constructor
    · rintro ⟨g1, g2⟩
      have key : ∀ (i : Nat) x, a[i]? = some x → Spec.NamedP cs.length ops i x ∧ ∀ l, sel[i]? = some (some l) → x ∈ l := by
        intro i x hx
        have hi := (List.getElem?_eq_some_iff.1 hx).1
        exact (hS i (by omega) x).1 ((mem_selSets i x).1 (g2 i x hx))
      exact ⟨⟨g1, fun i x hx => (hinS i x).2 (key i x hx).1⟩, fun i x l hx hl' => (key i x hx).2 l hl'⟩
    · rintro ⟨⟨g1, g2⟩, g3⟩
      refine ⟨g1, fun i x hx => (mem_selSets i x).2 ?_⟩
      have hi := (List.getElem?_eq_some_iff.1 hx).1
      exact (hS i (by omega) x).2 ⟨(hinS i x).1 (g2 i x hx), fun l hl' => g3 i x l hx hl'⟩
  have hlook := hb.looks' (fun _ nl hnl => by
    rw [length_of_mem_product hnl, length_selSets (by rw [hl]; exact hslen.symm)]; exact hslen)
  have hd0 : (decide (cs.length = 0) || f) = f := by
    have : ¬ cs.length = 0 := by omega
    simp [this]
  rw [hd0] at hlook
  refine ⟨m', e, hlook.congr hS (fun nl => ?_) (fun u v _ _ => ?_)⟩
  · rw [← hsel]
    cases f with
    | false => rw [if_neg (by simp; omega)]
    | true =>
      rw [if_pos (Or.inr rfl), mem_product_get, length_selSets (by rw [hl]; exact hslen.symm)]
      have hsl : p.view.slices.length = cs.length + 1 := hslen
      rw [hsl]
      unfold Spec.AllNodeLayers
      simp only [mem_selSets]
  · simp only [hsel]
    by_cases hc : nolinks = false ∧ (Spec.HasNodeLayer cs.length true ops u ∧ Spec.Selected sel u) ∧
        (Spec.HasNodeLayer cs.length true ops v ∧ Spec.Selected sel v)
    · rw [if_pos hc, if_pos hc]
      exact main_R hU hc.2.1.1 hc.2.2.1
    · rw [if_neg hc, if_neg hc]

/-- the history of the examples: three nodes, links on two layers -/
def flatOps : List (POp Int Int) := [.setItem [1, 2, 10] 5, .setItem [1, 3, 10] 6, .setItem [2, 3, 11] 7]

example : Spec.Usable [Coupling.ordinal 2] true flatOps :=
  ⟨by simp, fun c hc => ⟨2, by decide, Or.inr (by simpa using hc)⟩, fun _ _ _ _ _ => ⟨rfl, rfl⟩⟩

example : Spec.NamedP 1 flatOps 1 10 := by
  rw [Spec.NamedP, if_neg (by decide)]
  exact ((after_spec (cs := [Coupling.ordinal 2]) (by simp) false 0 true flatOps).2.1 1 10 (le_refl _)).1 ⟨[10, 11], by decide, by decide⟩

example : (afterP [.ordinal (2 : Int)] true 0 true flatOps).view.subnetInto [none, none] false (MNet.init 1 0 true true) >>=
    (fun m => m.view.edges) = .ok [([1, 2, 10, 10], 5), ([1, 3, 10, 10], 6), ([1, 1, 10, 11], 2), ([1, 1, 11, 10], 2), ([2, 2, 10, 11], 2),
      ([2, 3, 11, 11], 7), ([2, 2, 11, 10], 2), ([3, 3, 10, 11], 2), ([3, 3, 11, 10], 2)] := by decide

example : Spec.NoIntraSelf flatOps := by
  intro L i w h
  simp [flatOps] at h

example : (afterP [.ordinal (2 : Int)] false 0 true flatOps).view.subnetInto [some [1, 2], none] false (MNet.init 1 0 false false) >>=
    (fun m => m.view.edges) = .ok [([1, 2, 10, 10], 5), ([1, 1, 10, 11], 2), ([2, 2, 10, 11], 2)] := by decide

/-- False for layers that are not coupled: copying a node with many links reads the links between the layers, which raises. Copying the whole
network does not. -/
theorem C150_false_uncoupled :
    (afterP [.uncoupled none] false 0 true flatOps).view.subnetInto [some [1], some [10, 11]] false (MNet.init 1 0 false true) = .error .exception ∧
    ∃ m', (afterP [.uncoupled none] false 0 true flatOps).view.subnetInto [none, none] false (MNet.init 1 0 false true) = .ok m' :=
  ⟨by decide, _, rfl⟩

/-- False for names that are not in the network: a node that does not exist is added. -/
theorem C150_false_unknown : ∃ m', (afterP [.categorical 2] false 0 true flatOps).view.subnetInto [some [1, 9], none] false
      (MNet.init 1 0 false true) = .ok m' ∧ 9 ∈ m'.iterNodes none ∧
    (afterP [.categorical (2 : Int)] false 0 true flatOps).iterNodes none = .ok [1, 2, 3] := ⟨_, rfl, by decide, by decide⟩

/-- False for networks that are not node-aligned: with two categorical aspects a `TypeError`, with an ordinal aspect the couplings are lost. -/
theorem C150_false_nonaligned :
    (afterP [.categorical 1, .categorical 1] false 0 false [.setItem [(1 : Int), 2, 10, 10, 20, 20] (5 : Int)]).view.subnetInto [none, none, none]
      false (MNet.init 2 0 false false) = .error .typeError ∧
    ∃ m', (afterP [.ordinal 2] false 0 false flatOps).view.subnetInto [none, none] false (MNet.init 1 0 false false) = .ok m' ∧
      m'.view.readItem [2, 2, 10, 11] = .ok (.weight 0) ∧
      (afterP [.ordinal 2] false 0 false flatOps).view.readItem [2, 2, 10, 11] = .ok (.weight 2) :=
  ⟨by decide, _, rfl, by decide, by decide⟩

end Pymnet
