import Verif.Proofs.Looks
import Verif.Props.Net
import Mathlib.Algebra.Order.BigOperators.Group.List
import Mathlib.Algebra.Order.Group.Int

/-!
Properties C26–C34: the transforms. `Spec.Looks m …` says what a user sees of the network `m`; the
theorems say what the result of a transform looks like in terms of what its argument looks like. Every
network obtained by public calls looks like its history (`network_looks`), and the results of the
transforms are again such networks, so the theorems compose.
-/

set_option linter.unusedSectionVars false
set_option linter.unusedSimpArgs false

namespace Pymnet

open Py

variable {α W : Type} [DecidableEq α] [DecidableEq W]

/-- Every reachable network satisfies the hypothesis of the theorems of this file. -/
theorem network_looks (aspects : Nat) (noEdge : W) (directed aligned : Bool) (ops : List (Op α W)) :
    Spec.Looks (after aspects noEdge directed aligned ops) aspects noEdge directed (decide (aspects = 0) || aligned)
      (Spec.HasName aspects aligned ops) (Spec.HasNodeLayerG aspects aligned ops)
      (Spec.read aspects directed noEdge ops) := by
  have hl : ∀ a ≤ aspects, ∃ l, (after aspects noEdge directed aligned ops).getLayers a = .ok l ∧ l.Nodup ∧
      ∀ x, x ∈ l ↔ Spec.HasName aspects aligned ops a x := by
    intro a ha
    unfold Spec.HasName
    rcases Nat.eq_zero_or_pos a with rfl | h
    · simp only [if_true]
      have h0 := C08_nodes aspects noEdge directed aligned ops
      refine ⟨_, ?_, h0.1, h0.2⟩
      have hs := MNet.slices_split (after_inv aspects noEdge directed aligned ops).r
      unfold MNet.getLayers
      rw [hs]
      simp [MNet.iterNodes]
    · have h0 : a ≠ 0 := by omega
      simp only [h0, if_false]
      exact C08_layers aspects noEdge directed aligned ops h ha
  refine ⟨after_aspects .., after_directed .., after_noEdge .., after_fic .., ⟨ops, ?_⟩, hl, ⟨?_, ?_⟩, ?_⟩
  · unfold after
    congr 1
    unfold MNet.init
    rcases Nat.eq_zero_or_pos aspects with h | h
    · simp [h]
    · have : aspects ≠ 0 := by omega
      simp [this]
  · exact MNet.nodeLayers_nodup (after_inv ..).r
  · intro nl
    unfold Spec.HasNodeLayerG
    by_cases hc : aspects = 0 ∨ aligned = true
    · rw [if_pos hc]
      have hinv := after_inv aspects noEdge directed aligned ops
      have hf : (after aspects noEdge directed aligned ops).fic = true := by
        rw [after_fic]; simpa using hc
      rw [MNet.mem_nodeLayers hinv.r, hf, if_pos rfl, ← MNet.reg_iff hinv.r]
      unfold MNet.Reg Spec.AllNodeLayers
      rw [after_aspects]
      refine and_congr_right fun hlen => ?_
      have key : ∀ i ≤ aspects, ∀ x, (after aspects noEdge directed aligned ops).inSlice i x ↔
          Spec.HasName aspects aligned ops i x := by
        intro i hi x
        obtain ⟨l, h1, -, h3⟩ := hl i hi
        rw [← h3]
        unfold MNet.getLayers at h1
        unfold MNet.inSlice
        cases hs : (after aspects noEdge directed aligned ops).slices[i]? with
        | none => rw [hs] at h1; cases h1
        | some s => rw [hs] at h1; cases h1; simp
      constructor
      · intro h i x hx
        exact (key i (by have := (List.getElem?_eq_some_iff.1 hx).1; omega) x).1 (h i x hx)
      · intro h i x hx
        exact (key i (by have := (List.getElem?_eq_some_iff.1 hx).1; omega) x).2 (h i x hx)
    · rw [if_neg hc]
      rw [not_or] at hc
      have ha : aligned = false := by simpa using hc.2
      subst ha
      exact (C15_node_layers aspects (by omega) noEdge directed ops).2 nl
  · intro item u v h
    exact C01_read_last_write aspects noEdge directed aligned ops h

/-- A network with three layers used in the examples. -/
def transOps : List (Op Nat Int) :=
  [.addNode 9 none, .setItem [1, 2, 10] 5, .setItem [1, 2, 11] 3, .setItem [1, 3, 10, 11] 4, .setItem [1, 1, 10, 11] 2,
   .setItem [2, 3, 12] 7]

variable {m : MNet α W} {d : Nat} {z : W} {dir al : Bool} {S : Nat → α → Prop} {NL : List α → Prop}
  {R : List α → List α → W}

theorem fic_pos (h : Spec.Looks m d z dir al S NL R) : m.fic = false → 1 ≤ m.aspects := by
  intro hf
  rcases Nat.eq_zero_or_pos m.aspects with h0 | h0
  · rw [h.inv.r.fic0 h0] at hf; cases hf
  · exact h0

/-! ### C32 -/

open Classical in
/-- **C32** for node-aligned networks: `threshold` keeps the nodes, the layers, and exactly the edges
whose weight satisfies the rule, with their weights. Missing: networks that are not node-aligned, for which
the property is false (`C32_false`). -/
theorem C32_threshold_partial [LE W] [LT W] [DecidableLE W] [DecidableLT W] (h : Spec.Looks m d z dir true S NL R)
    (t : W) {method : Method} (hm : method ≠ .invalid) :
    ∃ m', m.view.threshold t method = .ok m' ∧
      Spec.Looks m' d z dir true S NL (fun u v => if Spec.Keeps t (R u v) method then R u v else z) := by
  obtain ⟨m', e, hb⟩ := threshold_spec h.sound h.aligned_eq t hm
  refine ⟨m', e, ?_⟩
  have h1 : m.view.aspects = d := h.aspects_eq
  have h2 : m.view.noEdge = z := h.noEdge_eq
  have h3 : m.view.directed = dir := h.directed_eq
  rw [h1, h2, h3] at hb
  refine (hb.looks (fun _ => rfl) (by simp)).congr (fun k hk x => h.inS hk x) (fun nl => ?_) (fun u v hu hv => ?_)
  · rw [if_pos rfl, h.nl_aligned]
    unfold Spec.AllNodeLayers
    refine and_congr_right fun hl => ?_
    constructor
    · intro g i x hx
      exact (h.inS (by have := (List.getElem?_eq_some_iff.1 hx).1; omega) x).1 (g i x hx)
    · intro g i x hx
      exact (h.inS (by have := (List.getElem?_eq_some_iff.1 hx).1; omega) x).2 (g i x hx)
  · rw [h.reads_eq hu hv]
    by_cases hR : R u v = z
    · rw [hR]; simp
    · have := h.linked hu hv hR
      have e1 : u ∈ product m.view.slices := this.1.1
      have e2 : v ∈ product m.view.slices := this.2.1
      simp only [e1, e2, true_and]

example : (after 1 0 false true transOps).view.threshold 4 .ge =
    .ok (after 1 0 false true [.addNode 9 none, .addNode 1 none, .addNode 2 none, .addNode 3 none, .addLayer 10 1,
      .addLayer 11 1, .addLayer 12 1, .setItem [1, 2, 10] 5, .setItem [1, 3, 10, 11] 4, .setItem [2, 3, 12] 7]) := by
  decide

/-- The property C32 is false for networks that are not node-aligned: as soon as there is one node-layer,
`threshold` raises `NameError`, whatever the threshold and the method. -/
theorem C32_false [LE W] [LT W] [DecidableLE W] [DecidableLT W] (h : Spec.Looks m d z dir false S NL R)
    {nl : List α} (hn : NL nl) (t : W) (method : Method) : m.view.threshold t method = .error .nameError := by
  obtain ⟨m1, m2, e1, e2, -⟩ := copySlices h.sound (Built.init m.view.aspects m.view.noEdge m.view.directed m.view.fic)
  obtain ⟨l, l1, -, -, -⟩ := h.sound.nls
  have hf : m.view.fic = false := h.aligned_eq
  unfold View.threshold
  rw [e1]
  simp only [e2, l1, hf]
  have hne : l ≠ [] := by
    cases l1
    rintro h0
    have := (h.nodeLayers.2 nl).2 hn
    rw [h0] at this; cases this
  simp [hne]

example : (after 1 0 false false transOps).view.threshold 4 .ge = .error .nameError := by decide

/-! ### C34 -/

/-- **C34.** The underlying graph has one node per node-layer, called by its name, and between the names
of two node-layers the link of the network. -/
theorem C34_underlying {β : Type} [DecidableEq β] (h : Spec.Looks m d z dir al S NL R)
    {name : List α → β} (hn : Function.Injective name) :
    ∃ m' R', m.view.underlying name = .ok m' ∧
      Spec.Looks m' 0 z dir true (fun k x => k = 0 ∧ ∃ nl, NL nl ∧ x = name nl) (fun x => ∃ nl, NL nl ∧ x = [name nl]) R' ∧
      (∀ u v, u.length = d + 1 → v.length = d + 1 → R' [name u] [name v] = R u v) ∧
      ∀ x y, R' x y ≠ z → ∃ u v, NL u ∧ NL v ∧ x = [name u] ∧ y = [name v] := by
  obtain ⟨l, l1, -, l3, l4⟩ := h.sound.nls
  obtain ⟨m', R', e, hb, hr1, hr2⟩ := underlying_spec h.sound hn l1
  cases l1
  have h1 : m.view.aspects = d := h.aspects_eq
  have h2 : m.view.noEdge = z := h.noEdge_eq
  have h3 : m.view.directed = dir := h.directed_eq
  rw [h2, h3] at hb
  rw [h2] at hr2
  have hout : ∀ x y, R' x y ≠ z → ∃ u v, NL u ∧ NL v ∧ x = [name u] ∧ y = [name v] := by
    intro x y hxy
    obtain ⟨a, ha, b, hb', rfl, rfl⟩ := hr2 x y hxy
    rw [hr1 a ha b hb'] at hxy
    have hx : m.reads a b ≠ m.view.noEdge := by rw [h2]; exact hxy
    have := l4 a ha b hb' hx
    exact ⟨a, b, (h.nodeLayers.2 a).1 this.1, (h.nodeLayers.2 b).1 this.2, rfl, rfl⟩
  refine ⟨m', R', e, (hb.looks (fun _ => rfl) (by simp)).congr (fun k _ x => ?_) (fun nl => ?_) (fun _ _ _ _ => rfl), ?_, hout⟩
  · refine and_congr_right fun _ => ?_
    simp only [h.nodeLayers.2]
  · rw [if_pos rfl]
    unfold Spec.AllNodeLayers
    simp only [h.nodeLayers.2]
    constructor
    · rintro ⟨hl, hx⟩
      match nl, hl with
      | [y], _ =>
        obtain ⟨-, a, ha, rfl⟩ := hx 0 y rfl
        exact ⟨a, ha, rfl⟩
    · rintro ⟨a, ha, rfl⟩
      refine ⟨rfl, fun i x hx => ?_⟩
      cases i with
      | zero => simp at hx; exact ⟨rfl, a, ha, hx.symm⟩
      | succ i => simp at hx
  · intro u v hu hv
    by_cases hR : R u v = z
    · by_contra hne
      rw [hR] at hne
      obtain ⟨a, b, ha, hb', e1, e2⟩ := hout _ _ hne
      simp only [List.cons.injEq, and_true] at e1 e2
      rw [hn e1, hn e2] at hR hne
      have := hr1 a (h.nl_product ha) b (h.nl_product hb')
      rw [this, h.reads_eq (h.nl_length ha) (h.nl_length hb')] at hne
      exact hne hR
    · have := h.linked hu hv hR
      rw [hr1 u this.1.1 v this.2.1, h.reads_eq hu hv]

example : (after 1 0 false false transOps).view.underlying id =
    .ok (after 0 0 false true [.addNode [1, 10] none, .addNode [2, 10] none, .addNode [1, 11] none, .addNode [2, 11] none,
      .addNode [3, 11] none, .addNode [2, 12] none, .addNode [3, 12] none, .setItem [[1, 10], [2, 10]] 5,
      .setItem [[1, 10], [3, 11]] 4, .setItem [[1, 10], [1, 11]] 2, .setItem [[1, 11], [2, 11]] 3,
      .setItem [[2, 12], [3, 12]] 7]) := by decide

end Pymnet
