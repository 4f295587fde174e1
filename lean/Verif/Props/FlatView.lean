import Verif.Model.FlatView
import Verif.Props.Laws

/-! C165: the flat view. -/

set_option linter.unusedSectionVars false

namespace Pymnet

open Py

variable {α W : Type} [DecidableEq α] [DecidableEq W]

/-- Specification: the view shows the links of the network: for two of its node-layers, the weight of the link between them. -/
def Spec.ShowsLinks (V : FlatView α W) (m : MNet α W) : Prop :=
  ∀ u v, u ∈ m.nodeLayers → v ∈ m.nodeLayers → ∀ link w, nodesToLink u v = .ok link → m.view.readItem link = .ok (.weight w) →
    V.read [.inr u, .inr v] = .ok (.weight w)

/-- Specification: the view shows the node-layers of the network. -/
def Spec.ShowsNodes (V : FlatView α W) (m : MNet α W) : Prop :=
  ∀ u ∈ m.nodeLayers, ∃ n, V.read (u.map .inl) = .ok (.node n none)

/-- **C165 (false).** The view of no network with a node-layer shows its links: reading the link between any two node-layers raises a
`NameError`, writing one raises an `AttributeError`, and no degree can be asked for. -/
theorem C165_false_links (m : MNet α W) (u v : List α) (w : W) :
    (FlatView.mk m.view).read [.inr u, .inr v] = .error .nameError ∧
    (FlatView.mk m.view).set [.inr u, .inr v] w = (FlatView.mk m.view, some .attributeError) ∧
    ∀ item k, (FlatView.mk m.view).deg item ≠ .ok k := by
  refine ⟨rfl, rfl, fun item k h => ?_⟩
  unfold FlatView.deg at h
  split at h <;> cases h

/-- **C165 (false), in one sentence.** A network and two of its node-layers with a link that the view does not show. -/
theorem C165_false : ∃ (m : MNet Nat Int), m = after 1 0 false true [.setItem [1, 2, 10] 5] ∧ ¬ Spec.ShowsLinks (FlatView.mk m.view) m := by
  refine ⟨_, rfl, fun h => ?_⟩
  have := h [1, 10] [2, 10] (by decide +kernel) (by decide +kernel) [1, 2, 10, 10] 5 rfl (by decide +kernel)
  cases this

/-- **C165, nodes.** The view shows the node-layers exactly of the networks without aspects: a node-layer of a network with one aspect raises
a `NameError`, and of a network with more aspects a `KeyError`. -/
theorem C165_nodes_partial {m : MNet α W} {d : Nat} {z : W} {dir al : Bool} {S : Nat → α → Prop} {NL : List α → Prop}
    {R : List α → List α → W} (h : Spec.Looks m d z dir al S NL R) :
    (d = 0 → Spec.ShowsNodes (FlatView.mk m.view) m) ∧
    ∀ u ∈ m.nodeLayers, (d = 1 → (FlatView.mk m.view).read (u.map .inl) = .error .nameError) ∧
      (2 ≤ d → (FlatView.mk m.view).read (u.map .inl) = .error .keyError) := by
  have hl : ∀ u ∈ m.nodeLayers, u.length = d + 1 := fun u hu => h.nl_length ((h.nodeLayers.2 u).1 hu)
  refine ⟨fun hd u hu => ⟨u.map .inl, ?_⟩, fun u hu => ⟨fun hd => ?_, fun hd => ?_⟩⟩
  · unfold FlatView.read
    rw [if_pos (by simp [hl u hu, hd])]
  · unfold FlatView.read
    rw [if_neg (by simp [hl u hu, hd]), if_pos (by simp [hl u hu, hd])]
    rfl
  · unfold FlatView.read
    rw [if_neg (by simp [hl u hu]; omega), if_neg (by simp [hl u hu]; omega)]

/-- the three cases -/
example : (FlatView.mk (after 0 0 false true [.setItem [1, 2] 5] : MNet Nat Int).view).read ([1].map .inl) = .ok (.node [.inl 1] none) ∧
    (FlatView.mk (after 1 0 false true [.setItem [1, 2, 10] 5] : MNet Nat Int).view).read ([1, 10].map .inl) = .error .nameError ∧
    (FlatView.mk (after 2 0 false true [.setItem [1, 2, 10, 20] 5] : MNet Nat Int).view).read ([1, 10, 20].map .inl) = .error .keyError := by
  refine ⟨rfl, ?_, ?_⟩
  · exact ((C165_nodes_partial (network_looks 1 0 false true [.setItem [1, 2, 10] 5])).2 _ (by decide +kernel)).1 rfl
  · exact ((C165_nodes_partial (network_looks 2 0 false true [.setItem [1, 2, 10, 20] 5])).2 _ (by decide +kernel)).2 (by omega)

end Pymnet
