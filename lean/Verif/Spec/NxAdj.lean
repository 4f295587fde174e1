import Verif.Model.NxAdj

/-!
Specification of the mappings that show a network to networkx. A graph has nodes `N` and weights `w`; there is a link between
two nodes if the weight is not the value `z` of missing links.
-/

namespace Pymnet.Spec

variable {α W : Type} [DecidableEq α] [DecidableEq W]

/-- What the user sees of an undirected network without aspects: it can be reached by public calls, its nodes are the names that
satisfy `N`, and reading a link gives the weight `w`. -/
structure Graph (m : MNet α W) (z : W) (N : α → Prop) (w : α → α → W) : Prop where
  reachable : ∃ ops, m = (MNet.init 0 z false true).run ops
  nodes : ∃ l, m.getLayers 0 = .ok l ∧ l.Nodup ∧ ∀ x, x ∈ l ↔ N x
  reads : ∀ i j, m.view.readItem [i, j] = .ok (.weight (w i j))

/-- The weights after the link between `u` and `v` is given the weight `c`. -/
def relink (w : α → α → W) (u v : α) (c : W) : α → α → W :=
  fun i j => if (i = u ∧ j = v) ∨ (i = v ∧ j = u) then c else w i j

/-- The weight that networkx means by the attributes of a link: that stored under the key `"weight"`, and 1 if there is none. -/
def weightOf [One W] : NxAdj.Data W → W
  | .dict items => (Py.Dict.get items "weight").getD 1
  | .bare w => w

end Pymnet.Spec
