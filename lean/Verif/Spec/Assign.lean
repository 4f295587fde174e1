import Verif.Spec.PlexTransforms

/-! Small specification of a multiplex network one layer of which has been replaced. -/

namespace Pymnet.Spec

open Pymnet

variable {α W : Type}

open Classical in
/-- The calls `ops'` make the node-aligned network made by `ops` with the links of layer `s` replaced by those of a monoplex network
with nodes `N` and link weights `R`; its nodes are added to the nodes of the network. -/
structure Replaced [Zero W] (aspects : Nat) (directed : Bool) (ops : List (POp α W)) (s : List α) (N : α → Prop) (R : α → α → W)
    (ops' : List (POp α W)) : Prop where
  nodes : ∀ x, Happened (NamesNodeP aspects true x) ops' ↔ Happened (NamesNodeP aspects true x) ops ∨ N x
  layers : ∀ a x, 1 ≤ a → a ≤ aspects →
    ((∃ op ∈ ops', NamesLayerP aspects true a x op) ↔ ∃ op ∈ ops, NamesLayerP aspects true a x op)
  link : ∀ t i j, t.length = aspects →
    readP aspects directed true ops' t i j = if t = s then R i j else readP aspects directed true ops t i j
  noself : NoIntraSelf ops → (∀ i, R i i = 0) → NoIntraSelf ops'

end Pymnet.Spec
