import Verif.Spec.PlexTransforms

/-! Small specification of the random permutation of the nodes of every layer. -/

namespace Pymnet.Spec

open Pymnet

variable {α W : Type}

/-- The calls `ops'` make the network made by `ops` (one aspect) with the nodes of every layer `s` permuted by `f s`. -/
structure Permuted [Zero W] (directed aligned : Bool) (ops : List (POp α W)) (f : α → α → α) (ops' : List (POp α W)) : Prop where
  /-- the same layers -/
  layers : ∀ s, (∃ op ∈ ops', NamesLayerP 1 aligned 1 s op) ↔ ∃ op ∈ ops, NamesLayerP 1 aligned 1 s op
  /-- the same nodes on every layer -/
  nodeLayers : ∀ u, HasNodeLayer 1 aligned ops' u ↔ HasNodeLayer 1 aligned ops u
  /-- the nodes are those that are on a layer -/
  nodes : ∀ x, Happened (NamesNodeP 1 aligned x) ops' ↔ ∃ s, HasNodeLayer 1 aligned ops [x, s]
  /-- `f s` is a permutation of the nodes of the layer -/
  perm : ∀ s, Set.BijOn (f s) {x | HasNodeLayer 1 aligned ops [x, s]} {x | HasNodeLayer 1 aligned ops [x, s]}
  /-- it maps the links of the layer to those of the result, with the same weights -/
  link : ∀ s i j, HasNodeLayer 1 aligned ops [i, s] → HasNodeLayer 1 aligned ops [j, s] →
    readP 1 directed aligned ops' [s] (f s i) (f s j) = readP 1 directed aligned ops [s] i j
  noself : NoIntraSelf ops → NoIntraSelf ops'

end Pymnet.Spec
