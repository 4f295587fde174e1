import Verif.Spec.Models
import Verif.Model.Conf

/-! Specification of the configuration models: degrees of simple networks. -/

namespace Pymnet.Spec

open Py Models

variable {α W : Type} [DecidableEq α] [Zero W] [One W]

/-- The weights are those of a simple undirected network (weights 0 and 1, no self-links) in which every node `a` has exactly
`deg a` neighbours. -/
structure HasDegrees (R : α → α → W) (deg : α → Nat) : Prop where
  weights : ∀ a b, R a b = 0 ∨ R a b = 1
  symm : ∀ a b, R a b = R b a
  noSelf : ∀ a, R a a = 0
  degree : ∀ a, ∃ L : List α, L.Nodup ∧ (∀ b, b ∈ L ↔ R a b = 1) ∧ L.length = deg a

/-- The nodes of a layer with given degrees: those that are keys, or as many integers as the distribution has nodes. -/
def nodesOf (ix : Nat → α) : Degs α → α → Prop
  | .nodes d, x => x ∈ d.map Prod.fst
  | .dist d, x => ∃ i < (d.map Prod.snd).sum, x = ix i

/-- The sum of the degrees. -/
def degreeSum : Degs α → Nat
  | .nodes d => (d.map Prod.snd).sum
  | .dist d => (d.map fun x => x.1 * x.2).sum

/-- The number of nodes. -/
def nodeCount : Degs α → Nat
  | .nodes d => d.length
  | .dist d => (d.map Prod.snd).sum

/-- The dictionary has each key once (as all dictionaries). -/
def DistinctKeys : Degs α → Prop
  | .nodes d => (d.map Prod.fst).Nodup
  | .dist d => (d.map Prod.fst).Nodup

/-- The weights are those of a simple network with the given degrees: the degree of each node, or for each degree the number
of nodes that have it. -/
def Fulfils (ix : Nat → α) (degs : Degs α) (R : α → α → W) : Prop :=
  match degs with
  | .nodes d => HasDegrees R fun x => (Dict.get d x).getD 0
  | .dist d => ∃ deg : α → Nat, HasDegrees R deg ∧ (∀ x, ¬ nodesOf ix (.dist d) x → deg x = 0) ∧
      ∀ k, ((List.range (d.map Prod.snd).sum).filter fun i => deg (ix i) = k).length = (Dict.get d k).getD 0

/-- All entries are degrees of nodes, or all are distributions (one call has one `degstype`). -/
def SameKind (l : List (Degs α)) : Prop := (∀ d ∈ l, ∃ x, d = .nodes x) ∨ (∀ d ∈ l, ∃ x, d = .dist x)

/-- The degree of a node in a dictionary of overlap degrees (`0` if it is not given). -/
def overlapDegree (d : Dict α Nat) (a : α) : Nat := (Dict.get d a).getD 0

/-- `a` has exactly `k` neighbours to which it is linked on all layers in `comb` and on no other layer. -/
def HasOverlap (R : α → α → α → W) (comb : List α) (a : α) (k : Nat) : Prop :=
  ∃ L : List α, L.Nodup ∧ (∀ b, b ∈ L ↔ ∀ s, R s a b = 1 ↔ s ∈ comb) ∧ L.length = k

end Pymnet.Spec
