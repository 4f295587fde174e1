import Verif.Spec.OrbitCounts

/-!
Small specification of the coefficients of orbit equations: ways of covering a network by two sets of nodes.
-/

namespace Pymnet.Spec

open Pymnet

variable {α W : Type} [DecidableEq α]

/-- The pairs of sets that cover the nodes of the network made by `ops` and have `k` nodes in common, among them `v`, such that `v` has in
one set the role of node `o1` of the network made by `ops1`, in the other the role of node `o2` of the network made by `ops2`. -/
def Coverings [Zero W] [IntNames α] (c : Coupling α W) (allowed : Option (List Nat)) (ops : List (POp α W)) (v : α) (k : Nat)
    (ops1 : List (POp α W)) (o1 : α) (ops2 : List (POp α W)) (o2 : α) : Set (Finset α × Finset α) :=
  {p | v ∈ p.1 ∧ v ∈ p.2 ∧ (∀ x, (shown ops).node x ↔ x ∈ p.1 ∨ x ∈ p.2) ∧ (p.1 ∩ p.2).card = k ∧
    PlaysRole c allowed ops p.1 v ops1 o1 ∧ PlaysRole c allowed ops p.2 v ops2 o2}

end Pymnet.Spec
