import Verif.Spec.GraphletGen
import Mathlib.Data.Set.Card

/-!
Small specification of orbit counts: connected sets of nodes of a multiplex network, and the roles the nodes play in the
sub-networks they induce.
-/

namespace Pymnet.Spec

open Pymnet

variable {α W : Type}

/-- A set of nodes, any two of which are connected by links (on some layer) within the set. -/
structure ConnectedSet (g : Multigraph α) (s : Finset α) : Prop where
  nodes : ∀ x ∈ s, g.node x
  connected : LinkConnected (· ∈ s) fun a b => ∃ x, g.layer x ∧ g.link x a b

/-- In the sub-network of the nodes `s` of the network made by `ops`, node `v` has the role of node `o` of the network made
by `ops'`: an isomorphism of the two takes `v` to `o`. -/
def PlaysRole [Zero W] [IntNames α] (c : Coupling α W) (allowed : Option (List Nat)) (ops : List (POp α W)) (s : Finset α)
    (v : α) (ops' : List (POp α W)) (o : α) : Prop :=
  ∃ f, Isomorphism 1 (mayChange 1 allowed)
    (fun a x => if a = 0 then x ∈ s else (shown ops).layer x)
    (fun u => HasNodeLayer 1 true ops u ∧ ∃ i ∈ s, u.head? = some i) (Linked [c] false true ops)
    (fun a x => if a = 0 then (shown ops').node x else (shown ops').layer x) (HasNodeLayer 1 true ops')
    (Linked [c] false true ops') f ∧ f 0 v = o

/-- In how many connected sets of 2 to `n` nodes node `v` has the role of node `o` of the network made by `ops'`. -/
noncomputable def roleCount [Zero W] [IntNames α] (c : Coupling α W) (allowed : Option (List Nat)) (n : Nat)
    (ops : List (POp α W)) (v : α) (ops' : List (POp α W)) (o : α) : Nat :=
  {s : Finset α | v ∈ s ∧ 2 ≤ s.card ∧ s.card ≤ n ∧ ConnectedSet (shown ops) s ∧ PlaysRole c allowed ops s v ops' o}.ncard

/-- An automorphism of the network made by `ops` takes node `x` to node `y`. -/
def Automorphic [Zero W] [IntNames α] (c : Coupling α W) (allowed : Option (List Nat)) (ops : List (POp α W)) (x y : α) : Prop :=
  ∃ f, Isomorphism 1 (mayChange 1 allowed)
    (fun a x => if a = 0 then (shown ops).node x else (shown ops).layer x) (HasNodeLayer 1 true ops) (Linked [c] false true ops)
    (fun a x => if a = 0 then (shown ops).node x else (shown ops).layer x) (HasNodeLayer 1 true ops) (Linked [c] false true ops) f ∧
    f 0 x = y

end Pymnet.Spec
