import Verif.Spec.Isom
import Verif.Spec.Plex
import Mathlib.Logic.Relation

/-!
Small specification of graphlets: connected multiplex networks with one aspect (node-aligned, undirected), in terms of the
calls that make them.
-/

namespace Pymnet.Spec

open Pymnet

variable {α W : Type}

/-- What there is in a multiplex network with one aspect: nodes, layers, and pairs of nodes linked on a layer. -/
structure Multigraph (α : Type) where
  node : α → Prop
  layer : α → Prop
  link : α → α → α → Prop

/-- The nodes, layers and links of the undirected, node-aligned multiplex network made by the calls `ops`. -/
def shown [Zero W] (ops : List (POp α W)) : Multigraph α where
  node x := Happened (NamesNodeP 1 true x) ops
  layer x := ∃ op ∈ ops, NamesLayerP 1 true 1 x op
  link x i j := i ≠ j ∧ readP 1 false true ops [x] i j ≠ 0

/-- Every node in `N` is reached from every other one, through nodes in `N`. -/
def LinkConnected (N : α → Prop) (E : α → α → Prop) : Prop :=
  ∀ i j, N i → N j → Relation.ReflTransGen (fun a b => N a ∧ N b ∧ E a b) i j

/-- A graphlet with `m` nodes and `nl` of the given layers: any two nodes are connected by links on its layers. -/
structure Graphlet (m nl : Nat) (layers : List α) (g : Multigraph α) : Prop where
  nodes : ∃ l : List α, l.Nodup ∧ l.length = m ∧ ∀ x, g.node x ↔ x ∈ l
  layer : ∃ l : List α, l.Sublist layers ∧ l.length = nl ∧ ∀ x, g.layer x ↔ x ∈ l
  connected : LinkConnected g.node fun a b => ∃ x, g.layer x ∧ g.link x a b

/-- The form in which `graphlets` returns a graphlet with `m` nodes: the calls `ops` make an undirected, node-aligned
multiplex network with coupling `c`, whose nodes are the first `m` numbers, with weights 0 and 1 and no self-links. -/
structure Generated [Zero W] [One W] (idx : Nat → α) (m nl : Nat) (layers : List α) (ops : List (POp α W)) : Prop where
  nodes : ∀ x, (shown ops).node x ↔ ∃ k < m, x = idx k
  layer : ∃ l : List α, l.Sublist layers ∧ l.length = nl ∧ ∀ x, (shown ops).layer x ↔ x ∈ l
  connected : LinkConnected (shown ops).node fun a b => ∃ x, (shown ops).layer x ∧ (shown ops).link x a b
  weights : ∀ x i j, readP 1 false true ops [x] i j = 0 ∨ readP 1 false true ops [x] i j = 1
  noself : NoIntraSelf ops

/-- A coupling between layers for which isomorphism of the networks can be decided by the library: none, or categorical or
ordinal with a weight other than 0; in the latter case the layers are integers. -/
def GoodCoupling [Zero W] [IntNames α] (layers : List α) : Coupling α W → Prop
  | .categorical w => w ≠ 0
  | .ordinal w => w ≠ 0 ∧ ∀ x ∈ layers, (IntNames.up x).isSome = true ∧ (IntNames.down x).isSome = true
  | .uncoupled _ => True
  | .net _ => False

/-- The networks made by `ops` and by `ops'` are isomorphic; only the names of the allowed aspects (0: the nodes, 1: the
layers) may change. Links are those within the layers and those given by the coupling. -/
def Isomorphic [Zero W] [IntNames α] (c : Coupling α W) (allowed : Option (List Nat)) (ops ops' : List (POp α W)) : Prop :=
  ∃ f, Isomorphism 1 (mayChange 1 allowed)
    (fun a x => if a = 0 then (shown ops).node x else (shown ops).layer x) (HasNodeLayer 1 true ops) (Linked [c] false true ops)
    (fun a x => if a = 0 then (shown ops').node x else (shown ops').layer x) (HasNodeLayer 1 true ops')
    (Linked [c] false true ops') f

end Pymnet.Spec
