import Verif.Spec.Net
import Verif.Model.Transforms
import Mathlib.Algebra.BigOperators.Group.Finset.Basic

/-! What a user sees of a general multilayer network, used to state what the transforms return. -/

namespace Pymnet.Spec

open Pymnet

variable {α W : Type} [DecidableEq α] [DecidableEq W]

/-- What a user sees of a `MultilayerNetwork`: it has the given number of aspects, `noEdge` value,
directedness and alignment; it has been produced by public calls on a new network (so everything proved
about such networks applies to it); the elementary layers of aspect `a` (nodes for `a = 0`) are the names
satisfying `S a`, the node-layers are the tuples satisfying `NL`, each listed once; reading a link gives
the value `R`. -/
structure Looks (m : MNet α W) (aspects : Nat) (noEdge : W) (directed aligned : Bool)
    (S : Nat → α → Prop) (NL : List α → Prop) (R : List α → List α → W) : Prop where
  aspects_eq : m.aspects = aspects
  directed_eq : m.directed = directed
  noEdge_eq : m.noEdge = noEdge
  aligned_eq : m.fic = aligned
  reachable : ∃ ops, m = (MNet.init aspects noEdge directed aligned).run ops
  layers : ∀ a ≤ aspects, ∃ l, m.getLayers a = .ok l ∧ l.Nodup ∧ ∀ x, x ∈ l ↔ S a x
  nodeLayers : m.nodeLayers.Nodup ∧ ∀ nl, nl ∈ m.nodeLayers ↔ NL nl
  reads : ∀ item u v, Addresses aspects item u v → m.view.readItem item = .ok (.weight (R u v))

/-- All tuples of a name of each aspect. -/
def AllNodeLayers (aspects : Nat) (S : Nat → α → Prop) (nl : List α) : Prop :=
  nl.length = aspects + 1 ∧ ∀ (i : Nat) x, nl[i]? = some x → S i x

/-- A node-layer without the indices of the given aspects. -/
def reduce (asp : List Nat) (nl : List α) : List α :=
  ((List.range nl.length).filter fun i => i ∉ asp).filterMap fun i => nl[i]?

/-- The rule of `threshold`: does an edge of weight `w` stay? -/
def Keeps [LE W] [LT W] (t w : W) : Method → Prop
  | .ge => w ≥ t
  | .le => w ≤ t
  | .gt => w > t
  | .lt => w < t
  | .invalid => False

/-- All indices of the node-layer are in the selection; an aspect for which `None` is given selects
everything. -/
def Selected (sel : List (Option (List α))) (nl : List α) : Prop :=
  ∀ (i : Nat) x l, nl[i]? = some x → sel[i]? = some (some l) → x ∈ l

/-- The new name of the node (`k = 0`) or elementary layer of aspect `k` called `x`: the entry of the given
map if there is one, otherwise `x`. -/
def newName (nodeNames : Py.Dict α α) (layerNames : List (Py.Dict α α)) (k : Nat) (x : α) : α :=
  match (nodeNames :: layerNames)[k]? with
  | none => x
  | some d => (Py.Dict.get d x).getD x

/-- A renamed node-layer. -/
def renamed (f : Nat → α → α) (nl : List α) : List α := nl.mapIdx f

/-- Node (`k = 0`) or elementary layer of aspect `k` named in a history. -/
def HasName (aspects : Nat) (aligned : Bool) (ops : List (Op α W)) (k : Nat) (x : α) : Prop :=
  if k = 0 then ∃ op ∈ ops, NamesNode aspects x op
  else ∃ op ∈ ops, NamesLayer aspects (decide (aspects = 0) || aligned) k x op

/-- Node-layers after a history. -/
def HasNodeLayerG (aspects : Nat) (aligned : Bool) (ops : List (Op α W)) (nl : List α) : Prop :=
  if aspects = 0 ∨ aligned = true then AllNodeLayers aspects (HasName aspects aligned ops) nl
  else ∃ op ∈ ops, NamesNodeLayer aspects nl op

/-- The total weight of the edges from a node-layer that reduces to `u` to a node-layer that reduces to
`w`. In an undirected network with `u = w` every edge between different node-layers occurs twice. -/
def collapsed [AddCommMonoid W] (nls : Finset (List α)) (asp : List Nat) (R : List α → List α → W) (u w : List α) : W :=
  ∑ a ∈ nls with reduce asp a = u, ∑ b ∈ nls with reduce asp b = w, R a b

/-- Nodes and elementary layers of an aggregated network: all nodes, the names of the links that are kept,
and, if the network is not node-aligned, the names of all node-layers. -/
def AggNames [Zero W] (asp : List Nat) (selfEdges al : Bool) (S : Nat → α → Prop) (NL : List α → Prop)
    (R : List α → List α → W) (k : Nat) (x : α) : Prop :=
  (k = 0 ∧ S 0 x) ∨
    (∃ a b, NL a ∧ NL b ∧ R a b ≠ 0 ∧ (selfEdges = true ∨ reduce asp a ≠ reduce asp b) ∧
      ((reduce asp a)[k]? = some x ∨ (reduce asp b)[k]? = some x)) ∨
    (al = false ∧ ∃ nl, NL nl ∧ (reduce asp nl)[k]? = some x)

/-- Node-layers of an aggregated network with `d` aspects: the reduced node-layers, or everything
in a node-aligned network. -/
def AggNodeLayers (d : Nat) (asp : List Nat) (al : Bool) (S' : Nat → α → Prop) (NL : List α → Prop) (u : List α) : Prop :=
  if d = 0 ∨ al = true then AllNodeLayers d S' u else ∃ nl, NL nl ∧ u = reduce asp nl

/-- `f` numbers the `n` names satisfying `S` in increasing order with the integers from `start` on. -/
structure Numbers [LT α] (S : α → Prop) (n : Nat) (start : Int) (f : α → Int) : Prop where
  order : ∀ x y, S x → S y → (x < y ↔ f x < f y)
  range : ∀ i, (∃ x, S x ∧ f x = i) ↔ start ≤ i ∧ i < start + n

/-- A dict from the names satisfying `S` to their numbers, and nothing else; `idx i` is the integer `i`
as a name. -/
def NameToNumber (idx : Int → α) (S : α → Prop) (f : α → Int) (D : Py.Dict α α) : Prop :=
  ∀ x y, Py.Dict.get D x = some y ↔ S x ∧ y = idx (f x)

/-- A dict from the numbers to the names satisfying `S`. -/
def NumberToName (idx : Int → α) (S : α → Prop) (f : α → Int) (D : Py.Dict α α) : Prop :=
  ∀ x y, Py.Dict.get D y = some x ↔ S x ∧ y = idx (f x)

end Pymnet.Spec
