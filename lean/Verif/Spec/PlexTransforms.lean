import Verif.Spec.Plex
import Verif.Spec.Transforms

/-!
Small specification of sub-networks and renamed networks of a multiplex network, in terms of the calls that made the
network and the calls that would make the result.
-/

namespace Pymnet.Spec

open Pymnet

variable {α W : Type}

/-- Name `x` of index `a` (0 for nodes, `a ≥ 1` for the elementary layers of aspect `a`) is selected; `none` selects
all names. -/
def Chosen (sel : List (Option (List α))) (a : Nat) (x : α) : Prop :=
  ∃ o, sel[a]? = some o ∧ ∀ l, o = some l → x ∈ l

/-- All names of a node-layer are selected. -/
def ChosenNL (sel : List (Option (List α))) (u : List α) : Prop := ∀ (a : Nat) x, u[a]? = some x → Chosen sel a x

/-- All names of a layer are selected. -/
def ChosenLayer (sel : List (Option (List α))) (s : List α) : Prop := ∀ (k : Nat) x, s[k]? = some x → Chosen sel (k + 1) x

/-- `s` is one of the layers asked for: each of its names is listed, or exists in an aspect all of whose layers are
selected. -/
def Asked (aspects : Nat) (aligned : Bool) (ops : List (POp α W)) (sel : List (Option (List α))) (s : List α) : Prop :=
  s.length = aspects ∧ ∀ (k : Nat) x, s[k]? = some x →
    (∃ l, sel[k + 1]? = some (some l) ∧ x ∈ l) ∨
    (sel[k + 1]? = some none ∧ ∃ op ∈ ops, NamesLayerP aspects aligned (k + 1) x op)

open Classical in
/-- `ops'` makes the part of the network made by `ops` that is selected: nodes, elementary layers, node-layers and (if
`links`) the links between selected node-layers. In a network that is not node-aligned only nodes that are on a selected
layer are kept. -/
structure Part [Zero W] (aspects : Nat) (directed aligned : Bool) (ops : List (POp α W)) (sel : List (Option (List α)))
    (links : Bool) (ops' : List (POp α W)) : Prop where
  nodes : ∀ x, Happened (NamesNodeP aspects aligned x) ops' ↔
    if aligned then Happened (NamesNodeP aspects aligned x) ops ∧ Chosen sel 0 x
    else ∃ s, HasNodeLayer aspects aligned ops (x :: s) ∧ ChosenNL sel (x :: s)
  layers : ∀ a x, 1 ≤ a → a ≤ aspects → ((∃ op ∈ ops', NamesLayerP aspects aligned a x op) ↔
    (∃ op ∈ ops, NamesLayerP aspects aligned a x op) ∧ Chosen sel a x)
  nodeLayers : ∀ u, HasNodeLayer aspects aligned ops' u ↔ HasNodeLayer aspects aligned ops u ∧ ChosenNL sel u
  link : ∀ s i j, s.length = aspects → readP aspects directed aligned ops' s i j =
    if links = true ∧ ChosenLayer sel s ∧ Chosen sel 0 i ∧ Chosen sel 0 j then readP aspects directed aligned ops s i j else 0
  noself : NoIntraSelf ops → NoIntraSelf ops'

/-- A renamed layer: the elementary layer of aspect `a` called `x` is now called `f a x`. -/
def renamedLayer (f : Nat → α → α) (s : List α) : List α := s.mapIdx fun k x => f (k + 1) x

/-- `ops'` makes the network made by `ops` with node `x` called `f 0 x` and elementary layer `x` of aspect `a` called
`f a x`. -/
structure RenamedNet [Zero W] (aspects : Nat) (directed aligned : Bool) (ops : List (POp α W)) (f : Nat → α → α)
    (ops' : List (POp α W)) : Prop where
  nodes : ∀ y, Happened (NamesNodeP aspects aligned y) ops' ↔ ∃ x, Happened (NamesNodeP aspects aligned x) ops ∧ y = f 0 x
  layers : ∀ a y, 1 ≤ a → a ≤ aspects → ((∃ op ∈ ops', NamesLayerP aspects aligned a y op) ↔
    ∃ x, (∃ op ∈ ops, NamesLayerP aspects aligned a x op) ∧ y = f a x)
  nodeLayers : ∀ u, HasNodeLayer aspects aligned ops' u ↔ ∃ v, HasNodeLayer aspects aligned ops v ∧ u = renamed f v
  link : ∀ s i j, HasLayer aspects aligned ops (.ofList s) → Happened (NamesNodeP aspects aligned i) ops →
    Happened (NamesNodeP aspects aligned j) ops →
    readP aspects directed aligned ops' (renamedLayer f s) (f 0 i) (f 0 j) = readP aspects directed aligned ops s i j
  onlyLinks : ∀ t a b, t.length = aspects → readP aspects directed aligned ops' t a b ≠ 0 →
    ∃ s i j, HasLayer aspects aligned ops (.ofList s) ∧ Happened (NamesNodeP aspects aligned i) ops ∧
      Happened (NamesNodeP aspects aligned j) ops ∧ t = renamedLayer f s ∧ a = f 0 i ∧ b = f 0 j
  noself : NoIntraSelf ops'

end Pymnet.Spec
