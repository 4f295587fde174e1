import Verif.Model.Isom
import Mathlib.Data.Set.Function

/-! Isomorphisms of multilayer networks and of coloured graphs. -/

namespace Pymnet.Spec

open Py Pymnet

variable {α : Type}

/-- A multilayer permutation applied to a node-layer: the index of aspect `a` is replaced by its image
under `f a`. -/
def applyTo (f : Nat → α → α) (nl : List α) : List α := nl.mapIdx f

/-- `f` is an isomorphism from one network with `d` aspects to another in which only the names of the `allowed`
aspects (0: the nodes) may change: in the allowed aspects it is a bijection of the elementary layers (nodes), in the
others it changes nothing; it takes the node-layers exactly to the node-layers, and links to links and only those.
`S`, `NL`, `L`: elementary layers per aspect, node-layers, existence of a link. -/
structure Isomorphism (d : Nat) (allowed : List Nat)
    (S : Nat → α → Prop) (NL : List α → Prop) (L : List α → List α → Prop)
    (S' : Nat → α → Prop) (NL' : List α → Prop) (L' : List α → List α → Prop) (f : Nat → α → α) : Prop where
  fixed : ∀ a ≤ d, a ∉ allowed → ∀ x, f a x = x
  bij : ∀ a ≤ d, a ∈ allowed → Set.BijOn (f a) {x | S a x} {x | S' a x}
  nodeLayers : ∀ u, NL' u ↔ ∃ nl, NL nl ∧ u = applyTo f nl
  links : ∀ u v, NL u → NL v → (L u v ↔ L' (applyTo f u) (applyTo f v))

/-- Two vertices are adjacent. -/
def Adj (g : CGraph) (i j : Nat) : Prop := (i, j) ∈ g.edges ∨ (j, i) ∈ g.edges

/-- `φ` is a colour preserving isomorphism of graphs. -/
structure ColorIso (g h : CGraph) (φ : Nat → Nat) : Prop where
  bij : Set.BijOn φ {i | i ∈ Dict.keys g.nodes} {i | i ∈ Dict.keys h.nodes}
  color : ∀ i ∈ Dict.keys g.nodes, Dict.get h.nodes (φ i) = Dict.get g.nodes i
  adj : ∀ i ∈ Dict.keys g.nodes, ∀ j ∈ Dict.keys g.nodes, (Adj g i j ↔ Adj h (φ i) (φ j))

/-- Every vertex has a colour. -/
def Colored (g : CGraph) : Prop := ∀ i ∈ Dict.keys g.nodes, ∃ c, Dict.get g.nodes i = some (some c)

/-- What is assumed of the backend: for graphs with a colour on every vertex, it finds a colour preserving
isomorphism if and only if there is one. -/
def FindsIso (match? : CGraph → CGraph → Option (Dict Nat Nat)) : Prop :=
  ∀ g h, Colored g → Colored h →
    (∀ P, match? g h = some P → ∃ φ, ColorIso g h φ ∧ ∀ i ∈ Dict.keys g.nodes, Dict.get P i = some (φ i)) ∧
    (match? g h = none → ¬ ∃ φ, ColorIso g h φ)

/-- What is assumed of canonical forms: two graphs with colours have the same one iff they are isomorphic. -/
def Canonical {β : Type} (canon : CGraph → β) : Prop :=
  ∀ g h, Colored g → Colored h → (canon g = canon h ↔ ∃ φ, ColorIso g h φ)

/-- What is assumed of the generators the backend returns: they are colour preserving automorphisms, and every one is a
composition of them. -/
def FindsGens (gens : CGraph → List (Dict Nat Nat)) : Prop :=
  ∀ g, Colored g →
    (∀ P ∈ gens g, ∃ φ, ColorIso g g φ ∧ ∀ i ∈ Dict.keys g.nodes, Dict.get P i = some (φ i)) ∧
    ∀ φ, ColorIso g g φ → ∃ Ps : List (Dict Nat Nat), (∀ P ∈ Ps, P ∈ gens g) ∧
      ∀ i ∈ Dict.keys g.nodes, φ i = Ps.foldr (fun P j => (Dict.get P j).getD j) i

/-- The aspects whose names may change: the given ones, or all (`None` stands for `"all"`). -/
def mayChange (d : Nat) : Option (List Nat) → List Nat
  | none => List.range (d + 1)
  | some l => l

/-- The names of the aspects that must not change, in a node-layer. -/
def pickFixed (d : Nat) (allowed : List Nat) (nl : List α) : List α :=
  ((List.range (d + 1)).filter fun a => a ∉ allowed).filterMap fun a => nl[a]?

/-- The multilayer permutation given by dictionaries: names without entry do not change. -/
def permOf [DecidableEq α] (m : List (Dict α α)) (a : Nat) (x : α) : α :=
  ((m[a]?).bind fun d => Dict.get d x).getD x

end Pymnet.Spec
