import Verif.Spec.Transforms
import Verif.Model.Sampling
import Mathlib.Data.Finset.Lattice.Fold
import Mathlib.Data.Set.Card
import Mathlib.Logic.Relation

/-! What the requirements of `pymnet.sampling` mean, in terms of sets. -/

namespace Pymnet.Spec

open Pymnet

/-! ### Families of sets -/

/-- The elements common to all sets of a non-empty list. -/
def common {γ : Type} [DecidableEq γ] : List (Finset γ) → Finset γ
  | [] => ∅
  | [X] => X
  | X :: Y :: t => X ∩ common (Y :: t)

/-- The elements of at least one of the sets. -/
def union {γ : Type} [DecidableEq γ] (l : List (Finset γ)) : Finset γ := l.foldr (· ∪ ·) ∅

/-- The sizes of the common intersections of two or more of the sets, as documented for
`default_check_reqs`: first those of two sets, then of three, and so on, each group in the order of
`itertools.combinations`. -/
def intersectionSizes {γ : Type} [DecidableEq γ] (l : List (Finset γ)) : List Int :=
  (List.range' 2 (l.length - 1)).flatMap fun k => (combinations l k).map fun c => ((common c).card : Int)

/-! ### Induced subgraphs -/

variable {α W β : Type} [DecidableEq α] [DecidableEq W] [DecidableEq β]

/-- A graph with vertices `V` and edges `E` is connected: it has a vertex, and there is a path between any
two vertices. -/
def Connected {γ : Type} (V : γ → Prop) (E : γ → γ → Prop) : Prop :=
  (∃ x, V x) ∧ ∀ x y, V x → V y → Relation.ReflTransGen (fun a b => V a ∧ V b ∧ E a b) x y

/-- `networkx.is_connected`, applied to an undirected monoplex network: does it answer whether the network
is connected? (For the empty network it raises, which counts as `false` here.) -/
def TestsConnected (conn : MNet β W → Bool) : Prop :=
  ∀ (g : MNet β W) (z : W) (S : Nat → β → Prop) (NL : List β → Prop) (R : List β → List β → W),
    Looks g 0 z false true S NL R → (conn g = true ↔ Connected NL fun u v => R u v ≠ z)

/-- The node-layer is in the subgraph induced by some nodes and layers. -/
def Inside (nodes layers : List α) (nl : List α) : Prop := ∃ n ∈ nodes, ∃ l ∈ layers, nl = [n, l]

/-- The subgraph induced by some nodes and layers is connected, and none of its nodes and layers is empty.
`NL` are the node-layers of the network, `E` its links. -/
def Proper (NL : List α → Prop) (E : List α → List α → Prop) (nodes layers : List α) : Prop :=
  Connected (fun nl => NL nl ∧ Inside nodes layers nl) E ∧
    (∀ l ∈ layers, ∃ n ∈ nodes, NL [n, l]) ∧ ∀ n ∈ nodes, ∃ l ∈ layers, NL [n, l]

/-- The sets of two or more of `n` layers (given by their positions), in the documented order. -/
def layerSets (n : Nat) : List (List Nat) := (List.range' 2 (n - 1)).flatMap fun k => combinations (List.range n) k

/-- Comparison of the size of an intersection with the required one. -/
def Meets (it : IType) (size : Nat) (required : Int) : Prop :=
  match it with
  | .strict => (size : Int) = required
  | .lessOrEqual => (size : Int) ≤ required
  | .other => True

/-- With the layers in the order `order`, the layer at position `i` has `sizes[i]` nodes, and the
intersections of two or more layers have the required sizes (`None`: any size). -/
def FitsIn (NL : List α → Prop) (sizes : List Int) (isects : List (Option Int)) (it : IType) (nodes order : List α) : Prop :=
  (∀ (i : Nat) l, order[i]? = some l → sizes[i]? = some ({n | n ∈ nodes ∧ NL [n, l]}.ncard : Int)) ∧
    ∀ (k : Nat) c r, (layerSets order.length)[k]? = some c → isects[k]? = some (some r) →
      Meets it {n | n ∈ nodes ∧ ∀ i ∈ c, ∀ l, order[i]? = some l → NL [n, l]}.ncard r

/-- The layers can be ordered so that the requirements hold. -/
def Fits (NL : List α → Prop) (sizes : List Int) (isects : List (Option Int)) (it : IType) (nodes layers : List α) : Prop :=
  ∃ order, order.Perm layers ∧ FitsIn NL sizes isects it nodes order

/-- The layers can be ordered so that the layer at position `i` has `sizes[i]` nodes, and the number of nodes
that are on all layers is as required. -/
def FitsCommon (NL : List α → Prop) (sizes : List Int) (k : Int) (it : IType) (nodes layers : List α) : Prop :=
  (∃ order : List α, order.Perm layers ∧
    ∀ (i : Nat) l, order[i]? = some l → sizes[i]? = some ({n | n ∈ nodes ∧ NL [n, l]}.ncard : Int)) ∧
  Meets it {n | n ∈ nodes ∧ ∀ l ∈ layers, NL [n, l]}.ncard k

/-- The same nodes and the same layers, each in any order. -/
def SameSubgraph (a b : List α × List α) : Prop := a.1.Perm b.1 ∧ a.2.Perm b.2

/-- `res` lists each pair (nodes, layers) of `n` nodes and `k` layers of the network that has property `G`
exactly once, up to the order of the nodes and of the layers, and nothing else. -/
def ListsOnce (nodes layers : α → Prop) (n k : Nat) (G : List α → List α → Prop) (res : List (List α × List α)) : Prop :=
  res.Pairwise (fun a b => ¬ SameSubgraph a b) ∧
  ∀ N L : List α, (∃ r ∈ res, SameSubgraph r (N, L)) ↔
    (N.Nodup ∧ L.Nodup ∧ (∀ x ∈ N, nodes x) ∧ ∀ x ∈ L, layers x) ∧ N.length = n ∧ L.length = k ∧ G N L

/-- What is required of a sampler. It is given by what it returns for each outcome of its random draws: `coin v t` is
one draw, made with the probability `p[depth]` where `depth` is the length of `t`.

Whatever the outcomes, it returns subgraphs of `n` nodes and `k` layers of the network with property `G`, none of them
twice. And for each subgraph that has the property `P` there are `n+k-1` draws, one for each depth, such that the
subgraph is returned if and only if it has property `G` and all these draws succeed: so its probability is the
product of the entries of `p`. -/
def Samples (nodes layers : α → Prop) (n k : Nat) (P G : List α → List α → Prop)
    (run : (List α → List Nat → Bool) → Except Err (List (List α × List α))) : Prop :=
  (∀ coin, ∃ res, run coin = .ok res ∧ res.Pairwise (fun a b => ¬ SameSubgraph a b) ∧
    ∀ r ∈ res, r.1.Nodup ∧ r.2.Nodup ∧ (∀ x ∈ r.1, nodes x) ∧ (∀ x ∈ r.2, layers x) ∧ r.1.length = n ∧ r.2.length = k ∧ G r.1 r.2) ∧
  ∀ N L : List α, N.Nodup → L.Nodup → N.length = n → L.length = k → P N L →
    ∃ (v : List α) (path : List (List Nat)), path.map List.length = List.range (n + k - 1) ∧
      ∀ coin res, run coin = .ok res →
        ((∃ r ∈ res, SameSubgraph r (N, L)) ↔ G N L ∧ ∀ t ∈ path, coin v t = true)

end Pymnet.Spec
