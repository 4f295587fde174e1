import Verif.Model.Creators
import Verif.Spec.Models
import Verif.Spec.Transforms

/-! Small specifications of the generators of `sampling/creators.py` and of `geo` and `ws`. -/

namespace Pymnet.Spec

variable {α W : Type}

/-- Node `n` is listed for layer `i`. -/
def ListedOn (ix : Nat → α) (nodes : List (List α)) (nl : List α) : Prop := ∃ i ns n, nodes[i]? = some ns ∧ n ∈ ns ∧ nl = [n, ix i]

/-- The link weights `R` on the node-layers in the list: those at positions `i > j` are linked, with weight 1 and in both directions,
exactly if `L i j`; nothing else is linked. -/
structure LinkedPairs [Zero W] [One W] (order : List (List α)) (R : List α → List α → W) (L : Nat → Nat → Prop) : Prop where
  linked : ∀ i j u v, j < i → order[i]? = some u → order[j]? = some v → L i j → R u v = 1 ∧ R v u = 1
  unlinked : ∀ i j u v, j < i → order[i]? = some u → order[j]? = some v → ¬ L i j → R u v = 0 ∧ R v u = 0
  noself : ∀ u, R u u = 0
  outside : ∀ u v, ¬ (u ∈ order ∧ v ∈ order) → R u v = 0

/-- With `n` points in the unit square about `m` pairs (1.1 times as many, without regard to the border) are at a distance below `r`. -/
def IsRadius (n m : Nat) (r : ℝ) : Prop := 0 ≤ r ∧ Real.pi * r ^ 2 * ((n : ℝ) * (n - 1) / 2) = 1.1 * m

/-- What networkx promises for a graph: links between different nodes of the graph. -/
def IsGraph {P : Type} (g : GeoGraph α P) : Prop := ∀ e ∈ g.edges, e.1 ∈ g.nodes ∧ e.2 ∈ g.nodes ∧ e.1 ≠ e.2

/-- The smallest `k` with `2m ≤ nk`. -/
def IsNeighbors (n m k : Nat) : Prop := 2 * m ≤ n * k ∧ ∀ k', 2 * m ≤ n * k' → k ≤ k'

end Pymnet.Spec
