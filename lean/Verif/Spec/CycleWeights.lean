import Verif.Spec.Cycles

/-! The elementary cycles of a weighted multiplex network: closed walks counted with the product of the weights of
their links. -/

namespace Pymnet.Spec

open Classical

variable {V L K : Type} [Field K]

/-- The total weight of the walks from `u` to `v` in `X` with one step of each of the given kinds, in this order; a
walk weighs the product of its steps. -/
noncomputable def weigh {U : Type} (X : Finset U) : List (U → U → K) → U → U → K
  | [], u, v => if u = v then 1 else 0
  | [s], u, v => s u v
  | s :: ss, u, v => ∑ w ∈ X, s u w * weigh X ss w v

/-- Step `a`: along a link within a layer; it weighs as much as the link. -/
noncomputable def alongA (T : V → V → L → K) (u v : V × L) : K := if u.2 = v.2 then T u.1 v.1 u.2 else 0

/-- Step `c`: to the same node in another layer. -/
noncomputable def alongC (u v : V × L) : K := if stepC u v then 1 else 0

/-- Step `f`: to another node of the same layer, linked or not. -/
noncomputable def alongF (u v : V × L) : K := if stepF u v then 1 else 0

/-- The words of the elementary 3-cycles `aaa, aacac, acaac, acaca, acacac, afa, afcac, acfac, acfca, acfcac`. -/
noncomputable def weightWords (T : V → V → L → K) : List (List (V × L → V × L → K)) :=
  let a := alongA T
  let c := alongC
  let f := alongF
  [[a, a, a], [a, a, c, a, c], [a, c, a, a, c], [a, c, a, c, a], [a, c, a, c, a, c],
   [a, f, a], [a, f, c, a, c], [a, c, f, a, c], [a, c, f, c, a], [a, c, f, c, a, c]]

/-- The total weights of the elementary 3-cycles around a node-layer. -/
noncomputable def cycleWeights (N : Finset V) (B : Finset L) (M : L → Finset V) (T : V → V → L → K) (u : V × L) : List K :=
  (weightWords T).map fun w => weigh (nodeLayers N B M) w u u

/-- The total weight of the closed walks of the given kinds. -/
noncomputable def closedTotal {U : Type} (X : Finset U) (words : List (List (U → U → K))) : K :=
  (words.map fun w => ∑ u ∈ X, weigh X w u u).sum

/-- The total weight of the walks of the given kinds that end somewhere else. -/
noncomputable def openTotal {U : Type} (X : Finset U) (words : List (List (U → U → K))) : K :=
  (words.map fun w => ∑ u ∈ X, ∑ v ∈ X, if u = v then 0 else weigh X w u v).sum

/-- A ratio that is not a number if the denominator is 0. -/
noncomputable def ratio (t d : K) : Option K := if d = 0 then none else some (t / d)

end Pymnet.Spec
