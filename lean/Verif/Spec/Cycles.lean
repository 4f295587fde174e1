import Mathlib.Algebra.BigOperators.Group.Finset.Piecewise
import Mathlib.Data.Finset.Prod
import Mathlib.Data.Int.Basic
import Mathlib.Algebra.Field.Defs
import Mathlib.Data.Int.Cast.Defs

/-! The elementary cycles of a multiplex network (Cozzo et al.) as numbers of closed walks. -/

namespace Pymnet.Spec

open Classical

variable {V L : Type}

/-- The node-layers of a network with nodes `N`, layers `B` and nodes `M l` of layer `l`. -/
noncomputable def nodeLayers (N : Finset V) (B : Finset L) (M : L → Finset V) : Finset (V × L) :=
  (N ×ˢ B).filter fun u => u.1 ∈ M u.2

/-- The number of walks from `u` to `v` in `X` whose steps are in the given relations. -/
noncomputable def walks {U : Type} (X : Finset U) : List (U → U → Prop) → U → U → Int
  | [], u, v => if u = v then 1 else 0
  | [r], u, v => if r u v then 1 else 0
  | r :: rs, u, v => ∑ w ∈ X, if r u w then walks X rs w v else 0

/-- Step `a`: along a link within a layer. -/
def stepA (link : V → V → L → Prop) (u v : V × L) : Prop := u.2 = v.2 ∧ link u.1 v.1 u.2

/-- Step `c`: to the same node in another layer. -/
def stepC (u v : V × L) : Prop := u.1 = v.1 ∧ u.2 ≠ v.2

/-- Step `f`: to another node of the same layer, linked or not. -/
def stepF (u v : V × L) : Prop := u.2 = v.2 ∧ u.1 ≠ v.1

/-- The words of the elementary 3-cycles `aaa, aacac, acaac, acaca, acacac, afa, afcac, acfac, acfca, acfcac`. -/
def cycleWords (link : V → V → L → Prop) : List (List (V × L → V × L → Prop)) :=
  [[stepA link, stepA link, stepA link],
   [stepA link, stepA link, stepC, stepA link, stepC],
   [stepA link, stepC, stepA link, stepA link, stepC],
   [stepA link, stepC, stepA link, stepC, stepA link],
   [stepA link, stepC, stepA link, stepC, stepA link, stepC],
   [stepA link, stepF, stepA link],
   [stepA link, stepF, stepC, stepA link, stepC],
   [stepA link, stepC, stepF, stepA link, stepC],
   [stepA link, stepC, stepF, stepC, stepA link],
   [stepA link, stepC, stepF, stepC, stepA link, stepC]]

/-- The numbers of elementary 3-cycles around a node-layer. -/
noncomputable def cycleCounts (N : Finset V) (B : Finset L) (M : L → Finset V) (link : V → V → L → Prop) (u : V × L) :
    List Int :=
  (cycleWords link).map fun w => walks (nodeLayers N B M) w u u

/-- The numbers of elementary 3-cycles around the node-layers that satisfy `P`. -/
noncomputable def cycleSums (N : Finset V) (B : Finset L) (M : L → Finset V) (link : V → V → L → Prop) (P : V × L → Prop) :
    List Int :=
  (cycleWords link).map fun w => ∑ u ∈ (nodeLayers N B M).filter P, walks (nodeLayers N B M) w u u

/-- From the ten numbers: the cycles within one layer, on two layers and on three layers. -/
def closedSums : List Int → Int × Int × Int
  | [aaa, aacac, acaac, acaca, acacac, _, _, _, _, _] => (aaa, aacac + acaac + acaca, acacac)
  | _ => (0, 0, 0)

/-- From the ten numbers: the same for the cycles whose second link is replaced by any step to another node. -/
def possibleSums : List Int → Int × Int × Int
  | [_, _, _, _, _, afa, afcac, acfac, acfca, acfcac] => (afa, afcac + acfac + acfca, acfcac)
  | _ => (0, 0, 0)

/-- The ten numbers with the cycles counted in both directions where the directions differ. -/
def bothWays : List Int → List Int
  | [aaa, aacac, acaac, acaca, acacac, afa, afcac, acfac, acfca, acfcac] =>
    [aaa, 2 * aacac, 2 * acaac, acaca, 2 * acacac, afa, 2 * afcac, 2 * acfac, acfca, 2 * acfcac]
  | c => c

section coefficients

variable {K : Type} [Field K]

/-- The part of the possible cycles that is closed (0 if there are none). -/
def part (t d : Int) : K := (t : K) / (d : K)

/-- The coefficients within a layer, on two layers and on three layers. -/
def awParts (counts : List Int) : K × K × K :=
  (part (closedSums counts).1 (possibleSums counts).1, part (closedSums counts).2.1 (possibleSums counts).2.1,
    part (closedSums counts).2.2 (possibleSums counts).2.2)

/-- A cycle within a layer weighs `β³`, one on two layers `βγ²`, one on three layers `γ³`. -/
def cycleWeight (β γ : K) (x : Int × Int × Int) : K := x.1 * β ^ 3 + x.2.1 * (β * γ ^ 2) + x.2.2 * γ ^ 3

/-- The alternating walker clustering coefficient with costs `β`, `γ`, or the weighted sum of its three parts. -/
def aw (w1 w2 : K) (w3 : Option K) (counts : List Int) : K :=
  match w3 with
  | none => cycleWeight w1 w2 (closedSums counts) / cycleWeight w1 w2 (possibleSums counts)
  | some w3 => w1 * (awParts counts).1 + w2 * (awParts counts).2.1 + w3 * (awParts counts).2.2

/-- The largest possible value of the coefficient. -/
def awMax (w1 w2 : K) : Option K → K
  | none => 1
  | some w3 => w1 + w2 + w3

end coefficients

end Pymnet.Spec
