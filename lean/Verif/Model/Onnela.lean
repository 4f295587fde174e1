import Verif.Model.Clustering

/-!
Model of `cc_onnela` of `/repo/pymnet/cc.py` (113-134), for monoplex networks. The function `x ↦ x**(1./3.)` is a
parameter: any function on the weights.
-/

namespace Pymnet.View

open Py

variable {α K : Type} [DecidableEq α] [Field K] [LinearOrder K]

/-- the body of the loop of `cc_onnela` (cc.py 128-131); `crt x` is `x**(1./3.)`. -/
def onnelaPair (v : View α K) (crt : K → K) (n : List α) (s : K) (i j : List α) : Except Err K := do
  let ij ← v.num2 i j
  if ij ≠ v.noEdge then
    let ni ← v.num2 n i
    let nj ← v.num2 n j
    pure (s + crt (ni * nj * ij))
  else pure s

/-- `cc_onnela` (cc.py 113-134). -/
def onnela (v : View α K) (crt : K → K) (n : List α) : Except Err (Option K) := do
  let maxw ← v.maxWeight
  let k ← v.itemDeg n
  if 2 ≤ k then
    let ns ← v.neighbors n
    let nom ← forPairs (v.onnelaPair crt n) ns 0
    let q ← divE (2 * nom) ((k * (k - 1) : Int) : K)
    let q ← divE q maxw
    pure (some q)
  else pure none

end Pymnet.View
