import Verif.Model.Transforms
import Mathlib.Algebra.Field.Defs

/-!
Model of `GCD` and `GCD_matrix` of `/repo/pymnet/graphlets/graphlet_measures.py` (228-278). Numbers are exact. The
function `math.sqrt` is a parameter. `GCM` (208-225) is not modelled: it calls `scipy.stats.spearmanr`.
-/

namespace Pymnet

open Py

/-- A two-dimensional numpy array: the rows, all of the length `cols`. -/
structure Arr2 (K : Type) where
  rows : List (List K)
  cols : Nat
  rect : ∀ r ∈ rows, r.length = cols

namespace Arr2

variable {K : Type}

/-- `gcm.shape`. -/
def shape (m : Arr2 K) : Nat × Nat := (m.rows.length, m.cols)

/-- `gcm[i]`. -/
def row (m : Arr2 K) (i : Nat) : Except Err (List K) :=
  match m.rows[i]? with
  | none => .error .indexError
  | some r => .ok r

/-- `gcm[i][j]`. -/
def entry (m : Arr2 K) (i j : Nat) : Except Err K := do
  let r ← m.row i
  match r[j]? with
  | none => .error .indexError
  | some x => .ok x

end Arr2

variable {K : Type} [Field K]

/-- the body of the inner loop of `GCD` (graphlet_measures.py 247-248). -/
def gcdStep (a b : Arr2 K) (i : Nat) (s : K) (j : Nat) : Except Err K := do
  let x ← a.entry i j
  let y ← b.entry i j
  pure (s + (x - y) ^ 2)

/-- the body of the outer loop of `GCD`: `for j in range(i+1, len(gcm1[i]))` (graphlet_measures.py 247-248). -/
def gcdRow (a b : Arr2 K) (s : K) (i : Nat) : Except Err K := do
  let r ← a.row i
  forE (gcdStep a b i) (List.range' (i + 1) (r.length - (i + 1))) s

/-- `GCD` (graphlet_measures.py 228-252); `sqrt` is `math.sqrt`. -/
def gcdDist (sqrt : K → K) (a b : Arr2 K) : Except Err K :=
  if a.shape = b.shape then do
    let s ← forE (gcdRow a b) (List.range a.rows.length) 0
    pure (sqrt s)
  else .error .assertionError

/-- one row of `GCD_matrix` (graphlet_measures.py 271-274). -/
def gcdMatrixRow (sqrt : K → K) (ms : List (Arr2 K)) (a : Arr2 K) : Except Err (List K) :=
  forE (fun t b => do
    let d ← gcdDist sqrt a b
    pure (t ++ [d])) ms []

/-- `GCD_matrix` (graphlet_measures.py 255-278). -/
def gcdMatrix (sqrt : K → K) (ms : List (Arr2 K)) : Except Err (List (List K)) :=
  forE (fun t a => do
    let r ← gcdMatrixRow sqrt ms a
    pure (t ++ [r])) ms []

end Pymnet
