import Verif.Py.Dict
import Mathlib.Algebra.Order.Field.Basic

/-! Vocabulary of the properties of the layouts and figures of `pymnet.visuals`. It does not mention the model. -/

namespace Pymnet.Spec

open Py

variable {κ K : Type} [DecidableEq κ] [Field K] [LinearOrder K]

/-- All coordinates are between 0 and 1, and both bounds are reached, on both axes. -/
structure FillsUnit (coords : Dict κ (K × K)) : Prop where
  inside : ∀ k x y, Dict.get coords k = some (x, y) → (0 ≤ x ∧ x ≤ 1) ∧ 0 ≤ y ∧ y ≤ 1
  left : ∃ k y, Dict.get coords k = some (0, y)
  right : ∃ k y, Dict.get coords k = some (1, y)
  bottom : ∃ k x, Dict.get coords k = some (x, 0)
  top : ∃ k x, Dict.get coords k = some (x, 1)

/-- The same keys have coordinates, and the new ones arise from the old ones by stretching and shifting both axes. -/
def Rescales (old new : Dict κ (K × K)) : Prop :=
  Dict.keys new = Dict.keys old ∧
  ∃ a b c d : K, 0 < a ∧ 0 < c ∧ ∀ k x y, Dict.get old k = some (x, y) → Dict.get new k = some (a * x + b, c * y + d)

/-- The keys `P` keep their relative positions: their new coordinates arise from the old ones by stretching and shifting both axes. -/
def KeepsShape (P : κ → Prop) (old new : Dict κ (K × K)) : Prop :=
  ∃ a b c d : K, 0 < a ∧ 0 < c ∧ ∀ k x y, P k → Dict.get old k = some (x, y) → Dict.get new k = some (a * x + b, c * y + d)

end Pymnet.Spec
