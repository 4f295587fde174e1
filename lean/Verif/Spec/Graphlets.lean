import Mathlib.Data.Finset.Card
import Mathlib.Data.Finset.Basic

/-! Partitions of a set. -/

namespace Pymnet.Spec

variable {α : Type}

/-- `P` is a partition of `s`: the blocks are non-empty parts of `s`, and every element is in exactly one of
them. -/
structure Partition (P : Finset (Finset α)) (s : Finset α) : Prop where
  nonempty : ∀ B ∈ P, B.Nonempty
  inside : ∀ B ∈ P, B ⊆ s
  one : ∀ x ∈ s, ∃! B, B ∈ P ∧ x ∈ B

/-- a list of lists as a set of sets -/
def blocks [DecidableEq α] (p : List (List α)) : Finset (Finset α) := (p.map List.toFinset).toFinset

end Pymnet.Spec
