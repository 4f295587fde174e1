import Verif.Spec.Transforms
import Verif.Model.Diagnostics
import Mathlib.Algebra.Order.Ring.Defs

/-! Walks and distances in a weighted graph, and what is assumed of a priority queue. -/

namespace Pymnet.Spec

open Pymnet

variable {V W : Type}

/-- There is a walk from `a` to `b` along the steps `Step` of total weight `ℓ`. -/
inductive Walk [Zero W] [Add W] (Step : V → V → Prop) (w : V → V → W) : V → V → W → Prop
  | nil (a : V) : Walk Step w a a 0
  | snoc {a b c : V} {ℓ : W} : Walk Step w a b ℓ → Step b c → Walk Step w a c (ℓ + w b c)

/-- Some walk of weight `ℓ` leads from a source to `x`. -/
def Reaches [Zero W] [Add W] (Step : V → V → Prop) (w : V → V → W) (sources : List V) (x : V) (ℓ : W) : Prop :=
  ∃ s ∈ sources, Walk Step w s x ℓ

/-- `t` is the distance of `x` from the sources: the least weight of a walk. -/
def IsDist [Zero W] [Add W] [LE W] (Step : V → V → Prop) (w : V → V → W) (sources : List V) (x : V) (t : W) : Prop :=
  Reaches Step w sources x t ∧ ∀ ℓ, Reaches Step w sources x ℓ → t ≤ ℓ

/-- The step from `a` to `b` is the last step of a shortest walk from the sources to `b`. -/
def OnShortest [Zero W] [Add W] [LE W] (Step : V → V → Prop) (w : V → V → W) (sources : List V) (a b : V) : Prop :=
  Step a b ∧ ∃ ℓ, Reaches Step w sources a ℓ ∧ IsDist Step w sources b (ℓ + w a b)

/-- `x` lies on a closed walk with at least one step and total weight zero. -/
def OnZeroCycle [Zero W] [Add W] (Step : V → V → Prop) (w : V → V → W) (x : V) : Prop :=
  ∃ y ℓ, Step x y ∧ Walk Step w y x ℓ ∧ w x y + ℓ = 0

/-- There is a link from the node-layer `a` to the node-layer `b`. -/
def LinkStep {α W : Type} (NL : List α → Prop) (noEdge : W) (R : List α → List α → W) (a b : List α) : Prop :=
  NL a ∧ NL b ∧ R a b ≠ noEdge

/-- What is assumed of `heapq.heappop`: it removes one entry, and no other entry has a smaller first
component. Ties may be broken in any way. -/
def PopsLeast [LE W] {α : Type} (pop : List (QEntry α W) → QEntry α W × List (QEntry α W)) : Prop :=
  ∀ q, q ≠ [] → ((pop q).1 :: (pop q).2).Perm q ∧ ∀ e ∈ q, (pop q).1.1 ≤ e.1

end Pymnet.Spec
