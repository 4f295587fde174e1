import Verif.Spec.Diagnostics
import Mathlib.Logic.Relation

/-! Shortest paths between nodes of which only some aspects are given. -/

namespace Pymnet.Spec

open Pymnet

variable {α W : Type} [DecidableEq α] [DecidableEq W]

/-- A source gives a name (or `None`) for every aspect, and `None` for the aspects in `aasp`. -/
def SourceFor (d : Nat) (aasp : List Nat) (s : List (Option α)) : Prop :=
  d + 1 ≤ s.length ∧ ∀ a ∈ aasp, a ≤ d → s[a]? = some none

/-- The node-layers at which the paths start: those that have a link and agree with one of the sources in
all aspects outside `aasp`. -/
def Starts (NL : List α → Prop) (noEdge : W) (R : List α → List α → W) (aasp : List Nat) (sources : List (List (Option α)))
    (nl : List α) : Prop :=
  (∃ b, LinkStep NL noEdge R nl b ∨ LinkStep NL noEdge R b nl) ∧
    ∃ s ∈ sources, ∀ (i : Nat) x, i ∉ aasp → nl[i]? = some x → s[i]? = some (some x)

/-- `x` is at distance `t` from the sources, and no node-layer that differs from `x` only in the aspects
`aasp` is closer. -/
def Nearest [Zero W] [Add W] [LE W] (Step : List α → List α → Prop) (w : List α → List α → W) (src : List (List α))
    (aasp : List Nat) (x : List α) (t : W) : Prop :=
  IsDist Step w src x t ∧ ∀ y t', reduce aasp y = reduce aasp x → IsDist Step w src y t' → t ≤ t'

/-- A step of a shortest walk to a node-layer that is nearest among those that differ from it only in the
aspects `aasp`; or the self-pair of a source from which such a walk starts (if its value is not -1, which
stands for no link in the forest). -/
def Pruned [Zero W] [Add W] [LE W] [One W] [Neg W] (Step : List α → List α → Prop) (w : List α → List α → W)
    (src : List (List α)) (aasp : List Nat) (a b : List α) : Prop :=
  ((a = b ∧ a ∈ src ∧ w a a ≠ -1) ∨ OnShortest Step w src a b) ∧
    ∃ x t, Nearest Step w src aasp x t ∧ Relation.ReflTransGen (OnShortest Step w src) b x

end Pymnet.Spec
