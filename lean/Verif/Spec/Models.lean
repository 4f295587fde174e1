import Verif.Model.Models
import Mathlib.Data.Set.Card

/-! Specification of the network generators: what the returned network looks like to the user. -/

namespace Pymnet.Spec

open Py

variable {α W : Type} [DecidableEq α] [DecidableEq W]

/-- What the user sees of a general undirected network without aspects: it can be reached by public calls (so every theorem
about such networks applies to it), the nodes are the names satisfying `S`, each listed once, and reading a link gives the
value `R`. -/
structure LooksMono [Zero W] (m : MNet α W) (S : α → Prop) (R : α → α → W) : Prop where
  reachable : ∃ ops, m = (MNet.init 0 0 false true).run ops
  nodes : ∃ l, m.getLayers 0 = .ok l ∧ l.Nodup ∧ ∀ x, x ∈ l ↔ S x
  reads : ∀ i j, m.view.readItem [i, j] = .ok (.weight (R i j))

/-- What the user sees of an undirected multiplex network with one aspect: its nodes `S`, its layers `LY`, the nodes `NL n L`
of layer `L`, each listed once, and the weights `R L i j` of the links of layer `L`, read as `net[i,j,L]` or (also for
`i=j`) as `net.A[L][i,j]`. -/
structure LooksPlex [Zero W] [IntNames α] (p : MPlex α W) (coupling : Coupling α W) (aligned : Bool) (S LY : α → Prop)
    (NL : α → α → Prop) (R : α → α → α → W) : Prop where
  reachable : ∃ ops, p = (MPlex.init [coupling] false 0 aligned).run ops
  nodes : ∃ l, p.iterNodes none = .ok l ∧ l.Nodup ∧ ∀ x, x ∈ l ↔ S x
  layers : p.iterLayers.Nodup ∧ ∀ L, L ∈ p.iterLayers ↔ ∃ s, L = .el s ∧ LY s
  layerNodes : ∀ s, LY s → ∃ l, p.iterNodes (some (.el s)) = .ok l ∧ l.Nodup ∧ ∀ x, x ∈ l ↔ NL x s
  reads : ∀ s, LY s → ∀ i j, i ≠ j → p.view.readItem [i, j, s] = .ok (.weight (R s i j))
  intra : ∀ s, LY s → ∃ c, p.child? (.el s) = some c ∧ ∀ i j, c.view.readItem [i, j] = .ok (.weight (R s i j))

/-- The links with weights `R` on nodes `S` are exactly the pairs in the list, with weight 1 and without self-links; the list
holds each link once, in one of its two orientations. -/
structure SimpleLinks [Zero W] [One W] (S : α → Prop) (R : α → α → W) (L : List (α × α)) : Prop where
  nodup : L.Nodup
  once : ∀ a b, (a, b) ∈ L → (b, a) ∉ L
  inside : ∀ a b, (a, b) ∈ L → S a ∧ S b ∧ a ≠ b
  weights : ∀ a b, R a b = if (a, b) ∈ L ∨ (b, a) ∈ L then 1 else 0

/-- Row by row enumeration of the pairs `w < v`. -/
def pairIndex (v w : Nat) : Nat := v * (v - 1) / 2 + w

/-- The number of pairs that are skipped for the random number `r` if every pair is linked with probability `p`: the interval
of the numbers `r` in [0,1) with `s` skips has the length `p*(1-p)^s`. -/
def Skips (p r : ℝ) (s : Nat) : Prop := 1 - (1 - p) ^ s ≤ r ∧ r < 1 - (1 - p) ^ (s + 1)

/-- The links between the nodes of the list are those of the pairs whose index satisfies `I`, in both directions and with
weight 1; there are no other links. -/
structure LinkedAt [Zero W] [One W] (nodes : List α) (R : α → α → W) (I : Nat → Prop) : Prop where
  linked : ∀ v w a b, w < v → nodes[v]? = some a → nodes[w]? = some b → I (pairIndex v w) → R a b = 1 ∧ R b a = 1
  unlinked : ∀ v w a b, w < v → nodes[v]? = some a → nodes[w]? = some b → ¬ I (pairIndex v w) → R a b = 0 ∧ R b a = 0
  outside : ∀ a b, ¬ (a ∈ nodes ∧ b ∈ nodes ∧ a ≠ b) → R a b = 0

/-- The pairs that the random numbers select, among `N` pairs each of which is to be linked with probability `p`: `skips` are
the numbers of pairs passed over before each selected one. Only the numbers in `used` are used: they lead past the end. -/
def Selects (p : ℝ) (N : Nat) (rs : List ℝ) (I : Nat → Prop) : Prop :=
  if p = 1 then ∀ e < N, I e
  else ∃ used rest skips, rs = used ++ rest ∧ List.Forall₂ (Skips p) used skips ∧ N ≤ (skips.map (· + 1)).sum ∧
    ∀ e < N, I e ↔ ∃ k < skips.length, e + 1 = ((skips.take (k + 1)).map (· + 1)).sum

/-- The names of the layers: a number `k` of layers means the layers `0,...,k-1`. -/
def layerNames (ix : Nat → α) : Nat ⊕ List α → List α
  | .inl k => (List.range k).map ix
  | .inr ls => ls

/-- `u` is the node-layer of node `a` on the `i`-th layer, `v` that of node `b` on the `j`-th layer, and `a < b`. -/
def Crosses (ix : Nat → α) (n : Nat) (layers : List α) (u v : List α) (i j a b : Nat) : Prop :=
  a < b ∧ b < n ∧ ∃ s t, layers[i]? = some s ∧ layers[j]? = some t ∧ u = [ix a, s] ∧ v = [ix b, t]

/-- A network grown by attachment, on one layer with weights `R`: `T i` are the nodes that node `i` attaches to when it
enters. These are `m` distinct earlier nodes, and none if there are fewer than `m` earlier nodes; the links are exactly
these, in both directions and with weight 1. -/
structure Attaches [Zero W] [One W] (ix : Nat → α) (n m : Nat) (R : α → α → W) (T : Nat → List Nat) : Prop where
  nodup : ∀ i < n, (T i).Nodup
  earlier : ∀ i < n, ∀ j ∈ T i, j < i
  number : ∀ i < n, (T i).length = if m ≤ i then m else 0
  linked : ∀ i < n, ∀ j ∈ T i, R (ix i) (ix j) = 1 ∧ R (ix j) (ix i) = 1
  unlinked : ∀ a b, (∀ i < n, ∀ j ∈ T i, ¬ (a = ix i ∧ b = ix j) ∧ ¬ (a = ix j ∧ b = ix i)) → R a b = 0

/-- The combinations of two or more layers that contain the layer `s`, each with the number `int(round(p*edges))`. -/
def combinations (ps : List (List α × Int)) (s : α) : List (List α × Int) :=
  ps.filter fun c => 1 < c.1.length ∧ s ∈ c.1

/-- What is left of the `edges` of a layer after its combinations have taken theirs. -/
def remaining (edges : Int) (ps : List (List α × Int)) (s : α) : Int :=
  edges - ((combinations ps s).map Prod.snd).sum

end Pymnet.Spec
