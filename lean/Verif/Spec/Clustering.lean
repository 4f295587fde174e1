import Mathlib.Algebra.BigOperators.Group.Finset.Basic
import Mathlib.Algebra.BigOperators.Group.Finset.Piecewise
import Mathlib.Algebra.Order.Field.Rat
import Mathlib.Data.Finset.Prod

/-! Clustering coefficients of a graph and of a weighted graph on a finite set, as formulas. -/

namespace Pymnet.Spec

open Classical

variable {V L K : Type}

/-- The neighbours of `n`. -/
noncomputable def neighbours (N : Finset V) (link : V → V → Prop) (n : V) : Finset V := N.filter (link n)

/-- Ordered pairs of two different neighbours of `n`. -/
noncomputable def triads (N : Finset V) (link : V → V → Prop) (n : V) : Finset (V × V) :=
  (N ×ˢ N).filter fun p => p.1 ≠ p.2 ∧ link n p.1 ∧ link n p.2

/-- Ordered pairs of two different neighbours of `n` that are linked. -/
noncomputable def triangles (N : Finset V) (link : V → V → Prop) (n : V) : Finset (V × V) :=
  (triads N link n).filter fun p => link p.1 p.2

/-- `Σ_{j,h} W_ij W_ih W_jh`. -/
noncomputable def weightedTriangles [Field K] (N : Finset V) (w : V → V → K) (i : V) : K :=
  ∑ j ∈ N, ∑ h ∈ N, w i j * w i h * w j h

/-- `Σ_{j≠h} W_ij W_ih`. -/
noncomputable def weightedTriads [Field K] (N : Finset V) (w : V → V → K) (i : V) : K :=
  ∑ j ∈ N, ∑ h ∈ N, if j ≠ h then w i j * w i h else 0

/-- `Σ_{j,h} (W_ij + W_ih)/2 A_ij A_ih A_jh`, the sum in the coefficient of Barrat et al. -/
noncomputable def barratSum [Field K] (N : Finset V) (w : V → V → K) (i : V) : K :=
  ∑ j ∈ N, ∑ h ∈ N, if w i j ≠ 0 ∧ w i h ≠ 0 ∧ w j h ≠ 0 then (w i j + w i h) / 2 else 0

/-- Numerator of the coefficient of Barrett et al.:
`Σ_j Σ_h Σ_k ( A_ijk Σ_l ( A_ihl Σ_m A_jhm ) )`. -/
noncomputable def barrettNom [Field K] (N : Finset V) (B : Finset L) (A : V → V → L → K) (i : V) : K :=
  ∑ j ∈ N, ∑ h ∈ N, ∑ k ∈ B, A i j k * ∑ l ∈ B, A i h l * ∑ m ∈ B, A j h m

/-- Denominator of the coefficient of Barrett et al.: `Σ_j Σ_h Σ_k ( A_ijk Σ_l max(A_ihl,A_jhl) )`. -/
noncomputable def barrettDen [Field K] [LinearOrder K] (N : Finset V) (B : Finset L) (A : V → V → L → K) (i : V) : K :=
  ∑ j ∈ N, ∑ h ∈ N, ∑ k ∈ B, A i j k * ∑ l ∈ B, max (A i h l) (A j h l)

/-- `a/b`, undefined if `b = 0`. -/
noncomputable def quotient [Field K] (a b : K) : Option K := if b = 0 then none else some (a / b)

/-- Closed walks `x → y → z → x` along links, with the product of their weights. -/
noncomputable def closedWalks [Field K] (X : Finset V) (w : V → V → K) : K :=
  ∑ x ∈ X, ∑ y ∈ X, ∑ z ∈ X, w x y * w y z * w z x

/-- Walks `x → y → z` with `x ≠ z`. -/
noncomputable def openWalks [Field K] (X : Finset V) (w : V → V → K) : K :=
  ∑ x ∈ X, ∑ y ∈ X, ∑ z ∈ X, if x ≠ z then w x y * w y z else 0

/-- The unweighted adjacency tensor. -/
noncomputable def adj (link : V → V → L → Prop) (u v : V) (a : L) : ℕ := if link u v a then 1 else 0

/-- `Σ_α Σ_{β≠α} Σ_{v,h≠u} A_uvα A_vhβ A_huα` (Battiston et al., first coefficient). -/
noncomputable def battiston1Num (N : Finset V) (B : Finset L) (link : V → V → L → Prop) (u : V) : ℕ :=
  ∑ a ∈ B, ∑ b ∈ B.filter (· ≠ a), ∑ v ∈ N.filter (· ≠ u), ∑ h ∈ N.filter (· ≠ u),
    adj link u v a * adj link v h b * adj link h u a

/-- `Σ_α Σ_{v,h≠u} A_uvα A_huα`. -/
noncomputable def battiston1Den (N : Finset V) (B : Finset L) (link : V → V → L → Prop) (u : V) : ℕ :=
  ∑ a ∈ B, ∑ v ∈ N.filter (· ≠ u), ∑ h ∈ N.filter (· ≠ u), adj link u v a * adj link h u a

/-- `Σ_α Σ_{β≠α} Σ_{γ≠α,β} Σ_{v,h≠u} A_uvα A_vhγ A_huβ` (Battiston et al., second coefficient). -/
noncomputable def battiston2Num (N : Finset V) (B : Finset L) (link : V → V → L → Prop) (u : V) : ℕ :=
  ∑ a ∈ B, ∑ b ∈ B.filter (· ≠ a), ∑ g ∈ B.filter (fun g => g ≠ a ∧ g ≠ b),
    ∑ v ∈ N.filter (· ≠ u), ∑ h ∈ N.filter (· ≠ u), adj link u v a * adj link v h g * adj link h u b

/-- `Σ_α Σ_{β≠α} Σ_{v,h≠u} A_uvα A_huβ`. -/
noncomputable def battiston2Den (N : Finset V) (B : Finset L) (link : V → V → L → Prop) (u : V) : ℕ :=
  ∑ a ∈ B, ∑ b ∈ B.filter (· ≠ a), ∑ v ∈ N.filter (· ≠ u), ∑ h ∈ N.filter (· ≠ u),
    adj link u v a * adj link h u b

/-- The nodes linked to `u` in at least `t` layers and in at least one (the neighbourhood of Brodka et al.). -/
noncomputable def manyLayers (N : Finset V) (B : Finset L) (link : V → V → L → Prop) (u : V) (t : ℕ) : Finset V :=
  N.filter fun v => 1 ≤ (B.filter fun a => link u v a).card ∧ t ≤ (B.filter fun a => link u v a).card

/-- `Σ_α Σ_{v,h ∈ X} (W_hvα + W_vhα) / (2 |X| |L|)`, 0 for an empty `X`. -/
noncomputable def brodka [Field K] (B : Finset L) (X : Finset V) (W : V → V → L → K) : K :=
  if X = ∅ then 0
  else (∑ a ∈ B, ∑ v ∈ X, ∑ h ∈ X, (W h v a + W v h a)) / (2 * X.card * B.card)

/-- The nodes linked to `u` in some layer. -/
noncomputable def someLayer (N : Finset V) (B : Finset L) (link : V → V → L → Prop) (u : V) : Finset V :=
  N.filter fun v => ∃ a ∈ B, link u v a

/-- Twice the number of links in layer `a` among the nodes `X`. -/
noncomputable def linksAmong (X : Finset V) (link : V → V → L → Prop) (a : L) : ℕ :=
  ((X ×ˢ X).filter fun p => link p.1 p.2 a).card

/-- `2 Σ_α |E_α(u)| / Σ_α |Γ_α(u)| (|Γ_α(u)| - 1)` with `Γ_α(u)` the nodes of layer `α` linked to `u` in some
layer and `E_α(u)` the links of layer `α` among them. -/
noncomputable def criado (N : Finset V) (B : Finset L) (M : L → Finset V) (link : V → V → L → Prop) (u : V) : Option ℚ :=
  quotient (∑ a ∈ B, (linksAmong (someLayer N B link u ∩ M a) link a : ℚ))
    (∑ a ∈ B, ((someLayer N B link u ∩ M a).card : ℚ) * ((someLayer N B link u ∩ M a).card - 1))

end Pymnet.Spec
