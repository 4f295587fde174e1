import Verif.Proofs.Super
import Verif.Props.Transforms

/-! Properties C39, C40 and C59–C65: clustering coefficients. -/

set_option linter.unusedSectionVars false
set_option linter.unusedSimpArgs false

namespace Pymnet

open Py MPlex

/-! ### C39 -/

theorem triangles_le_triads {V : Type} (N : Finset V) (link : V → V → Prop) (n : V) :
    (Spec.triangles N link n).card ≤ (Spec.triads N link n).card := by
  classical exact Finset.card_filter_le _ _

section mono

variable {α W : Type} [DecidableEq α] [DecidableEq W] {m : MNet α W} {z : W} {al : Bool} {S : Nat → α → Prop}
  {NL : List α → Prop} {R : List α → List α → W}

/-- **C39.** `lcc` of a node of an undirected monoplex network is undefined iff the node has fewer than two
neighbours; otherwise it is the number of linked pairs of neighbours divided by the number of pairs of
neighbours. -/
theorem C39_lcc (h : Spec.Looks m 0 z false al S NL R) {N : Finset α} (hN : ∀ x, x ∈ N ↔ S 0 x) (n : α) :
    m.view.lcc [n] = .ok (if (Spec.neighbours N (fun i j => R [i] [j] ≠ z) n).card < 2 then none
      else some ((Spec.triangles N (fun i j => R [i] [j] ≠ z) n).card /
        (Spec.triads N (fun i j => R [i] [j] ≠ z) n).card)) := by
  have := (h.mono hN).lcc n
  rwa [show m.view.noEdge = z from h.noEdge_eq] at this

/-- **C39, range.** -/
theorem C39_range (h : Spec.Looks m 0 z false al S NL R) {N : Finset α} (hN : ∀ x, x ∈ N ↔ S 0 x) (n : α) :
    ∃ r, m.view.lcc [n] = .ok r ∧ ∀ q, r = some q → 0 ≤ q ∧ q ≤ 1 := by
  refine ⟨_, C39_lcc h hN n, fun q hq => ?_⟩
  by_cases hc : (Spec.neighbours N (fun i j => R [i] [j] ≠ z) n).card < 2
  · rw [if_pos hc] at hq; exact absurd hq (by simp)
  · rw [if_neg hc] at hq
    cases hq
    have hle : (Spec.triangles N (fun i j => R [i] [j] ≠ z) n).card ≤ (Spec.triads N (fun i j => R [i] [j] ≠ z) n).card :=
      triangles_le_triads _ _ _
    refine ⟨by positivity, div_le_one_of_le₀ (by exact_mod_cast hle) (by positivity)⟩

/-- A triangle `1,2,3` with a pendant `4` at `1`. -/
private def kite : List (Op Nat ℚ) :=
  [.setItem [1, 2] 2, .setItem [1, 3] 1, .setItem [2, 3] 3, .setItem [1, 4] 1, .addNode 5 none]

example : (after 0 0 false true kite).view.lcc [1] = .ok (some (1 / 3)) ∧
    (after 0 0 false true kite).view.lcc [4] = .ok none := by decide +kernel

end mono

/-! ### weighted coefficients of monoplex networks -/

section weighted

variable {α K : Type} [DecidableEq α] [Field K] [LinearOrder K] [IsStrictOrderedRing K] {m : MNet α K} {al : Bool}
  {S : Nat → α → Prop} {NL : List α → Prop} {R : List α → List α → K}

/-- **C59, local.** `cc_zhang` on an undirected monoplex network with non-negative weights, no self-links and at
least one link: undefined iff the node has fewer than two neighbours, otherwise
`Σ_{j,h} W_ij W_ih W_jh / (w_max Σ_{j≠h} W_ij W_ih)`, which lies in `[0,1]`. `w_max` is the largest weight of the
network. -/
theorem C59_zhang (h : Spec.Looks m 0 0 false al S NL R) {N : Finset α} (hN : ∀ x, x ∈ N ↔ S 0 x)
    (hself : ∀ x, R [x] [x] = 0) (hpos : ∀ i j, 0 ≤ R [i] [j]) (hlink : ∃ i j, R [i] [j] ≠ 0) :
    ∃ M, ((∃ i j, R [i] [j] = M) ∧ ∀ i j, R [i] [j] ≤ M) ∧ ∀ n,
      m.view.zhang [n] = .ok (if (Spec.neighbours N (fun i j => R [i] [j] ≠ 0) n).card < 2 then none
        else some (Spec.weightedTriangles N (fun i j => R [i] [j]) n / (M * Spec.weightedTriads N (fun i j => R [i] [j]) n))) ∧
      0 ≤ Spec.weightedTriangles N (fun i j => R [i] [j]) n / (M * Spec.weightedTriads N (fun i j => R [i] [j]) n) ∧
      Spec.weightedTriangles N (fun i j => R [i] [j]) n / (M * Spec.weightedTriads N (fun i j => R [i] [j]) n) ≤ 1 := by
  have hm := h.mono hN
  have h0 : m.view.noEdge = 0 := h.noEdge_eq
  rcases h.maxWeight with ⟨h1, -⟩ | ⟨M, hM, ⟨i, j, hij, e⟩, hle⟩
  · obtain ⟨i, j, hij⟩ := hlink; exact absurd (h1 i j) hij
  have hM0 : M ≠ 0 := by rw [← e]; exact hij
  have hMp : 0 ≤ M := by rw [← e]; exact hpos i j
  have hle' : ∀ i j, R [i] [j] ≤ M := by
    intro i j
    by_cases hz : R [i] [j] = 0
    · rw [hz]; exact hMp
    · exact hle i j hz
  refine ⟨M, ⟨⟨i, j, e⟩, hle'⟩, fun n => ⟨?_, ?_, ?_⟩⟩
  · exact hm.zhang h0 hself hpos hM hM0 n
  · exact div_nonneg (Mono.weightedTriangles_nonneg hpos n) (mul_nonneg hMp (Mono.weightedTriads_nonneg hpos n))
  · exact div_le_one_of_le₀ (Mono.weightedTriangles_le hpos hself hle' n)
      (mul_nonneg hMp (Mono.weightedTriads_nonneg hpos n))

/-- **C59, global.** `gcc_zhang` under the same conditions. -/
theorem C59_gcc_zhang (h : Spec.Looks m 0 0 false al S NL R) {N : Finset α} (hN : ∀ x, x ∈ N ↔ S 0 x)
    (hself : ∀ x, R [x] [x] = 0) (hpos : ∀ i j, 0 ≤ R [i] [j]) (hlink : ∃ i j, R [i] [j] ≠ 0) :
    ∃ M r, ((∃ i j, R [i] [j] = M) ∧ ∀ i j, R [i] [j] ≤ M) ∧ m.view.gccZhang = .ok r ∧
      r = Spec.quotient (∑ n ∈ N, Spec.weightedTriangles N (fun i j => R [i] [j]) n)
        (M * ∑ n ∈ N, Spec.weightedTriads N (fun i j => R [i] [j]) n) ∧
      ∀ q, r = some q → 0 ≤ q ∧ q ≤ 1 := by
  have hm := h.mono hN
  have h0 : m.view.noEdge = 0 := h.noEdge_eq
  rcases h.maxWeight with ⟨h1, -⟩ | ⟨M, hM, ⟨i, j, hij, e⟩, hle⟩
  · obtain ⟨i, j, hij⟩ := hlink; exact absurd (h1 i j) hij
  have hM0 : M ≠ 0 := by rw [← e]; exact hij
  have hMp : 0 ≤ M := by rw [← e]; exact hpos i j
  have hle' : ∀ i j, R [i] [j] ≤ M := by
    intro i j
    by_cases hz : R [i] [j] = 0
    · rw [hz]; exact hMp
    · exact hle i j hz
  refine ⟨M, _, ⟨⟨i, j, e⟩, hle'⟩, hm.gccZhang h0 hself hM hM0, rfl, fun q hq => ?_⟩
  refine quotient_range (Finset.sum_nonneg fun n _ => Mono.weightedTriangles_nonneg hpos n) ?_ hq
  rw [Finset.mul_sum]
  exact Finset.sum_le_sum fun n _ => Mono.weightedTriangles_le hpos hself hle' n

/-- **C59, no links.** On a network without links both raise `ValueError` instead of returning the undefined
value. -/
theorem C59_no_links (h : Spec.Looks m 0 0 false al S NL R) (hno : ∀ i j, R [i] [j] = 0) (n : α) :
    m.view.zhang [n] = .error .valueError ∧ m.view.gccZhang = .error .valueError := by
  rcases h.maxWeight with ⟨-, e⟩ | ⟨M, -, ⟨i, j, hij, -⟩, -⟩
  · unfold View.zhang View.gccZhang
    rw [e]
    exact ⟨rfl, rfl⟩
  · exact absurd (hno i j) hij

example : (after 0 0 false true kite).view.zhang [1] = .ok (some (2 / 5)) ∧
    (after 0 0 false true kite).view.gccZhang = .ok (some (3 / 7)) ∧
    (after 0 (0 : ℚ) false true [.addNode 1 none]).view.zhang [1] = .error .valueError := by decide +kernel

/-- **C60.** `cc_barrat` on an undirected monoplex network with non-negative weights and no self-links: undefined
iff the node has fewer than two neighbours, otherwise `Σ_{j,h} (W_ij + W_ih)/2 A_ij A_ih A_jh / ((k-1) s)` with `k`
the number of neighbours and `s` the sum of the weights of the links of the node; it lies in `[0,1]`. -/
theorem C60_barrat (h : Spec.Looks m 0 0 false al S NL R) {N : Finset α} (hN : ∀ x, x ∈ N ↔ S 0 x)
    (hself : ∀ x, R [x] [x] = 0) (hpos : ∀ i j, 0 ≤ R [i] [j]) {n : α} (hn : n ∈ N) :
    ∃ r, m.barrat [n] = .ok r ∧
      r = (if (Spec.neighbours N (fun i j => R [i] [j] ≠ 0) n).card < 2 then none
        else some (Spec.barratSum N (fun i j => R [i] [j]) n /
          (((Spec.neighbours N (fun i j => R [i] [j] ≠ 0) n).card - 1) * ∑ j ∈ N, R [n] [j]))) ∧
      ∀ q, r = some q → 0 ≤ q ∧ q ≤ 1 := by
  obtain ⟨e, hp⟩ := h.barrat hN hself hpos hn
  refine ⟨_, e, rfl, fun q hq => ?_⟩
  obtain ⟨b1, b2⟩ := barratSum_le (N := N) (w := fun i j => R [i] [j]) hpos hself n
  by_cases hc : (Spec.neighbours N (fun i j => R [i] [j] ≠ 0) n).card < 2
  · rw [if_pos hc] at hq; exact absurd hq (by simp)
  · rw [if_neg hc] at hq
    cases hq
    have := hp (by omega)
    have hd := le_trans b1 b2
    exact ⟨div_nonneg b1 hd, div_le_one_of_le₀ b2 hd⟩

example : (after 0 0 false true kite).barrat [1] = .ok (some (3 / 8)) ∧
    (after 0 0 false true kite).barrat [4] = .ok none := by decide +kernel

end weighted

end Pymnet
