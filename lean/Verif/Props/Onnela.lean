import Verif.Model.Onnela
import Verif.Props.Clustering
import Mathlib.Analysis.SpecialFunctions.Pow.Real

/-! Property C132: the clustering coefficient of Onnela et al. -/

set_option linter.unusedSectionVars false
set_option linter.unusedSimpArgs false

namespace Pymnet

open Py

namespace Spec

/-- `crt` is the cube root of the non-negative numbers. -/
def CubeRoot {K : Type} [Field K] [LinearOrder K] (crt : K → K) : Prop := ∀ x, 0 ≤ x → 0 ≤ crt x ∧ crt x ^ 3 = x

/-- `Σ_{j,h} (W_ij W_ih W_jh)^{1/3}`. -/
noncomputable def onnelaSum {V K : Type} [Field K] (N : Finset V) (crt : K → K) (w : V → V → K) (i : V) : K :=
  ∑ j ∈ N, ∑ h ∈ N, crt (w i j * w i h * w j h)

end Spec

variable {α K : Type} [DecidableEq α] [Field K] [LinearOrder K] [IsStrictOrderedRing K] {m : MNet α K} {al : Bool}
  {S : Nat → α → Prop} {NL : List α → Prop} {R : List α → List α → K}

theorem Spec.CubeRoot.zero {crt : K → K} (hc : Spec.CubeRoot crt) : crt 0 = 0 := by
  have := (hc 0 le_rfl).2
  exact pow_eq_zero_iff (n := 3) (by decide) |>.1 this

theorem Spec.CubeRoot.le {crt : K → K} (hc : Spec.CubeRoot crt) {a b c M : K} (ha : 0 ≤ a) (hb : 0 ≤ b) (h0 : 0 ≤ c)
    (a1 : a ≤ M) (b1 : b ≤ M) (c1 : c ≤ M) : crt (a * b * c) ≤ M := by
  have hM : 0 ≤ M := le_trans ha a1
  have h := hc (a * b * c) (mul_nonneg (mul_nonneg ha hb) h0)
  refine le_of_pow_le_pow_left₀ (n := 3) (by decide) hM ?_
  rw [h.2, show M ^ 3 = M * M * M by ring]
  exact mul_le_mul (mul_le_mul a1 b1 hb hM) c1 h0 (mul_nonneg hM hM)

namespace Mono

variable {v : View α K} {N : Finset α} {w : α → α → K}

theorem onnelaPairs (h : Mono v N w) (h0 : v.noEdge = 0) (hself : ∀ x, w x x = 0) {crt : K → K} (hz : crt 0 = 0) (n : α)
    {l : List α} (hn : l.Nodup) (hl : ∀ x, x ∈ l ↔ x ∈ N ∧ w n x ≠ 0) (s : K) :
    forPairs (v.onnelaPair crt [n]) (l.map fun x => [x]) s = .ok (s + Spec.onnelaSum N crt w n / 2) := by
  have key := forPairs_sum (f := v.onnelaPair crt [n])
    (g := fun a b => crt (w n (a.headD n) * w n (b.headD n) * w (a.headD n) (b.headD n)))
    (l := l.map fun x => [x]) (hn.map (fun x y e => by simpa using e)) (by
      intro a ha b hb _ s
      simp only [List.mem_map] at ha hb
      obtain ⟨x, -, rfl⟩ := ha
      obtain ⟨y, -, rfl⟩ := hb
      unfold View.onnelaPair
      simp only [h.num2, ok_bind, pure_eq_ok, h0, List.headD_cons]
      by_cases hxy : w x y = 0
      · simp [hxy, hz]
      · simp [hxy]) s
  rw [key]
  simp only [pairSum_map, List.headD_cons]
  have e1 := pairSum_double (g := fun a b => crt (w n a * w n b * w a b)) hn
    (fun i _ j _ => by rw [h.sym i j]; congr 1; ring)
  rw [sum_neighbors hl (by
    intro i j hij
    by_cases he : i = j
    · rw [if_pos he]
    · rw [if_neg he]; rcases hij with h | h <;> simp [h, hz])] at e1
  have f1 : ∑ i ∈ N, ∑ j ∈ N, (if i = j then 0 else crt (w n i * w n j * w i j)) = Spec.onnelaSum N crt w n := by
    unfold Spec.onnelaSum
    refine Finset.sum_congr rfl fun i _ => Finset.sum_congr rfl fun j _ => ?_
    by_cases he : i = j
    · rw [if_pos he, he, hself, mul_zero, hz]
    · rw [if_neg he]
  rw [f1] at e1
  rw [← e1]
  congr 1
  ring

theorem onnelaSum_le (hself : ∀ x, w x x = 0) (hw : ∀ i j, 0 ≤ w i j) {crt : K → K} (hc : Spec.CubeRoot crt) {M : K}
    (hM : ∀ i j, w i j ≤ M) (n : α) {l : List α} (hn : l.Nodup) (hl : ∀ x, x ∈ l ↔ x ∈ N ∧ w n x ≠ 0) :
    0 ≤ Spec.onnelaSum N crt w n ∧ Spec.onnelaSum N crt w n ≤ M * (l.length * (l.length - 1)) := by
  refine ⟨Finset.sum_nonneg fun i _ => Finset.sum_nonneg fun j _ =>
    (hc _ (mul_nonneg (mul_nonneg (hw _ _) (hw _ _)) (hw _ _))).1, ?_⟩
  have hsum : Spec.onnelaSum N crt w n = ∑ i ∈ l.toFinset, ∑ j ∈ l.toFinset, crt (w n i * w n j * w i j) := by
    refine (sum_neighbors hl ?_).symm
    intro i j hij
    rcases hij with h | h <;> simp [h, hc.zero]
  rw [hsum]
  have hb : ∀ i ∈ l.toFinset, ∑ j ∈ l.toFinset, crt (w n i * w n j * w i j) ≤ ((l.length : K) - 1) * M := by
    intro i hi
    rw [← Finset.add_sum_erase _ _ hi, hself, mul_zero, hc.zero, zero_add]
    have := Finset.sum_le_card_nsmul (l.toFinset.erase i) (fun j => crt (w n i * w n j * w i j)) M
      (fun j _ => hc.le (hw _ _) (hw _ _) (hw _ _) (hM _ _) (hM _ _) (hM _ _))
    rw [Finset.card_erase_of_mem hi, List.toFinset_card_of_nodup hn, nsmul_eq_mul] at this
    have hpos : 1 ≤ l.length := List.length_pos_of_mem (List.mem_toFinset.1 hi)
    rwa [Nat.cast_sub hpos, Nat.cast_one] at this
  have := Finset.sum_le_card_nsmul _ _ _ hb
  rw [List.toFinset_card_of_nodup hn, nsmul_eq_mul] at this
  refine this.trans_eq ?_
  ring

theorem onnela (h : Mono v N w) (h0 : v.noEdge = 0) (hself : ∀ x, w x x = 0) {crt : K → K} (hz : crt 0 = 0) {M : K}
    (hM : v.maxWeight = .ok M) (hM0 : M ≠ 0) (n : α) :
    v.onnela crt [n] = .ok (if (Spec.neighbours N (fun i j => w i j ≠ 0) n).card < 2 then none
      else some (Spec.onnelaSum N crt w n / (M * ((Spec.neighbours N (fun i j => w i j ≠ 0) n).card *
        ((Spec.neighbours N (fun i j => w i j ≠ 0) n).card - 1)))) ) := by
  obtain ⟨l, h1, h2, h3, h4, hc⟩ := h.neigh0 h0 n
  unfold View.onnela
  rw [hM, ok_bind, h4, ok_bind, hc]
  by_cases hk : 2 ≤ l.length
  · rw [if_pos (by exact_mod_cast hk), if_neg (by omega), h1, ok_bind, h.onnelaPairs h0 hself hz n h2 h3, ok_bind]
    have hk0 : ((l.length : K) * (l.length - 1)) ≠ 0 := by
      have : (2 : K) ≤ l.length := by exact_mod_cast hk
      exact mul_ne_zero (by linarith) (by linarith)
    have hcast : (((l.length : Int) * ((l.length : Int) - 1) : Int) : K) = (l.length : K) * (l.length - 1) := by push_cast; ring
    simp only [divE, zero_add, hcast]
    rw [if_neg hk0, ok_bind, if_neg hM0, ok_bind, pure_eq_ok]
    congr 2
    rw [mul_comm M, div_div, mul_div_cancel₀ _ (two_ne_zero)]
  · rw [if_neg (by exact_mod_cast hk), if_pos (by omega)]
    rfl

end Mono

/-- **C132.** `cc_onnela` on an undirected monoplex network with non-negative weights, no self-links and at least one
link: undefined iff the node has fewer than two neighbours, otherwise
`Σ_{j,h} (W_ij W_ih W_jh)^{1/3} / (w_max k (k-1))`, with `k` the number of neighbours and `w_max` the largest weight of
the network; it lies in `[0,1]`. `crt` is the cube root. -/
theorem C132_onnela (h : Spec.Looks m 0 0 false al S NL R) {N : Finset α} (hN : ∀ x, x ∈ N ↔ S 0 x)
    (hself : ∀ x, R [x] [x] = 0) (hpos : ∀ i j, 0 ≤ R [i] [j]) (hlink : ∃ i j, R [i] [j] ≠ 0) {crt : K → K}
    (hc : Spec.CubeRoot crt) :
    ∃ M, ((∃ i j, R [i] [j] = M) ∧ ∀ i j, R [i] [j] ≤ M) ∧ ∀ n, ∃ r, m.view.onnela crt [n] = .ok r ∧
      r = (if (Spec.neighbours N (fun i j => R [i] [j] ≠ 0) n).card < 2 then none
        else some (Spec.onnelaSum N crt (fun i j => R [i] [j]) n /
          (M * ((Spec.neighbours N (fun i j => R [i] [j] ≠ 0) n).card *
            ((Spec.neighbours N (fun i j => R [i] [j] ≠ 0) n).card - 1))))) ∧
      ∀ q, r = some q → 0 ≤ q ∧ q ≤ 1 := by
  have hm := h.mono hN
  have h0 : m.view.noEdge = 0 := h.noEdge_eq
  rcases h.maxWeight with ⟨h1, -⟩ | ⟨M, hM, ⟨i, j, hij, e⟩, hle⟩
  · obtain ⟨i, j, hij⟩ := hlink; exact absurd (h1 i j) hij
  have hM0 : M ≠ 0 := by rw [← e]; exact hij
  have hMp : 0 ≤ M := by rw [← e]; exact hpos i j
  have hle' : ∀ i j, R [i] [j] ≤ M := by
    intro i j
    by_cases hz : R [i] [j] = 0
    · rw [hz]; exact hMp
    · exact hle i j hz
  refine ⟨M, ⟨⟨i, j, e⟩, hle'⟩, fun n => ⟨_, hm.onnela h0 hself hc.zero hM hM0 n, rfl, fun q hq => ?_⟩⟩
  obtain ⟨l, h1, h2, h3, h4, hcard⟩ := hm.neigh0 h0 n
  obtain ⟨b1, b2⟩ := Mono.onnelaSum_le hself hpos hc hle' n h2 h3
  rw [hcard] at hq
  by_cases hk : l.length < 2
  · rw [if_pos hk] at hq; exact absurd hq (by simp)
  · rw [if_neg hk] at hq
    cases hq
    have : (2 : K) ≤ l.length := by exact_mod_cast (not_lt.1 hk)
    have hd : (0 : K) ≤ M * (l.length * (l.length - 1)) :=
      mul_nonneg hMp (mul_nonneg (by linarith) (by linarith))
    exact ⟨div_nonneg b1 hd, div_le_one_of_le₀ b2 hd⟩

/-- **C132, equal weights.** If all links have the same weight the coefficient is the unweighted one: linked pairs of
neighbours over pairs of neighbours. -/
theorem C132_equal_weights (h : Spec.Looks m 0 0 false al S NL R) {N : Finset α} (hN : ∀ x, x ∈ N ↔ S 0 x)
    (hself : ∀ x, R [x] [x] = 0) {c : K} (hcpos : 0 < c) (hw : ∀ i j, R [i] [j] = 0 ∨ R [i] [j] = c)
    (hlink : ∃ i j, R [i] [j] ≠ 0) {crt : K → K} (hc : Spec.CubeRoot crt) (n : α) :
    m.view.onnela crt [n] = .ok (if (Spec.neighbours N (fun i j => R [i] [j] ≠ 0) n).card < 2 then none
      else some ((Spec.triangles N (fun i j => R [i] [j] ≠ 0) n).card /
        ((Spec.neighbours N (fun i j => R [i] [j] ≠ 0) n).card *
          ((Spec.neighbours N (fun i j => R [i] [j] ≠ 0) n).card - 1)))) := by
  classical
  have hpos : ∀ i j, 0 ≤ R [i] [j] := fun i j => by rcases hw i j with e | e <;> rw [e]; exact hcpos.le
  obtain ⟨M, ⟨⟨a, b, hab⟩, hle⟩, hr⟩ := C132_onnela h hN hself hpos hlink hc
  obtain ⟨r, e, hr, -⟩ := hr n
  have hMc : M = c := by
    obtain ⟨i, j, hij⟩ := hlink
    have h1 := hle i j
    rw [(hw i j).resolve_left hij] at h1
    rcases hw a b with h2 | h2
    · rw [← hab, h2] at h1; exact absurd h1 (not_le.2 hcpos)
    · rw [← hab, h2]
  have hcube : crt (c * c * c) = c := by
    have h3 := hc (c * c * c) (by positivity)
    exact (pow_left_inj₀ h3.1 hcpos.le (by decide : (3 : ℕ) ≠ 0)).1 (by rw [h3.2]; ring)
  have hsum : Spec.onnelaSum N crt (fun i j => R [i] [j]) n =
      c * (Spec.triangles N (fun i j => R [i] [j] ≠ 0) n).card := by
    unfold Spec.onnelaSum Spec.triangles Spec.triads
    rw [Finset.filter_filter, Finset.card_filter, Nat.cast_sum, Finset.mul_sum, Finset.sum_product]
    refine Finset.sum_congr rfl fun i _ => Finset.sum_congr rfl fun j _ => ?_
    dsimp only
    by_cases hij : i = j
    · subst hij; simp [hself, hc.zero]
    · rcases hw n i with e1 | e1 <;> rcases hw n j with e2 | e2 <;> rcases hw i j with e3 | e3 <;>
        simp [e1, e2, e3, hij, hc.zero, hcube, hcpos.ne']
  rw [e, hr, hMc, hsum]
  congr 1
  split
  · rfl
  · rw [mul_div_mul_left _ _ hcpos.ne']

/-- **C132, no links.** On a network without links `ValueError` is raised instead of returning the undefined value. -/
theorem C132_no_links (h : Spec.Looks m 0 0 false al S NL R) (hno : ∀ i j, R [i] [j] = 0) (crt : K → K) (n : α) :
    m.view.onnela crt [n] = .error .valueError := by
  rcases h.maxWeight with ⟨-, e⟩ | ⟨M, -, ⟨i, j, hij, -⟩, -⟩
  · unfold View.onnela
    rw [e]
    rfl
  · exact absurd (hno i j) hij

/-- the real power `x ** (1/3)` is the cube root of the non-negative numbers -/
example : Spec.CubeRoot (fun x : ℝ => x ^ ((1 : ℝ) / 3)) := by
  intro x hx
  refine ⟨Real.rpow_nonneg hx _, ?_⟩
  rw [← Real.rpow_natCast, ← Real.rpow_mul hx]
  norm_num

/-- a cube root of a few rational numbers, to evaluate an example -/
private def someRoots (x : ℚ) : ℚ := if x = 8 then 2 else if x = 64 then 4 else 0

/-- a triangle with weights 1, 2 and 4 and a pendant node -/
example : (after 0 0 false true [.setItem [1, 2] 1, .setItem [1, 3] 2, .setItem [2, 3] 4, .setItem [1, 4] 4]).view.onnela
      someRoots [1] = .ok (some (2 * 2 / (3 * 2) / 4)) ∧
    (after 0 0 false true [.setItem [1, 2] 1, .setItem [1, 3] 2, .setItem [2, 3] 4, .setItem [1, 4] 4]).view.onnela
      someRoots [4] = .ok none := by decide +kernel

end Pymnet
