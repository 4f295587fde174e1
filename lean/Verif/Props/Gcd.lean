import Verif.Model.Gcd
import Verif.Proofs.Clustering
import Mathlib.Analysis.InnerProductSpace.PiL2

/-! Property C133: the graphlet correlation distance. -/

namespace Pymnet

open Py

namespace Spec

/-- The positions above the diagonal of an array of `r` rows and `c` columns. -/
def upper (r c : ℕ) : Finset (ℕ × ℕ) := (Finset.range r ×ˢ Finset.range c).filter fun p => p.1 < p.2

/-- The entry at row `i` and column `j`. -/
def entryAt (m : Arr2 ℝ) (i j : ℕ) : ℝ := ((m.rows[i]?.getD [])[j]?).getD 0

/-- `sqrt(Σ_{i<j} (a_ij - b_ij)²)`. -/
noncomputable def graphletDistance (a b : Arr2 ℝ) : ℝ :=
  Real.sqrt (∑ p ∈ upper a.rows.length a.cols, (entryAt a p.1 p.2 - entryAt b p.1 p.2) ^ 2)

end Spec

section

variable (a b c : Arr2 ℝ)

theorem Arr2.row_ok {m : Arr2 ℝ} {i : ℕ} (hi : i < m.rows.length) :
    m.row i = .ok (m.rows[i]?.getD []) ∧ (m.rows[i]?.getD []).length = m.cols := by
  unfold Arr2.row
  rw [List.getElem?_eq_getElem hi]
  exact ⟨rfl, m.rect _ (List.getElem_mem hi)⟩

theorem Arr2.entry_ok {m : Arr2 ℝ} {i j : ℕ} (hi : i < m.rows.length) (hj : j < m.cols) :
    m.entry i j = .ok (Spec.entryAt m i j) := by
  unfold Arr2.entry Spec.entryAt
  obtain ⟨e, hl⟩ := Arr2.row_ok hi
  rw [e, ok_bind, List.getElem?_eq_getElem (by omega)]
  rfl

theorem sum_upper (r k : ℕ) (f : ℕ → ℕ → ℝ) :
    ∑ p ∈ Spec.upper r k, f p.1 p.2 = ((List.range r).map fun i => ((List.range' (i + 1) (k - (i + 1))).map (f i)).sum).sum := by
  unfold Spec.upper
  rw [Finset.sum_filter, Finset.sum_product, ← List.sum_toFinset _ List.nodup_range, List.toFinset_range]
  refine Finset.sum_congr rfl fun i _ => ?_
  dsimp only
  rw [← Finset.sum_filter, ← List.sum_toFinset _ List.nodup_range']
  refine Finset.sum_congr ?_ fun _ _ => rfl
  ext j
  simp only [Finset.mem_filter, Finset.mem_range, List.mem_toFinset, List.mem_range'_1]
  omega

theorem gcdDist_eq {a b : Arr2 ℝ} (h : a.shape = b.shape) :
    gcdDist Real.sqrt a b = .ok (Spec.graphletDistance a b) := by
  have h1 : a.rows.length = b.rows.length := (Prod.ext_iff.1 h).1
  have h2 : a.cols = b.cols := (Prod.ext_iff.1 h).2
  unfold gcdDist Spec.graphletDistance
  rw [if_pos h, forE_sum (g := fun i => ((List.range' (i + 1) (a.cols - (i + 1))).map fun j =>
    (Spec.entryAt a i j - Spec.entryAt b i j) ^ 2).sum), ok_bind, pure_eq_ok, zero_add, sum_upper _ _
      (fun i j => (Spec.entryAt a i j - Spec.entryAt b i j) ^ 2)]
  intro i hi s
  rw [List.mem_range] at hi
  unfold gcdRow
  rw [(Arr2.row_ok hi).1, ok_bind, (Arr2.row_ok hi).2]
  refine forE_sum ?_ s
  intro j hj s
  rw [List.mem_range'_1] at hj
  unfold gcdStep
  rw [Arr2.entry_ok hi (by omega), ok_bind, Arr2.entry_ok (by omega) (by omega), ok_bind, pure_eq_ok]

/-- the point with the entries above the diagonal as coordinates -/
noncomputable def Arr2.point (r k : ℕ) (m : Arr2 ℝ) : EuclideanSpace ℝ (Spec.upper r k) :=
  WithLp.toLp 2 fun p => Spec.entryAt m p.1.1 p.1.2

theorem graphletDistance_eq_dist (a b : Arr2 ℝ) :
    Spec.graphletDistance a b = dist (a.point a.rows.length a.cols) (b.point a.rows.length a.cols) := by
  rw [EuclideanSpace.dist_eq]
  unfold Spec.graphletDistance
  congr 1
  rw [← Finset.sum_coe_sort]
  refine Finset.sum_congr rfl fun p _ => ?_
  rw [Real.dist_eq, sq_abs]
  rfl

end

/-- **C133.** `GCD` of two arrays of the same shape is `sqrt(Σ_{i<j} (a_ij - b_ij)²)`; for arrays of different shapes
it raises `AssertionError`. -/
theorem C133_value (a b : Arr2 ℝ) :
    gcdDist Real.sqrt a b = if a.shape = b.shape then .ok (Spec.graphletDistance a b) else .error .assertionError := by
  by_cases h : a.shape = b.shape
  · rw [if_pos h, gcdDist_eq h]
  · rw [if_neg h]; unfold gcdDist; rw [if_neg h]

/-- **C133, metric.** On arrays of the same shape `GCD` is symmetric, non-negative, satisfies the triangle inequality
and vanishes exactly if the arrays agree above the diagonal. -/
theorem C133_metric {a b c : Arr2 ℝ} (hab : a.shape = b.shape) (hbc : b.shape = c.shape) :
    ∃ x y z, gcdDist Real.sqrt a b = .ok x ∧ gcdDist Real.sqrt b c = .ok y ∧ gcdDist Real.sqrt a c = .ok z ∧
      gcdDist Real.sqrt b a = .ok x ∧ 0 ≤ x ∧ z ≤ x + y ∧
      (x = 0 ↔ ∀ i j, i < j → i < a.rows.length → j < a.cols → Spec.entryAt a i j = Spec.entryAt b i j) := by
  have s1 : a.rows.length = b.rows.length := (Prod.ext_iff.1 hab).1
  have s2 : a.cols = b.cols := (Prod.ext_iff.1 hab).2
  refine ⟨_, _, _, gcdDist_eq hab, gcdDist_eq hbc, gcdDist_eq (hab.trans hbc), ?_, Real.sqrt_nonneg _, ?_, ?_⟩
  · rw [gcdDist_eq hab.symm, graphletDistance_eq_dist, graphletDistance_eq_dist a, dist_comm, s1, s2]
  · rw [graphletDistance_eq_dist, graphletDistance_eq_dist a, graphletDistance_eq_dist b, ← s1, ← s2]
    exact dist_triangle _ _ _
  · unfold Spec.graphletDistance
    rw [Real.sqrt_eq_zero (Finset.sum_nonneg fun _ _ => sq_nonneg _),
      Finset.sum_eq_zero_iff_of_nonneg (fun _ _ => sq_nonneg _)]
    constructor
    · intro h i j hij hi hj
      have := h (i, j) (by simp [Spec.upper, hi, hj, hij])
      exact sub_eq_zero.1 (pow_eq_zero_iff (n := 2) (by decide) |>.1 this)
    · intro h p hp
      simp only [Spec.upper, Finset.mem_filter, Finset.mem_product, Finset.mem_range] at hp
      rw [h p.1 p.2 hp.2 hp.1.1 hp.1.2, sub_self]
      exact zero_pow (by decide)

/-- **C133, correlation matrices.** On symmetric square arrays with ones on the diagonal `GCD` vanishes only for
arrays with the same entries. -/
theorem C133_correlation_matrices {a b : Arr2 ℝ} (hab : a.shape = b.shape) (hsq : a.rows.length = a.cols)
    (da : ∀ i, i < a.cols → Spec.entryAt a i i = 1) (db : ∀ i, i < a.cols → Spec.entryAt b i i = 1)
    (sa : ∀ i j, Spec.entryAt a i j = Spec.entryAt a j i) (sb : ∀ i j, Spec.entryAt b i j = Spec.entryAt b j i) :
    gcdDist Real.sqrt a b = .ok 0 ↔ ∀ i j, i < a.cols → j < a.cols → Spec.entryAt a i j = Spec.entryAt b i j := by
  obtain ⟨x, _, _, e, -, -, -, -, -, hx⟩ := C133_metric hab (rfl : b.shape = b.shape)
  rw [e, show (Except.ok x : Except Err ℝ) = .ok 0 ↔ x = 0 by simp, hx]
  constructor
  · intro h i j hi hj
    rcases lt_trichotomy i j with hij | rfl | hij
    · exact h i j hij (by omega) hj
    · rw [da i hi, db i hi]
    · rw [sa, sb]; exact h j i hij (by omega) hi
  · intro h i j _ hi hj
    exact h i j (by omega) hj

theorem forE_append_map {β γ : Type} {f : β → Except Err γ} {g : β → γ} {l : List β} (h : ∀ x ∈ l, f x = .ok (g x))
    (s : List γ) : forE (fun t x => do let d ← f x; pure (t ++ [d])) l s = .ok (s ++ l.map g) := by
  induction l generalizing s with
  | nil => simp [forE]
  | cons x l ih =>
    simp only [forE, h x (by simp), ok_bind]
    refine (ih (fun y hy => h y (by simp [hy])) _).trans ?_
    simp

theorem forE_append_error {β γ : Type} {f : β → Except Err γ} {e : Err} {l : List β} (h : ∀ x ∈ l, (∃ y, f x = .ok y) ∨ f x = .error e)
    (hx : ∃ x ∈ l, f x = .error e) (s : List γ) : forE (fun t x => do let d ← f x; pure (t ++ [d])) l s = .error e := by
  induction l generalizing s with
  | nil => simp at hx
  | cons x l ih =>
    rcases h x (by simp) with ⟨y, hy⟩ | hy
    · simp only [forE, hy, ok_bind]
      refine ih (fun z hz => h z (by simp [hz])) ?_ _
      obtain ⟨z, hz, he⟩ := hx
      rcases List.mem_cons.1 hz with rfl | hz
      · rw [hy] at he; exact absurd he (by simp)
      · exact ⟨z, hz, he⟩
    · simp only [forE, hy]; rfl

/-- **C133, distance matrix.** `GCD_matrix` of arrays of one shape has as entries the distances between the arrays; it
is symmetric with zeros on the diagonal. If two arrays have different shapes it raises `AssertionError`. -/
theorem C133_matrix (ms : List (Arr2 ℝ)) :
    ((∀ a ∈ ms, ∀ b ∈ ms, a.shape = b.shape) ∧ ∃ D : Arr2 ℝ, gcdMatrix Real.sqrt ms = .ok D.rows ∧
      D.shape = (ms.length, ms.length) ∧
      (∀ i j (hi : i < ms.length) (hj : j < ms.length), gcdDist Real.sqrt ms[i] ms[j] = .ok (Spec.entryAt D i j)) ∧
      (∀ i j, Spec.entryAt D i j = Spec.entryAt D j i) ∧ ∀ i, Spec.entryAt D i i = 0) ∨
    ((∃ a ∈ ms, ∃ b ∈ ms, a.shape ≠ b.shape) ∧ gcdMatrix Real.sqrt ms = .error .assertionError) := by
  by_cases hs : ∀ a ∈ ms, ∀ b ∈ ms, a.shape = b.shape
  · left
    refine ⟨hs, ⟨ms.map fun a => ms.map fun b => Spec.graphletDistance a b, ms.length, by simp⟩, ?_, by simp [Arr2.shape],
      ?_, ?_, ?_⟩
    · unfold gcdMatrix
      rw [forE_append_map (g := fun a => ms.map fun b => Spec.graphletDistance a b)]
      · simp
      intro a ha
      unfold gcdMatrixRow
      rw [forE_append_map (g := fun b => Spec.graphletDistance a b) (fun b hb => gcdDist_eq (hs a ha b hb))]
      simp
    · intro i j hi hj
      rw [gcdDist_eq (hs _ (List.getElem_mem hi) _ (List.getElem_mem hj))]
      simp [Spec.entryAt, hi, hj]
    · intro i j
      by_cases hi : i < ms.length <;> by_cases hj : j < ms.length
      · simp only [Spec.entryAt, List.getElem?_map, List.getElem?_eq_getElem hi, List.getElem?_eq_getElem hj,
          Option.map_some, Option.getD_some]
        have hab := hs _ (List.getElem_mem hi) _ (List.getElem_mem hj)
        obtain ⟨x, _, _, e, -, -, e', -⟩ := C133_metric hab (rfl : (ms[j]).shape = _)
        rw [gcdDist_eq hab] at e
        rw [gcdDist_eq hab.symm] at e'
        exact Except.ok.inj (e.trans e'.symm)
      all_goals simp [Spec.entryAt, hi, hj]
    · intro i
      by_cases hi : i < ms.length
      · simp [Spec.entryAt, hi, Spec.graphletDistance]
      · simp [Spec.entryAt, hi]
  · right
    push Not at hs
    obtain ⟨a, ha, b, hb, hab⟩ := hs
    refine ⟨⟨a, ha, b, hb, hab⟩, ?_⟩
    have hd : ∀ x y : Arr2 ℝ, (∃ z, gcdDist Real.sqrt x y = .ok z) ∨ gcdDist Real.sqrt x y = .error .assertionError := by
      intro x y
      rw [C133_value]
      split
      · exact .inl ⟨_, rfl⟩
      · exact .inr rfl
    unfold gcdMatrix
    refine forE_append_error ?_ ⟨a, ha, ?_⟩ _
    · intro x hx
      by_cases hr : ∀ y ∈ ms, ∃ z, gcdDist Real.sqrt x y = .ok z
      · left
        refine ⟨_, forE_append_map (g := fun y => Spec.graphletDistance x y) (fun y hy => ?_) _⟩
        obtain ⟨z, hz⟩ := hr y hy
        rw [C133_value] at hz ⊢
        split at hz
        · rw [if_pos (by assumption)]
        · exact absurd hz (by simp)
      · right
        push Not at hr
        obtain ⟨y, hy, hz⟩ := hr
        exact forE_append_error (fun z _ => hd x z) ⟨y, hy, (hd x y).resolve_left (fun ⟨z, h⟩ => hz z h)⟩ _
    · refine forE_append_error (fun z _ => hd a z) ⟨b, hb, ?_⟩ _
      rw [C133_value, if_neg hab]

/-- the square roots that occur in the example -/
private def fewRoots (x : ℚ) : ℚ := if x = 25 then 5 else 0

example : gcdDist fewRoots ⟨[[1, 3, 4], [7, 1, 2], [8, 9, 1]], 3, by simp⟩ ⟨[[1, 0, 0], [0, 5, 2], [0, 0, 1]], 3, by simp⟩ = .ok 5 ∧
    gcdDist fewRoots ⟨[[1, 3]], 2, by simp⟩ ⟨[[1, 0], [0, 1]], 2, by simp⟩ = .error .assertionError := by decide +kernel

end Pymnet
