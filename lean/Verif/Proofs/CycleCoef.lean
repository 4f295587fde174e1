import Verif.Proofs.CycleSums
import Mathlib.Tactic.Positivity

/-! Values and ranges of the coefficients computed from cycle counts. -/

set_option linter.unusedSectionVars false
set_option linter.unusedSimpArgs false

namespace Pymnet

open Py MPlex Spec

/-- counts of cycles never exceed the counts of possible cycles -/
structure GoodC (c : List Int) : Prop where
  c1 : 0 ≤ (closedSums c).1 ∧ (closedSums c).1 ≤ (possibleSums c).1
  c2 : 0 ≤ (closedSums c).2.1 ∧ (closedSums c).2.1 ≤ (possibleSums c).2.1
  c3 : 0 ≤ (closedSums c).2.2 ∧ (closedSums c).2.2 ≤ (possibleSums c).2.2

section

variable {K : Type} [Field K] [LinearOrder K] [IsStrictOrderedRing K]

theorem closedOf_eq (v : Cycles) : closedOf v = closedSums v.toList := rfl

theorem possibleOf_eq (v : Cycles) : possibleOf v = possibleSums v.toList := rfl

theorem ratio0_eq (t d : Int) : (ratio0 t d : K) = part t d := by
  unfold ratio0 part
  by_cases h : d ≠ 0
  · rw [if_pos h]
  · rw [if_neg h, not_not.1 h]; simp

theorem if_div (t d : K) {i : Decidable (d ≠ 0)} : @ite K (d ≠ 0) i (t / d) 0 = t / d := by
  by_cases h : d ≠ 0
  · rw [if_pos h]
  · rw [if_neg h, not_not.1 h]; simp

theorem awValue_eq (w1 w2 : K) (w3 : Option K) (v : Cycles) : awValue w1 w2 w3 (closedOf v) (possibleOf v) = aw w1 w2 w3 v.toList := by
  cases w3 with
  | some w3 => simp only [awValue, aw, awParts, ratio0_eq, closedOf_eq, possibleOf_eq]
  | none =>
    refine (if_div _ _).trans ?_
    simp only [aw, cycleWeight, closedOf_eq, possibleOf_eq]
    congr 1 <;> ring

theorem awVector_eq (v : Cycles) : (awVector (closedOf v) (possibleOf v) : K × K × K) = awParts v.toList := by
  simp only [awVector, awParts, ratio0_eq, closedOf_eq, possibleOf_eq]

theorem part_range {t d : Int} (h : 0 ≤ t ∧ t ≤ d) : (0 : K) ≤ part t d ∧ (part t d : K) ≤ 1 := by
  have h1 : (0 : K) ≤ (t : K) := by exact_mod_cast h.1
  have h2 : (t : K) ≤ (d : K) := by exact_mod_cast h.2
  exact ⟨div_nonneg h1 (h1.trans h2), div_le_one_of_le₀ h2 (h1.trans h2)⟩

theorem cycleWeight_mono {a b : K} (ha : 0 ≤ a) (hb : 0 ≤ b) {x y : Int × Int × Int} (h1 : 0 ≤ x.1 ∧ x.1 ≤ y.1)
    (h2 : 0 ≤ x.2.1 ∧ x.2.1 ≤ y.2.1) (h3 : 0 ≤ x.2.2 ∧ x.2.2 ≤ y.2.2) :
    0 ≤ cycleWeight a b x ∧ cycleWeight a b x ≤ cycleWeight a b y := by
  have c : ∀ t d : Int, 0 ≤ t ∧ t ≤ d → (0 : K) ≤ (t : K) ∧ (t : K) ≤ (d : K) := fun t d h =>
    ⟨by exact_mod_cast h.1, by exact_mod_cast h.2⟩
  have p1 : 0 ≤ a ^ 3 := by positivity
  have p2 : 0 ≤ a * b ^ 2 := by positivity
  have p3 : 0 ≤ b ^ 3 := by positivity
  unfold cycleWeight
  exact ⟨add_nonneg (add_nonneg (mul_nonneg (c _ _ h1).1 p1) (mul_nonneg (c _ _ h2).1 p2)) (mul_nonneg (c _ _ h3).1 p3),
    add_le_add (add_le_add (mul_le_mul_of_nonneg_right (c _ _ h1).2 p1) (mul_le_mul_of_nonneg_right (c _ _ h2).2 p2))
      (mul_le_mul_of_nonneg_right (c _ _ h3).2 p3)⟩

theorem aw_range {w1 w2 : K} {w3 : Option K} (h1 : 0 ≤ w1) (h2 : 0 ≤ w2) (h3 : ∀ x ∈ w3, 0 ≤ x) {c : List Int} (h : GoodC c) :
    0 ≤ aw w1 w2 w3 c ∧ aw w1 w2 w3 c ≤ awMax w1 w2 w3 := by
  cases w3 with
  | none =>
    obtain ⟨a, b⟩ := cycleWeight_mono h1 h2 h.c1 h.c2 h.c3
    exact ⟨div_nonneg a (a.trans b), div_le_one_of_le₀ b (a.trans b)⟩
  | some w3 =>
    have h3 := h3 w3 rfl
    obtain ⟨a1, b1⟩ := part_range (K := K) h.c1
    obtain ⟨a2, b2⟩ := part_range (K := K) h.c2
    obtain ⟨a3, b3⟩ := part_range (K := K) h.c3
    simp only [aw, awParts, awMax]
    exact ⟨add_nonneg (add_nonneg (mul_nonneg h1 a1) (mul_nonneg h2 a2)) (mul_nonneg h3 a3),
      add_le_add (add_le_add (mul_le_of_le_one_right h1 b1) (mul_le_of_le_one_right h2 b2)) (mul_le_of_le_one_right h3 b3)⟩

end

theorem good_map {α : Type} {link : α → α → α → Prop} {f : CWord α → Int} (h0 : ∀ r, 0 ≤ f r)
    (hm : ∀ rs rs', List.Forall₂ (fun (r r' : α × α → α × α → Prop) => ∀ u v, r u v → r' u v) rs rs' → f rs ≤ f rs')
    (hl : ∀ i j l, link i j l → i ≠ j) : GoodC ((cycleWords link).map f) := by
  have ra : ∀ u v, stepA link u v → stepA link u v := fun _ _ h => h
  have rc : ∀ u v : α × α, stepC u v → stepC u v := fun _ _ h => h
  have rf : ∀ u v, stepA link u v → stepF u v := fun u v h => ⟨h.1, hl _ _ _ h.2⟩
  have m1 := hm _ _ (.cons ra (.cons rf (.cons ra .nil)))
  have m2 := hm _ _ (.cons ra (.cons rf (.cons rc (.cons ra (.cons rc .nil)))))
  have m3 := hm _ _ (.cons ra (.cons rc (.cons rf (.cons ra (.cons rc .nil)))))
  have m4 := hm _ _ (.cons ra (.cons rc (.cons rf (.cons rc (.cons ra .nil)))))
  have m5 := hm _ _ (.cons ra (.cons rc (.cons rf (.cons rc (.cons ra (.cons rc .nil))))))
  refine ⟨⟨h0 _, m1⟩, ⟨add_nonneg (add_nonneg (h0 _) (h0 _)) (h0 _), add_le_add (add_le_add m2 m3) m4⟩, ⟨h0 _, m5⟩⟩

theorem good_counts {α : Type} {N B : Finset α} {M : α → Finset α} {link : α → α → α → Prop} (hl : ∀ i j l, link i j l → i ≠ j)
    (u : α × α) : GoodC (cycleCounts N B M link u) :=
  good_map (fun r => walks_nonneg _ r u u) (fun _ _ h => walks_mono _ h u u) hl

theorem good_sums {α : Type} {N B : Finset α} {M : α → Finset α} {link : α → α → α → Prop} (hl : ∀ i j l, link i j l → i ≠ j)
    (P : α × α → Prop) : GoodC (cycleSums N B M link P) :=
  good_map (fun r => Finset.sum_nonneg fun u _ => walks_nonneg _ r u u)
    (fun _ _ h => Finset.sum_le_sum fun u _ => walks_mono _ h u u) hl

end Pymnet
