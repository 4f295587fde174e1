import Verif.Spec.Cycles
import Mathlib.Algebra.Order.BigOperators.Group.Finset
import Mathlib.Algebra.BigOperators.Ring.Finset
import Mathlib.Algebra.Order.Ring.Int
import Mathlib.Algebra.Order.Group.Int
import Mathlib.Tactic.Ring
import Mathlib.Tactic.Linarith

/-! Numbers of walks as nested sums. -/

namespace Pymnet

open Spec

set_option linter.unusedSectionVars false

/-- tests of the same condition, however decided -/
theorem ite_test {β : Type} {P Q : Prop} {hP : Decidable P} {hQ : Decidable Q} (h : P ↔ Q) (x y : β) :
    @ite β P hP x y = @ite β Q hQ x y := by
  by_cases hp : P
  · rw [if_pos hp, if_pos (h.1 hp)]
  · rw [if_neg hp, if_neg fun hq => hp (h.2 hq)]

section

variable {U : Type}

theorem walks_cons (X : Finset U) (r r' : U → U → Prop) (rs : List (U → U → Prop)) (u v : U) [DecidablePred (r u)] :
    walks X (r :: r' :: rs) u v = ∑ w ∈ X, if r u w then walks X (r' :: rs) w v else 0 := by
  simp only [walks]
  exact Finset.sum_congr rfl fun w _ => ite_test Iff.rfl _ _

theorem walks_one (X : Finset U) (r : U → U → Prop) (u v : U) [Decidable (r u v)] :
    walks X [r] u v = if r u v then 1 else 0 := by
  simp only [walks]
  exact ite_test Iff.rfl _ _

theorem walks_nonneg (X : Finset U) (rs : List (U → U → Prop)) (u v : U) : 0 ≤ walks X rs u v := by
  classical
  induction rs generalizing u with
  | nil => simp only [walks]; split <;> simp
  | cons r rs ih =>
    cases rs with
    | nil => rw [walks_one]; split <;> simp
    | cons r' rs =>
      rw [walks_cons]
      exact Finset.sum_nonneg fun w _ => by split; exacts [ih w, le_refl _]

/-- More steps, more walks. -/
theorem walks_mono (X : Finset U) {rs rs' : List (U → U → Prop)}
    (h : List.Forall₂ (fun r r' => ∀ u v, r u v → r' u v) rs rs') (u v : U) : walks X rs u v ≤ walks X rs' u v := by
  classical
  induction h generalizing u with
  | nil => exact le_refl _
  | @cons r r' rs rs' hr hrs ih =>
    cases hrs with
    | nil =>
      rw [walks_one, walks_one]
      by_cases h : r u v
      · rw [if_pos h, if_pos (hr u v h)]
      · rw [if_neg h]; split <;> simp
    | cons hr' hrs' =>
      rw [walks_cons, walks_cons]
      refine Finset.sum_le_sum fun w _ => ?_
      by_cases h : r u w
      · rw [if_pos h, if_pos (hr u w h)]; exact ih w
      · rw [if_neg h]; split; exacts [walks_nonneg _ _ _ _, le_refl _]

end

variable {V L : Type} [DecidableEq V] [DecidableEq L] {N : Finset V} {B : Finset L} {M : L → Finset V}
  {link : V → V → L → Prop}

theorem sum_nodeLayers (g : V × L → Int) :
    ∑ w ∈ nodeLayers N B M, g w = ∑ l ∈ B, ∑ y ∈ N, if y ∈ M l then g (y, l) else 0 := by
  unfold nodeLayers
  rw [Finset.sum_filter, Finset.sum_product_right]
  refine Finset.sum_congr rfl fun l _ => Finset.sum_congr rfl fun y _ => ?_
  exact ite_test Iff.rfl _ _

/-- a first step along a link -/
theorem walks_A [∀ i j l, Decidable (link i j l)] (hon : ∀ i j, ∀ l ∈ B, link i j l → j ∈ M l)
    (r : V × L → V × L → Prop) (rs : List (V × L → V × L → Prop)) (x : V) {l : L} (hl : l ∈ B) (v : V × L) :
    walks (nodeLayers N B M) (stepA link :: r :: rs) (x, l) v =
      ∑ y ∈ N, if link x y l then walks (nodeLayers N B M) (r :: rs) (y, l) v else 0 := by
  classical
  rw [walks_cons, sum_nodeLayers, Finset.sum_eq_single l]
  · refine Finset.sum_congr rfl fun y _ => ?_
    by_cases h : link x y l
    · rw [if_pos h, if_pos (hon x y l hl h), if_pos ⟨rfl, h⟩]
    · rw [if_neg h, if_neg (show ¬ stepA link (x, l) (y, l) from fun h' => h h'.2), ite_self]
  · intro l' _ hne
    refine Finset.sum_eq_zero fun y _ => ?_
    rw [if_neg (show ¬ stepA link (x, l) (y, l') from fun h' => hne h'.1.symm), ite_self]
  · intro h; exact absurd hl h

/-- a first step to another layer -/
theorem walks_C (hsub : ∀ l ∈ B, M l ⊆ N) (r : V × L → V × L → Prop) (rs : List (V × L → V × L → Prop)) (x : V) (l : L)
    (v : V × L) :
    walks (nodeLayers N B M) (stepC :: r :: rs) (x, l) v =
      ∑ l' ∈ B, if l' ≠ l ∧ x ∈ M l' then walks (nodeLayers N B M) (r :: rs) (x, l') v else 0 := by
  classical
  rw [walks_cons, sum_nodeLayers]
  refine Finset.sum_congr rfl fun l' hl' => ?_
  by_cases hx : x ∈ M l'
  · rw [Finset.sum_eq_single x]
    · rw [if_pos hx]
      refine if_congr ?_ rfl rfl
      simp [stepC, hx, eq_comm]
    · intro y _ hne
      rw [if_neg (show ¬ stepC (x, l) (y, l') from fun h => hne h.1.symm), ite_self]
    · intro h; exact absurd (hsub l' hl' hx) h
  · rw [if_neg (fun h => hx h.2)]
    refine Finset.sum_eq_zero fun y _ => ?_
    by_cases hy : y = x
    · subst hy; rw [if_neg hx]
    · rw [if_neg (show ¬ stepC (x, l) (y, l') from fun h => hy h.1.symm), ite_self]

/-- a first step to another node of the layer -/
theorem walks_F (r : V × L → V × L → Prop) (rs : List (V × L → V × L → Prop)) (x : V) {l : L} (hl : l ∈ B) (v : V × L) :
    walks (nodeLayers N B M) (stepF :: r :: rs) (x, l) v =
      ∑ y ∈ N, if y ∈ M l ∧ x ≠ y then walks (nodeLayers N B M) (r :: rs) (y, l) v else 0 := by
  classical
  rw [walks_cons, sum_nodeLayers, Finset.sum_eq_single l]
  · refine Finset.sum_congr rfl fun y _ => ?_
    by_cases h : y ∈ M l
    · rw [if_pos h]
      exact if_congr (by simp [stepF, h]) rfl rfl
    · rw [if_neg h, if_neg fun h' => h h'.1]
  · intro l' _ hne
    refine Finset.sum_eq_zero fun y _ => ?_
    rw [if_neg (show ¬ stepF (x, l) (y, l') from fun h' => hne h'.1.symm), ite_self]
  · intro h; exact absurd hl h

/-- closing a cycle with a link and a change of layer -/
theorem walks_AC [∀ i j l, Decidable (link i j l)] (hon : ∀ i j, ∀ l ∈ B, link i j l → j ∈ M l) (hsub : ∀ l ∈ B, M l ⊆ N)
    (x n : V) {l' l : L} (hl' : l' ∈ B) :
    walks (nodeLayers N B M) [stepA link, stepC] (x, l') (n, l) = if link x n l' ∧ l' ≠ l then 1 else 0 := by
  classical
  rw [walks_A hon _ _ _ hl']
  have e : ∀ y, walks (nodeLayers N B M) [stepC] (y, l') (n, l) = if y = n ∧ l' ≠ l then (1 : Int) else 0 := fun y =>
    (walks_one _ _ _ _).trans (ite_test Iff.rfl _ _)
  simp only [e]
  by_cases h : link x n l'
  · rw [Finset.sum_eq_single n]
    · simp [h]
    · intro y _ hne; simp [hne]
    · intro hn; exact absurd (hsub l' hl' (hon x n l' hl' h)) hn
  · rw [if_neg fun h' => h h'.1]
    refine Finset.sum_eq_zero fun y _ => ?_
    by_cases hy : y = n
    · subst hy; rw [if_neg h]
    · simp [hy]

/-- closing a cycle with a link -/
theorem walks_A1 [∀ i j l, Decidable (link i j l)] (x n : V) (l' l : L) :
    walks (nodeLayers N B M) [stepA link] (x, l') (n, l) = if l' = l ∧ link x n l' then 1 else 0 := by
  classical
  rw [walks_one]
  exact ite_test Iff.rfl _ _

/-- closing a cycle with a change of layer and a link -/
theorem walks_CA [∀ i j l, Decidable (link i j l)] (hsub : ∀ l ∈ B, M l ⊆ N) (x n : V) {l' l : L} (hl : l ∈ B) :
    walks (nodeLayers N B M) [stepC, stepA link] (x, l') (n, l) = if l ≠ l' ∧ x ∈ M l ∧ link x n l then 1 else 0 := by
  classical
  rw [walks_C hsub]
  simp only [walks_A1]
  rw [Finset.sum_eq_single l]
  · by_cases h1 : l ≠ l' <;> by_cases h2 : x ∈ M l <;> simp [h1, h2]
  · intro y _ hne; simp [hne]
  · intro h; exact absurd hl h

end Pymnet
