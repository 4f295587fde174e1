import Verif.Proofs.CycleAdj6

/-! The first version of the coefficient, with open walks. -/

set_option linter.unusedSectionVars false
set_option linter.unusedSimpArgs false

namespace Pymnet

open Py MPlex

section

variable {α K : Type} [DecidableEq α] [DecidableEq K] [Field K] {N B : Finset α} {M : α → Finset α} {T : α → α → α → K}

theorem has_prod (ws : List (Matrix (NL N B) (NL N B) K × (α × α → α × α → K))) (hw : ∀ x ∈ ws, Has M x.1 x.2) (hne : ws ≠ []) :
    matD N B M * (ws.map Prod.fst).prod = (ws.map Prod.fst).prod ∧ (ws.map Prod.fst).prod * matD N B M = (ws.map Prod.fst).prod := by
  induction ws with
  | nil => exact absurd rfl hne
  | cons x ws ih =>
    have hx := hw x (by simp)
    cases ws with
    | nil =>
      simp only [List.map_cons, List.map_nil, List.prod_cons, List.prod_nil, mul_one]
      exact ⟨has_left hx, has_right hx⟩
    | cons y ws =>
      obtain ⟨-, h2⟩ := ih (fun z hz => hw z (by simp [hz])) (by simp)
      rw [List.map_cons, List.prod_cons]
      exact ⟨by rw [← mul_assoc, has_left hx], by rw [mul_assoc, h2]⟩

theorem prod_zero_left (ws : List (Matrix (NL N B) (NL N B) K × (α × α → α × α → K))) (hw : ∀ x ∈ ws, Has M x.1 x.2) (hne : ws ≠ [])
    (u v : NL N B) (h : u.1.1 ∉ M u.1.2 ∨ v.1.1 ∉ M v.1.2) : (ws.map Prod.fst).prod u v = 0 := by
  obtain ⟨h1, h2⟩ := has_prod ws hw hne
  rcases h with h | h
  · rw [← h1]
    unfold matD
    rw [Matrix.diagonal_mul, if_neg h, zero_mul]
  · rw [← h2]
    unfold matD
    rw [Matrix.mul_diagonal, if_neg h, mul_zero]

theorem sum_present (g : α × α → K) (hg : ∀ u : NL N B, u.1.1 ∉ M u.1.2 → g u.1 = 0) : ∑ u : NL N B, g u.1 = ∑ u ∈ Spec.nodeLayers N B M, g u := by
  refine (sum_NL g).trans ?_
  refine (Finset.sum_subset (fun u hu => (mem_nodeLayers.1 hu).1) fun u hu hn => ?_).symm
  exact hg ⟨u, hu⟩ fun h => hn (mem_nodeLayers.2 ⟨hu, h⟩)

theorem sum_present' {g : NL N B → K} {g' : α × α → K} (h0 : ∀ u : NL N B, u.1.1 ∉ M u.1.2 → g u = 0)
    (h1 : ∀ u : NL N B, u.1.1 ∈ M u.1.2 → g u = g' u.1) : ∑ u, g u = ∑ u ∈ Spec.nodeLayers N B M, g' u := by
  classical
  have e : ∀ u : NL N B, g u = (fun v : α × α => if v.1 ∈ M v.2 then g' v else 0) u.1 := by
    intro u
    by_cases hu : u.1.1 ∈ M u.1.2
    · rw [h1 u hu]; exact (if_pos hu).symm
    · rw [h0 u hu]; exact (if_neg hu).symm
  rw [Finset.sum_congr rfl fun u _ => e u]
  refine (sum_present (M := M) (fun v : α × α => if v.1 ∈ M v.2 then g' v else 0) fun u hu => if_neg hu).trans ?_
  exact Finset.sum_congr rfl fun u hu => if_pos (mem_nodeLayers.1 hu).2

theorem total_weigh (ws : List (Matrix (NL N B) (NL N B) K × (α × α → α × α → K))) (hw : ∀ x ∈ ws, Has M x.1 x.2) (hne : ws ≠ []) :
    ∑ u, (ws.map Prod.fst).prod u u = ∑ u ∈ Spec.nodeLayers N B M, Spec.weigh (Spec.nodeLayers N B M) (ws.map Prod.snd) u u ∧
    (∑ u, ∑ v, if u ≠ v then (ws.map Prod.fst).prod u v else 0) =
      ∑ u ∈ Spec.nodeLayers N B M, ∑ v ∈ Spec.nodeLayers N B M,
        if u = v then 0 else Spec.weigh (Spec.nodeLayers N B M) (ws.map Prod.snd) u v := by
  refine ⟨sum_present' (fun u hu => prod_zero_left ws hw hne u u (.inl hu)) fun u hu => prod_weigh ws hw hne u u hu hu, ?_⟩
  refine sum_present' (g' := fun u => ∑ v ∈ Spec.nodeLayers N B M, if u = v then 0 else Spec.weigh (Spec.nodeLayers N B M) (ws.map Prod.snd) u v)
    (fun u hu => Finset.sum_eq_zero fun v _ => ?_) fun u hu => ?_
  · rw [prod_zero_left ws hw hne u v (.inl hu), ite_self]
  · refine sum_present' (g' := fun v => if u.1 = v then 0 else Spec.weigh (Spec.nodeLayers N B M) (ws.map Prod.snd) u.1 v)
      (fun v hv => ?_) fun v hv => ?_
    · rw [prod_zero_left ws hw hne u v (.inr hv), ite_self]
    · by_cases h : u = v
      · subst h; simp
      · rw [if_pos h, if_neg fun e => h (Subtype.ext e), prod_weigh ws hw hne u v hu hv]

end

section net

variable {α K : Type} [DecidableEq α] [LawfulIntNames α] [LinearOrder α] [DecidableEq K] [Field K]
  {w : K} {aligned : Bool} {ops : List (POp α K)} {N B : Finset α} {M : α → Finset α}

/-- the values of `gcc_vector_moreno` -/
theorem moreno_run (hw : w ≠ 0) (hs : Spec.NoIntraSelf ops) (h : Spec.Sets aligned ops N B M) (hN : N.Nonempty) (hB : B.Nonempty)
    {a c : Matrix (NL N B) (NL N B) K} (ha : a = matA N B (Spec.tensor aligned ops)) (hc : c = matC N B M w) :
    (afterP [.categorical w] false 0 aligned ops).vectorMoreno = (do
      let c1 ← npDiv false (∑ u, (a * a * a) u u) (∑ u, ∑ v, if u ≠ v then (a * a) u v else 0)
      let c2 ← npDiv false (∑ u, (a * a * c * a * c + c * a * c * a * a + a * c * a * a * c + c * a * a * c * a + a * c * a * c * a) u u)
        (∑ u, ∑ v, if u ≠ v then (a * a * c + c * a * c * a + a * c * a + c * a * a * c + a * c * a * c) u v else 0)
      let c3 ← npDiv false (∑ u, (a * c * a * c * a * c + c * a * c * a * c * a) u u)
        (∑ u, ∑ v, if u ≠ v then (a * c * a * c + c * a * c * a * c) u v else 0)
      pure (c1, c2, c3)) := by
  obtain ⟨e, he, hnd, hm, e1⟩ := matrices_ok hw hs h
  have k : ∀ (A : Matrix (NL N B) (NL N B) K) (As : List (Matrix (NL N B) (NL N B) K)),
      Mat.prod (tab e A :: As.map (tab e)) = .ok (tab e (As.foldl (· * ·) A)) := fun A As => prod_tab hnd hm A As
  obtain ⟨n, hn⟩ := hN
  obtain ⟨l, hl⟩ := hB
  have hne : (tab e a).isEmpty = false := by
    have := hm ⟨(n, l), Finset.mem_product.2 ⟨hn, hl⟩⟩
    cases e with
    | nil => exact absurd this (by simp)
    | cons _ _ => rfl
  unfold vectorMoreno
  rw [e1, ok_bind]
  dsimp only
  rw [← ha, ← hc]
  rw [show Mat.prod [tab e a, tab e a, tab e a] = .ok (tab e (a * a * a)) from k a [a, a], ok_bind,
    show Mat.prod [tab e a, tab e a] = .ok (tab e (a * a)) from k a [a], ok_bind,
    diagonal_tab, ok_bind, offDiagonal_tab hnd hm, ok_bind,
    sumProd_tab e [[tab e c, tab e a, tab e c, tab e a, tab e a], [tab e a, tab e c, tab e a, tab e a, tab e c],
        [tab e c, tab e a, tab e a, tab e c, tab e a], [tab e a, tab e c, tab e a, tab e c, tab e a]]
      [c * a * c * a * a, a * c * a * a * c, c * a * a * c * a, a * c * a * c * a] [tab e a, tab e a, tab e c, tab e a, tab e c] (a * a * c * a * c)
      (k a [a, c, a, c]) (.cons (k c [a, c, a, a]) (.cons (k a [c, a, a, c]) (.cons (k c [a, a, c, a]) (.cons (k a [c, a, c, a]) .nil)))), ok_bind,
    sumProd_tab e [[tab e c, tab e a, tab e c, tab e a], [tab e a, tab e c, tab e a],
        [tab e c, tab e a, tab e a, tab e c], [tab e a, tab e c, tab e a, tab e c]]
      [c * a * c * a, a * c * a, c * a * a * c, a * c * a * c] [tab e a, tab e a, tab e c] (a * a * c)
      (k a [a, c]) (.cons (k c [a, c, a]) (.cons (k a [c, a]) (.cons (k c [a, a, c]) (.cons (k a [c, a, c]) .nil)))), ok_bind,
    diagonal_tab, ok_bind, offDiagonal_tab hnd hm, ok_bind,
    sumProd_tab e [[tab e c, tab e a, tab e c, tab e a, tab e c, tab e a]] [c * a * c * a * c * a]
      [tab e a, tab e c, tab e a, tab e c, tab e a, tab e c] (a * c * a * c * a * c) (k a [c, a, c, a, c]) (.cons (k c [a, c, a, c, a]) .nil), ok_bind,
    sumProd_tab e [[tab e c, tab e a, tab e c, tab e a, tab e c]] [c * a * c * a * c]
      [tab e a, tab e c, tab e a, tab e c] (a * c * a * c) (k a [c, a, c]) (.cons (k c [a, c, a, c]) .nil), ok_bind,
    diagonal_tab, ok_bind, offDiagonal_tab hnd hm, ok_bind, hne]
  simp only [sum_enum hnd hm, List.foldl_cons, List.foldl_nil]

/-- one product -/
theorem total_one (hT : Links N B M (Spec.tensor aligned ops)) {a c S : Matrix (NL N B) (NL N B) K} (ha : a = matA N B (Spec.tensor aligned ops)) (hc : c = matC N B M 1)
    (ws : List (Matrix (NL N B) (NL N B) K × (α × α → α × α → K)))
    (hw : ∀ x ∈ ws, x = (a, Spec.alongA (Spec.tensor aligned ops)) ∨ x = (c, Spec.alongC)) (hne : ws ≠ []) (hS : S = (ws.map Prod.fst).prod) :
    ∑ u, S u u = ∑ u ∈ Spec.nodeLayers N B M, Spec.weigh (Spec.nodeLayers N B M) (ws.map Prod.snd) u u ∧
    (∑ u, ∑ v, if u ≠ v then S u v else 0) =
      ∑ u ∈ Spec.nodeLayers N B M, ∑ v ∈ Spec.nodeLayers N B M,
        if u = v then 0 else Spec.weigh (Spec.nodeLayers N B M) (ws.map Prod.snd) u v := by
  rw [hS]
  refine total_weigh ws (fun x hx => ?_) hne
  rcases hw x hx with rfl | rfl
  · rw [ha]; exact has_A hT
  · rw [hc]; exact has_C

end net

end Pymnet
