import Verif.Proofs.CycleAdj5

/-! The sums over all node-layers. -/

set_option linter.unusedSectionVars false
set_option linter.unusedSimpArgs false

namespace Pymnet

open Py MPlex

section

variable {α K : Type} [DecidableEq α] [DecidableEq K] [Field K] {N B : Finset α} {M : α → Finset α} {T : α → α → α → K}

theorem sumProd_tab {I : Type} [Fintype I] [DecidableEq I] (e : List I) (ws : List (List (Mat K))) (Xs : List (Matrix I I K)) (w : List (Mat K)) (X : Matrix I I K)
    (h0 : Mat.prod w = .ok (tab e X)) (h : List.Forall₂ (fun w X => Mat.prod w = .ok (tab e X)) ws Xs) :
    Mat.sumProd (w :: ws) = .ok (tab e (Xs.foldl (· + ·) X)) := by
  simp only [Mat.sumProd]
  rw [h0, ok_bind]
  clear h0
  induction h generalizing X with
  | nil => rfl
  | cons h1 h2 ih =>
    simp only [forE, List.foldl_cons]
    rw [h1, ok_bind, add_tab]
    exact ih _

theorem walks_zero {U : Type} (X : Finset U) {r : U → U → Prop} (rs : List (U → U → Prop)) {u : U} (h : ∀ t, ¬ r u t) (v : U) :
    Spec.walks X (r :: rs) u v = 0 := by
  cases rs with
  | nil => exact if_neg (h v)
  | cons s rs =>
    simp only [Spec.walks]
    exact Finset.sum_eq_zero fun t _ => if_neg (h t)

theorem sum_walks (hT : Links N B M T) {P : α × α → Prop} (hP : ∀ u, P u) {w : List (α × α → α × α → Prop)}
    (hw : w ∈ Spec.cycleWords (fun i j l => T i j l ≠ 0)) :
    ∑ u : NL N B, ((Spec.walks (Spec.nodeLayers N B M) w u.1 u.1 : ℤ) : K) =
      ((@Finset.sum _ _ _ (@Finset.filter _ P (fun _ => Classical.propDecidable _) (Spec.nodeLayers N B M)) fun u => Spec.walks (Spec.nodeLayers N B M) w u u : ℤ) : K) := by
  have e1 : @Finset.filter _ P (fun _ => Classical.propDecidable _) (Spec.nodeLayers N B M) = Spec.nodeLayers N B M := by
    ext u; simp [hP u]
  have hz : ∀ u ∈ N ×ˢ B, u ∉ Spec.nodeLayers N B M → ((Spec.walks (Spec.nodeLayers N B M) w u u : ℤ) : K) = 0 := by
    intro u hu hn
    have hu' : u.1 ∉ M u.2 := fun h => hn (mem_nodeLayers.2 ⟨hu, h⟩)
    have hr : ∃ rs, w = Spec.stepA (fun i j l => T i j l ≠ 0) :: rs := by
      unfold Spec.cycleWords at hw
      simp only [List.mem_cons, List.not_mem_nil, or_false] at hw
      rcases hw with h | h | h | h | h | h | h | h | h | h <;> exact ⟨_, h⟩
    obtain ⟨rs, rfl⟩ := hr
    rw [walks_zero _ rs (fun t ht => ht.2 (hT.left (Finset.mem_product.1 hu).2 hu'))]
    simp
  rw [e1, Int.cast_sum]
  refine (sum_NL (fun u => ((Spec.walks (Spec.nodeLayers N B M) w u u : ℤ) : K))).trans ?_
  refine (Finset.sum_subset (fun u hu => (mem_nodeLayers.1 hu).1) fun u hu hn => hz u hu hn).symm

/-- the ten sums -/
theorem ten_sums (hT : Links N B M T) (h1 : ∀ i j l, T i j l = 0 ∨ T i j l = 1) {P : α × α → Prop} (hP : ∀ u, P u)
    {a c f : Matrix (NL N B) (NL N B) K} (ha : a = matA N B T) (hc : c = matC N B M 1) (hf : f = matF N B) :
    ∃ x0 x1 x2 x3 x4 x5 x6 x7 x8 x9 : ℤ,
      Spec.cycleSums N B M (fun i j l => T i j l ≠ 0) P = [x0, x1, x2, x3, x4, x5, x6, x7, x8, x9] ∧
      ∑ u, (a * a * a) u u = (x0 : K) ∧ ∑ u, (a * a * c * a * c) u u = (x1 : K) ∧ ∑ u, (a * c * a * a * c) u u = (x2 : K) ∧
      ∑ u, (a * c * a * c * a) u u = (x3 : K) ∧ ∑ u, (a * c * a * c * a * c) u u = (x4 : K) ∧
      ∑ u, (a * f * a) u u = (x5 : K) ∧ ∑ u, (a * f * c * a * c) u u = (x6 : K) ∧ ∑ u, (a * c * f * a * c) u u = (x7 : K) ∧
      ∑ u, (a * c * f * c * a) u u = (x8 : K) ∧ ∑ u, (a * c * f * c * a * c) u u = (x9 : K) := by
  have key : ∀ u : NL N B, [(a * a * a) u u, (a * a * c * a * c) u u, (a * c * a * a * c) u u, (a * c * a * c * a) u u, (a * c * a * c * a * c) u u,
     (a * f * a) u u, (a * f * c * a * c) u u, (a * c * f * a * c) u u, (a * c * f * c * a) u u, (a * c * f * c * a * c) u u] =
     (Spec.cycleCounts N B M (fun i j l => T i j l ≠ 0) u.1).map fun n : ℤ => (n : K) :=
    fun u => (words_eq hT u ha hc hf).trans (cycleWeights_counts h1 u.1)
  have hS := @sum_walks α K _ _ _ N B M T hT P hP
  unfold Spec.cycleCounts Spec.cycleWords at key
  simp only [List.map_cons, List.map_nil, List.cons.injEq, and_true] at key
  refine ⟨_, _, _, _, _, _, _, _, _, _, rfl, ?_, ?_, ?_, ?_, ?_, ?_, ?_, ?_, ?_, ?_⟩
  · rw [Finset.sum_congr rfl fun u _ => (key u).1]; exact hS (by simp [Spec.cycleWords])
  · rw [Finset.sum_congr rfl fun u _ => (key u).2.1]; exact hS (by simp [Spec.cycleWords])
  · rw [Finset.sum_congr rfl fun u _ => (key u).2.2.1]; exact hS (by simp [Spec.cycleWords])
  · rw [Finset.sum_congr rfl fun u _ => (key u).2.2.2.1]; exact hS (by simp [Spec.cycleWords])
  · rw [Finset.sum_congr rfl fun u _ => (key u).2.2.2.2.1]; exact hS (by simp [Spec.cycleWords])
  · rw [Finset.sum_congr rfl fun u _ => (key u).2.2.2.2.2.1]; exact hS (by simp [Spec.cycleWords])
  · rw [Finset.sum_congr rfl fun u _ => (key u).2.2.2.2.2.2.1]; exact hS (by simp [Spec.cycleWords])
  · rw [Finset.sum_congr rfl fun u _ => (key u).2.2.2.2.2.2.2.1]; exact hS (by simp [Spec.cycleWords])
  · rw [Finset.sum_congr rfl fun u _ => (key u).2.2.2.2.2.2.2.2.1]; exact hS (by simp [Spec.cycleWords])
  · rw [Finset.sum_congr rfl fun u _ => (key u).2.2.2.2.2.2.2.2.2]; exact hS (by simp [Spec.cycleWords])

end

section net

variable {α K : Type} [DecidableEq α] [LawfulIntNames α] [LinearOrder α] [DecidableEq K] [Field K]
  {w : K} {aligned : Bool} {ops : List (POp α K)} {N B : Finset α} {M : α → Finset α}

theorem full_ok (hs : Spec.NoIntraSelf ops) (h : Spec.Sets aligned ops N B M) (h2 : N.card ≠ 1 ∨ B = ∅) {e : List (NL N B)}
    (he : (afterP [.categorical w] false 0 aligned ops).view.supraNodes = e.map NL.tup) :
    (afterP [.categorical w] false 0 aligned ops).fullMatrix = .ok (tab e (matF N B)) := by
  by_cases hb : 2 ≤ N.card ∧ B.Nonempty
  · exact fullMatrix_tab hs h hb.1 hb.2 he
  · have hsm : N.card ≤ 1 ∨ B = ∅ := by
      by_cases hB : B = ∅
      · exact .inr hB
      · left
        by_contra hn
        exact hb ⟨by omega, Finset.nonempty_iff_ne_empty.2 hB⟩
    rw [fullMatrix_small hs h hsm]
    have : e = [] := by
      cases e with
      | nil => rfl
      | cons u e =>
        exfalso
        rcases h2 with h2 | h2
        · rcases hsm with h3 | h3
          · have : N.card = 0 := by omega
            rw [Finset.card_eq_zero] at this
            exact absurd u.node (by simp [this])
          · exact absurd u.layer (by simp [h3])
        · exact absurd u.layer (by simp [h2])
    rw [this]
    rfl

/-- the lists of `gcc_aw_vector_adj` -/
theorem awVector_run (hw : w ≠ 0) (hs : Spec.NoIntraSelf ops) (h : Spec.Sets aligned ops N B M) (h2 : N.card ≠ 1 ∨ B = ∅)
    {a c f : Matrix (NL N B) (NL N B) K} (ha : a = matA N B (Spec.tensor aligned ops)) (hc : c = matC N B M w) (hf : f = matF N B) :
    ∃ e : List (NL N B), (afterP [.categorical w] false 0 aligned ops).view.supraNodes = e.map NL.tup ∧ e.Nodup ∧ (∀ u, u ∈ e) ∧
      (afterP [.categorical w] false 0 aligned ops).awVectorAdj = .ok
        ⟨e.map fun u => (a * a * a) u u, e.map fun u => (a * f * a) u u,
         e.map fun u => (a * a * c * a * c + a * c * a * a * c + a * c * a * c * a) u u,
         e.map fun u => (a * f * c * a * c + a * c * f * a * c + a * c * f * c * a) u u,
         e.map fun u => (a * c * a * c * a * c) u u, e.map fun u => (a * c * f * c * a * c) u u⟩ := by
  obtain ⟨e, he, hnd, hm, e1⟩ := matrices_ok hw hs h
  refine ⟨e, he, hnd, hm, ?_⟩
  have k : ∀ (A : Matrix (NL N B) (NL N B) K) (As : List (Matrix (NL N B) (NL N B) K)),
      Mat.prod (tab e A :: As.map (tab e)) = .ok (tab e (As.foldl (· * ·) A)) := fun A As => prod_tab hnd hm A As
  unfold awVectorAdj
  rw [e1, ok_bind]
  dsimp only
  rw [full_ok hs h h2 he, ok_bind, ← ha, ← hc, ← hf]
  rw [show Mat.prod [tab e a, tab e a, tab e a] = .ok (tab e (a * a * a)) from k a [a, a], ok_bind,
    show Mat.prod [tab e a, tab e f, tab e a] = .ok (tab e (a * f * a)) from k a [f, a], ok_bind,
    diagonal_tab, ok_bind, diagonal_tab, ok_bind,
    sumProd_tab e [[tab e a, tab e c, tab e a, tab e a, tab e c], [tab e a, tab e c, tab e a, tab e c, tab e a]]
      [a * c * a * a * c, a * c * a * c * a] [tab e a, tab e a, tab e c, tab e a, tab e c] (a * a * c * a * c)
      (k a [a, c, a, c]) (.cons (k a [c, a, a, c]) (.cons (k a [c, a, c, a]) .nil)), ok_bind,
    sumProd_tab e [[tab e a, tab e c, tab e f, tab e a, tab e c], [tab e a, tab e c, tab e f, tab e c, tab e a]]
      [a * c * f * a * c, a * c * f * c * a] [tab e a, tab e f, tab e c, tab e a, tab e c] (a * f * c * a * c)
      (k a [f, c, a, c]) (.cons (k a [c, f, a, c]) (.cons (k a [c, f, c, a]) .nil)), ok_bind,
    diagonal_tab, ok_bind, diagonal_tab, ok_bind,
    show Mat.prod [tab e a, tab e c, tab e a, tab e c, tab e a, tab e c] = .ok (tab e (a * c * a * c * a * c)) from k a [c, a, c, a, c], ok_bind,
    show Mat.prod [tab e a, tab e c, tab e f, tab e c, tab e a, tab e c] = .ok (tab e (a * c * f * c * a * c)) from k a [c, f, c, a, c], ok_bind,
    diagonal_tab, ok_bind, diagonal_tab, ok_bind]
  rfl

/-- one node: the matrix `f` is empty -/
theorem awVector_one (hw : w ≠ 0) (hs : Spec.NoIntraSelf ops) (h : Spec.Sets aligned ops N B M) (h1 : N.card = 1) (hB : B.Nonempty) :
    (afterP [.categorical w] false 0 aligned ops).awVectorAdj = .error .valueError := by
  obtain ⟨e, he, hnd, hm, e1⟩ := matrices_ok hw hs h
  obtain ⟨n, hn⟩ := Finset.card_pos.1 (by omega : 0 < N.card)
  obtain ⟨l, hl⟩ := hB
  have hlen : e.length ≠ 0 := by
    have := List.length_pos_of_mem (hm ⟨(n, l), Finset.mem_product.2 ⟨hn, hl⟩⟩)
    omega
  unfold awVectorAdj
  rw [e1, ok_bind]
  dsimp only
  rw [fullMatrix_small hs h (.inl (by omega)), ok_bind]
  rw [show Mat.prod [_, _, _] = _ from prod_tab hnd hm (matA N B (Spec.tensor aligned ops)) [matA N B (Spec.tensor aligned ops), matA N B (Spec.tensor aligned ops)],
    ok_bind]
  have : Mat.prod [tab e (matA N B (Spec.tensor aligned ops)), [], tab e (matA N B (Spec.tensor aligned ops))] = .error .valueError := by
    unfold Mat.prod Mat.mul
    simp only [forE, length_tab]
    rw [if_pos (by simpa using hlen)]
  rw [this]
  rfl

/-- the values of `gcc_vector_moreno2` -/
theorem moreno2_run (hw : w ≠ 0) (hs : Spec.NoIntraSelf ops) (h : Spec.Sets aligned ops N B M) (h2 : 2 ≤ N.card) (hB : B.Nonempty)
    {a c f : Matrix (NL N B) (NL N B) K} (ha : a = matA N B (Spec.tensor aligned ops)) (hc : c = matC N B M w) (hf : f = matF N B) :
    (afterP [.categorical w] false 0 aligned ops).vectorMoreno2 = (do
      let c1 ← npDiv false (∑ u, (a * a * a) u u) (∑ u, (a * f * a) u u)
      let c2 ← npDiv false (∑ u, (a * a * c * a * c + c * a * c * a * a + a * c * a * a * c + c * a * a * c * a + a * c * a * c * a) u u)
        (∑ u, (a * f * c * a * c + c * a * c * f * a + a * c * f * a * c + c * a * f * c * a + a * c * f * c * a) u u)
      if ∑ u, (a * c * f * c * a * c + c * a * c * f * c * a) u u ≠ 0 then
        let c3 ← npDiv false (∑ u, (a * c * a * c * a * c + c * a * c * a * c * a) u u) (∑ u, (a * c * f * c * a * c + c * a * c * f * c * a) u u)
        pure (c1, c2, c3)
      else pure (c1, c2, some 0)) := by
  obtain ⟨e, he, hnd, hm, e1⟩ := matrices_ok hw hs h
  have k : ∀ (A : Matrix (NL N B) (NL N B) K) (As : List (Matrix (NL N B) (NL N B) K)),
      Mat.prod (tab e A :: As.map (tab e)) = .ok (tab e (As.foldl (· * ·) A)) := fun A As => prod_tab hnd hm A As
  obtain ⟨n, hn⟩ := Finset.card_pos.1 (by omega : 0 < N.card)
  obtain ⟨l, hl⟩ := hB
  have hne : (tab e a).isEmpty = false := by
    have := hm ⟨(n, l), Finset.mem_product.2 ⟨hn, hl⟩⟩
    cases e with
    | nil => exact absurd this (by simp)
    | cons _ _ => rfl
  unfold vectorMoreno2
  rw [e1, ok_bind]
  dsimp only
  rw [fullMatrix_tab hs h h2 ⟨l, hl⟩ he, ok_bind, ← ha, ← hc, ← hf]
  rw [show Mat.prod [tab e a, tab e a, tab e a] = .ok (tab e (a * a * a)) from k a [a, a], ok_bind,
    show Mat.prod [tab e a, tab e f, tab e a] = .ok (tab e (a * f * a)) from k a [f, a], ok_bind,
    diagonal_tab, ok_bind, diagonal_tab, ok_bind,
    sumProd_tab e [[tab e c, tab e a, tab e c, tab e a, tab e a], [tab e a, tab e c, tab e a, tab e a, tab e c],
        [tab e c, tab e a, tab e a, tab e c, tab e a], [tab e a, tab e c, tab e a, tab e c, tab e a]]
      [c * a * c * a * a, a * c * a * a * c, c * a * a * c * a, a * c * a * c * a] [tab e a, tab e a, tab e c, tab e a, tab e c] (a * a * c * a * c)
      (k a [a, c, a, c]) (.cons (k c [a, c, a, a]) (.cons (k a [c, a, a, c]) (.cons (k c [a, a, c, a]) (.cons (k a [c, a, c, a]) .nil)))), ok_bind,
    sumProd_tab e [[tab e c, tab e a, tab e c, tab e f, tab e a], [tab e a, tab e c, tab e f, tab e a, tab e c],
        [tab e c, tab e a, tab e f, tab e c, tab e a], [tab e a, tab e c, tab e f, tab e c, tab e a]]
      [c * a * c * f * a, a * c * f * a * c, c * a * f * c * a, a * c * f * c * a] [tab e a, tab e f, tab e c, tab e a, tab e c] (a * f * c * a * c)
      (k a [f, c, a, c]) (.cons (k c [a, c, f, a]) (.cons (k a [c, f, a, c]) (.cons (k c [a, f, c, a]) (.cons (k a [c, f, c, a]) .nil)))), ok_bind,
    diagonal_tab, ok_bind, diagonal_tab, ok_bind,
    sumProd_tab e [[tab e c, tab e a, tab e c, tab e a, tab e c, tab e a]] [c * a * c * a * c * a]
      [tab e a, tab e c, tab e a, tab e c, tab e a, tab e c] (a * c * a * c * a * c) (k a [c, a, c, a, c]) (.cons (k c [a, c, a, c, a]) .nil), ok_bind,
    sumProd_tab e [[tab e c, tab e a, tab e c, tab e f, tab e c, tab e a]] [c * a * c * f * c * a]
      [tab e a, tab e c, tab e f, tab e c, tab e a, tab e c] (a * c * f * c * a * c) (k a [c, f, c, a, c]) (.cons (k c [a, c, f, c, a]) .nil), ok_bind,
    diagonal_tab, ok_bind, diagonal_tab, ok_bind, hne]
  simp only [sum_enum hnd hm, List.foldl_cons, List.foldl_nil]

end net

end Pymnet
