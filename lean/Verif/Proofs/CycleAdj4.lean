import Verif.Proofs.CycleAdj3

/-! Node-aligned networks: the matrices `c` and `f` commute, and `c²` is a combination of `1` and `c`. -/

set_option linter.unusedSectionVars false
set_option linter.unusedSimpArgs false

namespace Pymnet

open Py MPlex

section

variable {α K : Type} [DecidableEq α] [DecidableEq K] [Field K] {N B : Finset α} {M : α → Finset α} {T : α → α → α → K}

theorem matC_smul (w : K) : (matC N B M w : Matrix (NL N B) (NL N B) K) = w • matC N B M 1 := by
  ext u v
  rw [Matrix.smul_apply]
  unfold matC
  split <;> simp

theorem aligned_C (hM : ∀ l ∈ B, M l = N) (u v : NL N B) : (matC N B M 1 : Matrix (NL N B) (NL N B) K) u v = Spec.alongC u.1 v.1 := by
  unfold matC Spec.alongC
  refine ite_iff ?_
  rw [hM _ u.layer, hM _ v.layer]
  simp [u.node, v.node]

theorem aligned_FC (hM : ∀ l ∈ B, M l = N) (u v : NL N B) :
    (matF N B * matC N B M 1 : Matrix (NL N B) (NL N B) K) u v = if u.1.1 ≠ v.1.1 ∧ u.1.2 ≠ v.1.2 then 1 else 0 := by
  rw [Matrix.mul_apply]
  rw [Finset.sum_eq_single (⟨(v.1.1, u.1.2), Finset.mem_product.2 ⟨v.node, u.layer⟩⟩ : NL N B)]
  · rw [aligned_C hM]
    unfold matF Spec.alongF Spec.stepF Spec.alongC Spec.stepC
    by_cases h1 : u.1.1 = v.1.1 <;> by_cases h2 : u.1.2 = v.1.2 <;> simp [h1, h2]
  · intro t _ ht
    rw [aligned_C hM]
    unfold matF Spec.alongF Spec.stepF Spec.alongC Spec.stepC
    by_cases h1 : u.1.2 = t.1.2
    · by_cases h2 : t.1.1 = v.1.1
      · exact absurd (Subtype.ext (show t.1 = (v.1.1, u.1.2) from Prod.ext h2 h1.symm)) ht
      · simp [h2]
    · simp [h1]
  · intro h; exact absurd (Finset.mem_univ _) h

theorem aligned_CF (hM : ∀ l ∈ B, M l = N) (u v : NL N B) :
    (matC N B M 1 * matF N B : Matrix (NL N B) (NL N B) K) u v = if u.1.1 ≠ v.1.1 ∧ u.1.2 ≠ v.1.2 then 1 else 0 := by
  rw [Matrix.mul_apply]
  rw [Finset.sum_eq_single (⟨(u.1.1, v.1.2), Finset.mem_product.2 ⟨u.node, v.layer⟩⟩ : NL N B)]
  · rw [aligned_C hM]
    unfold matF Spec.alongF Spec.stepF Spec.alongC Spec.stepC
    by_cases h1 : u.1.1 = v.1.1 <;> by_cases h2 : u.1.2 = v.1.2 <;> simp [h1, h2]
  · intro t _ ht
    rw [aligned_C hM]
    unfold matF Spec.alongF Spec.stepF Spec.alongC Spec.stepC
    by_cases h1 : u.1.1 = t.1.1
    · by_cases h2 : t.1.2 = v.1.2
      · exact absurd (Subtype.ext (show t.1 = (u.1.1, v.1.2) from Prod.ext h1.symm h2)) ht
      · simp [h2]
    · simp [h1]
  · intro h; exact absurd (Finset.mem_univ _) h

theorem aligned_comm (hM : ∀ l ∈ B, M l = N) : (matC N B M 1 * matF N B : Matrix (NL N B) (NL N B) K) = matF N B * matC N B M 1 := by
  ext u v
  rw [aligned_CF hM, aligned_FC hM]

theorem aligned_CC (hM : ∀ l ∈ B, M l = N) :
    (matC N B M 1 * matC N B M 1 : Matrix (NL N B) (NL N B) K) = ((B.card : K) - 1) • (1 : Matrix (NL N B) (NL N B) K) + ((B.card : K) - 2) • matC N B M 1 := by
  ext u v
  rw [Matrix.mul_apply, Matrix.add_apply, Matrix.smul_apply, Matrix.smul_apply, aligned_C hM, Matrix.one_apply]
  have e1 : ∀ t : NL N B, (matC N B M 1 u t * matC N B M 1 t v : K) =
      (fun t : α × α => if (u.1.1 = t.1 ∧ u.1.2 ≠ t.2) ∧ (t.1 = v.1.1 ∧ t.2 ≠ v.1.2) then (1 : K) else 0) t.1 := by
    intro t
    rw [aligned_C hM, aligned_C hM]
    unfold Spec.alongC Spec.stepC
    dsimp only
    by_cases h1 : u.1.1 = t.1.1 ∧ u.1.2 ≠ t.1.2
    · by_cases h2 : t.1.1 = v.1.1 ∧ t.1.2 ≠ v.1.2
      · rw [if_pos h1, if_pos h2, if_pos ⟨h1, h2⟩, one_mul]
      · rw [if_neg h2, mul_zero, if_neg fun h => h2 h.2]
    · rw [if_neg h1, zero_mul, if_neg fun h => h1 h.1]
  rw [Finset.sum_congr rfl fun t _ => e1 t]
  refine (sum_NL (fun t : α × α => if (u.1.1 = t.1 ∧ u.1.2 ≠ t.2) ∧ (t.1 = v.1.1 ∧ t.2 ≠ v.1.2) then (1 : K) else 0)).trans ?_
  rw [Finset.sum_product_right]
  have e2 : ∀ l ∈ B, (∑ n ∈ N, if (u.1.1 = n ∧ u.1.2 ≠ l) ∧ (n = v.1.1 ∧ l ≠ v.1.2) then (1 : K) else 0) =
      if u.1.1 = v.1.1 ∧ u.1.2 ≠ l ∧ l ≠ v.1.2 then 1 else 0 := by
    intro l _
    rw [Finset.sum_eq_single u.1.1]
    · refine ite_iff ?_
      tauto
    · intro n _ hn
      rw [if_neg fun h => hn h.1.1.symm]
    · intro h; exact absurd u.node h
  rw [Finset.sum_congr rfl e2]
  by_cases h1 : u.1.1 = v.1.1
  · have hb : 0 < B.card := Finset.card_pos.2 ⟨_, u.layer⟩
    by_cases h2 : u.1.2 = v.1.2
    · have huv : u = v := Subtype.ext (Prod.ext h1 h2)
      subst huv
      rw [if_pos rfl]
      have e3 : (∑ l ∈ B, if u.1.1 = u.1.1 ∧ u.1.2 ≠ l ∧ l ≠ u.1.2 then (1 : K) else 0) = ((B.erase u.1.2).card : K) := by
        rw [Finset.card_eq_sum_ones, Nat.cast_sum, ← Finset.filter_ne', Finset.sum_filter]
        refine Finset.sum_congr rfl fun l _ => ?_
        by_cases h : l = u.1.2
        · simp [h]
        · rw [if_pos ⟨rfl, fun e => h e.symm, h⟩, if_pos h]; simp
      rw [e3, Finset.card_erase_of_mem u.layer, Nat.cast_pred hb]
      unfold Spec.alongC Spec.stepC
      simp
    · have huv : u ≠ v := fun e => h2 (by rw [e])
      rw [if_neg huv]
      have e3 : (∑ l ∈ B, if u.1.1 = v.1.1 ∧ u.1.2 ≠ l ∧ l ≠ v.1.2 then (1 : K) else 0) = (((B.erase u.1.2).erase v.1.2).card : K) := by
        rw [Finset.card_eq_sum_ones, Nat.cast_sum, ← Finset.filter_ne', ← Finset.filter_ne', Finset.filter_filter, Finset.sum_filter]
        refine Finset.sum_congr rfl fun l _ => ?_
        by_cases h : l ≠ u.1.2 ∧ l ≠ v.1.2
        · rw [if_pos ⟨h1, fun e => h.1 e.symm, h.2⟩, if_pos h]; simp
        · rw [if_neg h, if_neg fun h' => h ⟨fun e => h'.2.1 e.symm, h'.2.2⟩]
      have hm : v.1.2 ∈ B.erase u.1.2 := Finset.mem_erase.2 ⟨fun e => h2 e.symm, v.layer⟩
      rw [e3, Finset.card_erase_of_mem hm, Nat.cast_pred (Finset.card_pos.2 ⟨_, hm⟩), Finset.card_erase_of_mem u.layer, Nat.cast_pred hb]
      unfold Spec.alongC Spec.stepC
      rw [if_pos ⟨h1, h2⟩]
      simp only [smul_eq_mul, mul_zero, mul_one, zero_add]
      ring
  · have huv : u ≠ v := fun e => h1 (by rw [e])
    rw [if_neg huv, Finset.sum_eq_zero fun l _ => if_neg fun h => h1 h.1]
    unfold Spec.alongC Spec.stepC
    rw [if_neg fun h => h1 h.1]
    simp

theorem checks_algebra {R : Type} [Ring R] [Algebra K R] (w p q : K) (a f d : R) (e1 : d * f = f * d)
    (e2 : d * d = p • (1 : R) + q • d) :
    a * f * (w • d) * a * (w • d) = a * (w • d) * f * a * (w • d) ∧
    a * (w • d) * f * (w • d) * a = w ^ 2 • (p • (a * f * a) + q • (a * f * d * a)) ∧
    a * (w • d) * f * (w • d) * a * (w • d) = w ^ 3 • (p • (a * f * a * d) + q • (a * f * d * a * d)) ∧
    a * f * (w • d) * a * (w • d) = w ^ 2 • (a * f * d * a * d) := by
  have k1 : a * d * f = a * f * d := by rw [mul_assoc, e1, mul_assoc]
  have k2 : a * d * f * d = p • (a * f) + q • (a * f * d) := by
    rw [k1, mul_assoc _ d d, e2, mul_add, mul_smul_comm, mul_smul_comm, mul_one]
  refine ⟨?_, ?_, ?_, ?_⟩
  · simp only [mul_smul_comm, smul_mul_assoc, k1]
  · simp only [mul_smul_comm, smul_mul_assoc, k2, add_mul, smul_smul, pow_two]
  · simp only [mul_smul_comm, smul_mul_assoc, k2, add_mul, smul_smul, pow_succ, pow_zero, one_mul]
    simp only [mul_comm, mul_assoc, mul_left_comm]
  · simp only [mul_smul_comm, smul_mul_assoc, smul_smul, pow_two]

/-- the assertions on fully interconnected networks, for a coupling of weight `w` -/
theorem aligned_checks (hM : ∀ l ∈ B, M l = N) (w : K) (u : NL N B) {a c f : Matrix (NL N B) (NL N B) K} (hA : Stays a)
    (hc : c = matC N B M w) (hf : f = matF N B) :
    (a * f * c * a * c) u u = (a * c * f * a * c) u u ∧
    (a * c * f * c * a) u u = w ^ 2 * (((B.card : K) - 1) * (a * f * a) u u) ∧
    (a * c * f * c * a * c) u u = w * (((B.card : K) - 2) * (a * f * c * a * c) u u) := by
  obtain ⟨d, hd⟩ : ∃ d : Matrix (NL N B) (NL N B) K, d = matC N B M 1 := ⟨_, rfl⟩
  have e0 : c = w • d := by rw [hc, hd]; exact matC_smul w
  have e1 : d * f = f * d := by rw [hd, hf]; exact aligned_comm hM
  have e2 : d * d = ((B.card : K) - 1) • (1 : Matrix (NL N B) (NL N B) K) + ((B.card : K) - 2) • d := by rw [hd]; exact aligned_CC hM
  have hD : Moves d := by rw [hd]; exact moves_C 1
  have hF : Stays f := by rw [hf]; exact stays_F
  have z1 : (a * f * d * a) u u = 0 := ((hA.mul hF).moves hD).mul hA u u rfl
  have z2 : (a * f * a * d) u u = 0 := ((hA.mul hF).mul hA).moves hD u u rfl
  obtain ⟨h1, h2, h3, h4⟩ := checks_algebra w ((B.card : K) - 1) ((B.card : K) - 2) a f d e1 e2
  rw [← e0] at h1 h2 h3 h4
  refine ⟨by rw [h1], ?_, ?_⟩
  · rw [h2, Matrix.smul_apply, Matrix.add_apply, Matrix.smul_apply, Matrix.smul_apply, z1]
    simp
  · rw [h3, h4, Matrix.smul_apply, Matrix.add_apply, Matrix.smul_apply, Matrix.smul_apply, Matrix.smul_apply, z2]
    simp only [smul_eq_mul, mul_zero, zero_add]
    ring

end

section net

variable {α K : Type} [DecidableEq α] [LawfulIntNames α] [LinearOrder α] [DecidableEq K] [Field K]
  {w : K} {aligned : Bool} {ops : List (POp α K)} {N B : Finset α} {M : α → Finset α}

theorem links_of (hs : Spec.NoIntraSelf ops) (h : Spec.Sets aligned ops N B M) : Links N B M (Spec.tensor aligned ops) := by
  have hP := plexL (c := .categorical 1) hs h.nodes h.layers h.inLayer
  exact ⟨hP.sub, hP.self, hP.sym, hP.on⟩

/-- the supra-adjacency matrices of the network and of the network with another coupling -/
theorem supra_matrices (hw : w ≠ 0) (hs : Spec.NoIntraSelf ops) (h : Spec.Sets aligned ops N B M) :
    ∃ e : List (NL N B), (afterP [.categorical w] false 0 aligned ops).view.supraNodes = e.map NL.tup ∧ e.Nodup ∧ (∀ u, u ∈ e) ∧
      (afterP [.categorical w] false 0 aligned ops).view.supra true =
        .ok (tab e (matA N B (Spec.tensor aligned ops) + matC N B M w), e.map NL.tup) ∧
      (afterP [.categorical w] false 0 aligned ops).view.supra false =
        .ok (tab e (matA N B (Spec.tensor aligned ops)), e.map NL.tup) ∧
      ({ afterP [.categorical w] false 0 aligned ops with couplings := [.categorical 0] } : MPlex α K).view.supra true =
        .ok (tab e (matA N B (Spec.tensor aligned ops)), e.map NL.tup) := by
  obtain ⟨s, t, hst, s1, t1, s2, t2⟩ := slices_two (w := w) hs h
  obtain ⟨e, he, hnd, hm⟩ := exists_enum (v := (afterP [Coupling.categorical w] false 0 aligned ops).view) hst s1 t1 s2 t2
  have hpar := after_params (cs := [Coupling.categorical w]) (by simp) false 0 aligned ops
  have key : ∀ (x : K) (u v : NL N B),
      ({ afterP [.categorical w] false 0 aligned ops with couplings := [.categorical x] } : MPlex α K).view.num2 u.tup v.tup =
        .ok ((matA N B (Spec.tensor aligned ops) + matC N B M x) u v) := by
    intro x u v
    refine (num2_links hw hs h x u.layer v.layer u.1.1 v.1.1).trans ?_
    rw [Matrix.add_apply]
    unfold matA matC Spec.alongA Spec.stepC
    congr 1
    by_cases hl : u.1.2 = v.1.2
    · rw [if_pos hl, if_pos hl, if_neg fun h => h.1.2 hl, add_zero]
    · rw [if_neg hl, if_neg hl, zero_add]
      refine ite_iff ?_
      constructor
      · rintro ⟨a, b, c⟩; exact ⟨⟨a, hl⟩, b, a ▸ c⟩
      · rintro ⟨⟨a, -⟩, b, c⟩; exact ⟨a, b, by rw [a]; exact c⟩
  have kw := key w
  rw [with_couplings hpar.2.2.2.2] at kw
  refine ⟨e, he, hnd, hm, ?_, ?_, ?_⟩
  · rw [supra_tab hpar.1 he true _ (fun u v _ => kw u v) (by simp), he]
  · rw [supra_tab hpar.1 he false (matA N B (Spec.tensor aligned ops)) (fun u v huv => ?_) (fun u v _ huv => ?_), he]
    · rw [kw u v, Matrix.add_apply]
      rcases huv with huv | huv
      · cases huv
      · rw [moves_C w u v huv, add_zero]
    · exact stays_A u v huv
  · have h0 : (matC N B M (0 : K) : Matrix (NL N B) (NL N B) K) = 0 := by
      ext u v; unfold matC; simp
    rw [supra_tab (v := ({ afterP [.categorical w] false 0 aligned ops with couplings := [.categorical 0] } : MPlex α K).view)
      hpar.1 he true (matA N B (Spec.tensor aligned ops)) (fun u v _ => ?_) (by simp)]
    · exact congrArg (fun x => Except.ok (tab e (matA N B (Spec.tensor aligned ops)), x)) he
    · rw [key 0 u v, h0, add_zero]

end net

end Pymnet
