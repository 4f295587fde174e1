import Verif.Proofs.Er

/-! The loop of the Erdos-Renyi generator with a probability. -/

set_option linter.unusedSectionVars false

namespace Pymnet

open Py Models

theorem erAdvance_spec (n v w : Int) (hv : 1 ≤ v) :
    (erAdvance n v w).1 * ((erAdvance n v w).1 - 1) + 2 * (erAdvance n v w).2 = v * (v - 1) + 2 * w ∧
    v ≤ (erAdvance n v w).1 ∧ ((erAdvance n v w).1 < n → (erAdvance n v w).2 < (erAdvance n v w).1) ∧
    (0 ≤ w → 0 ≤ (erAdvance n v w).2) ∧ (v ≤ n → (erAdvance n v w).1 ≤ n) := by
  fun_induction erAdvance n v w with
  | case1 v w h ih =>
    obtain ⟨i1, i2, i3, i4, i5⟩ := ih (by omega)
    refine ⟨?_, by omega, i3, fun _ => i4 (by omega), fun _ => i5 (by omega)⟩
    rw [i1]; ring
  | case2 v w h => exact ⟨rfl, le_rfl, fun h' => by simp only at *; omega, id, id⟩

theorem skip_iff {p r : ℝ} (hp : 0 < p) (hp1 : p < 1) (hr1 : r < 1) (k : Nat) :
    erSkip p r = k ↔ Spec.Skips p r k := by
  have hl : Real.log (1 - p) < 0 := Real.log_neg (by linarith) (by linarith)
  have h1p : 0 < 1 - p := by linarith
  have h1r : 0 < 1 - r := by linarith
  unfold erSkip Spec.Skips
  rw [Int.floor_eq_iff]
  have e1 : ((k : Int) : ℝ) ≤ Real.log (1 - r) / Real.log (1 - p) ↔ 1 - (1 - p) ^ k ≤ r := by
    rw [le_div_iff_of_neg hl]
    have : ((k : Int) : ℝ) * Real.log (1 - p) = Real.log ((1 - p) ^ k) := by
      rw [Real.log_pow]; push_cast; rfl
    rw [this, Real.log_le_log_iff h1r (by positivity)]
    constructor <;> intro h <;> linarith
  have e2 : Real.log (1 - r) / Real.log (1 - p) < ((k : Int) : ℝ) + 1 ↔ r < 1 - (1 - p) ^ (k + 1) := by
    rw [div_lt_iff_of_neg hl]
    have : (((k : Int) : ℝ) + 1) * Real.log (1 - p) = Real.log ((1 - p) ^ (k + 1)) := by
      rw [Real.log_pow]; push_cast; rfl
    rw [this, Real.log_lt_log_iff (by positivity) h1r]
    constructor <;> intro h <;> linarith
  rw [e1, e2]

theorem skip_nonneg {p r : ℝ} (hp : 0 < p) (hp1 : p < 1) (hr0 : 0 ≤ r) (hr1 : r < 1) : 0 ≤ erSkip p r := by
  have hl : Real.log (1 - p) < 0 := Real.log_neg (by linarith) (by linarith)
  unfold erSkip
  rw [Int.floor_nonneg]
  exact div_nonneg_of_nonpos (Real.log_nonpos (by linarith) (by linarith)) hl.le

/-- the indices of the pairs found, the next one being at least `E` -/
def positions : Nat → List Nat → List Nat
  | _, [] => []
  | E, k :: ks => (E + k) :: positions (E + k + 1) ks

theorem le_of_mem_positions {E : Nat} {ks : List Nat} {e : Nat} (h : e ∈ positions E ks) : E ≤ e := by
  induction ks generalizing E with
  | nil => simp [positions] at h
  | cons k ks ih =>
    rcases List.mem_cons.1 h with rfl | h
    · omega
    · have := ih h; omega

theorem nodup_positions (E : Nat) (ks : List Nat) : (positions E ks).Nodup := by
  induction ks generalizing E with
  | nil => exact List.nodup_nil
  | cons k ks ih => exact List.nodup_cons.2 ⟨fun h => by have := le_of_mem_positions h; omega, ih _⟩

theorem mem_positions {E : Nat} {ks : List Nat} {e : Nat} :
    e ∈ positions E ks ↔ ∃ k < ks.length, e + 1 = E + ((ks.take (k + 1)).map (· + 1)).sum := by
  induction ks generalizing E with
  | nil => simp [positions]
  | cons k ks ih =>
    rw [positions, List.mem_cons, ih]
    constructor
    · rintro (rfl | ⟨j, h1, h2⟩)
      · exact ⟨0, by simp, by simp [Nat.add_assoc]⟩
      · refine ⟨j + 1, by simpa using h1, ?_⟩
        rw [h2, List.take_succ_cons (i := j + 1)]
        simp only [List.map_cons, List.sum_cons]; omega
    · rintro ⟨j, h1, h2⟩
      cases j with
      | zero => left; simp at h2; omega
      | succ j =>
        right
        refine ⟨j, by simpa using h1, ?_⟩
        rw [List.take_succ_cons (i := j + 1)] at h2
        simp only [List.map_cons, List.sum_cons] at h2; omega

section
variable {α W σ : Type} [DecidableEq α] [DecidableEq W] [Zero W] [One W] {T : Target σ α W}
  {P : σ → (α → Prop) → (α → α → W) → Prop}

theorem ones_cons (x : α × α) (L : List (α × α)) (R : α → α → W) (a b : α) :
    ones L (upd R x.1 x.2 1) a b = ones (x :: L) R a b := by
  unfold ones upd
  simp only [List.mem_cons]
  by_cases h1 : (a, b) ∈ L ∨ (b, a) ∈ L
  · rw [if_pos h1, if_pos (by tauto)]
  · rw [if_neg h1]
    refine if_congr ?_ rfl rfl
    rw [Prod.ext_iff, Prod.ext_iff]
    simp only
    tauto

theorem tri_le_of_int {n v : Nat} {w : Int} {E : Nat} (hE : (2 * E : Int) = v * (v - 1) + 2 * w + 2) (hv : 1 ≤ v) :
    (n ≤ v → -1 ≤ w → n * (n - 1) / 2 ≤ E) ∧ (v < n → w < v → E ≤ n * (n - 1) / 2) := by
  have h2 := two_pairIndex v 0
  unfold Spec.pairIndex at h2
  push_cast at h2
  constructor
  · intro h hw
    have := tri_mono h
    simp only [mul_zero, add_zero] at h2
    omega
  · intro h hw
    have := tri_mono (a := v + 1) (b := n) h
    rw [Nat.add_sub_cancel, tri_succ] at this
    simp only [mul_zero, add_zero] at h2
    omega

/-- one round of the loop: index bookkeeping -/
theorem erRound {n v : Nat} {w : Int} {E k : Nat} (hv : 1 ≤ v) (hE : (2 * E : Int) = v * (v - 1) + 2 * w + 2)
    (hw : -1 ≤ w) : ∃ v' : Nat, ∃ w' : Nat, erAdvance n v (w + 1 + k) = ((v' : Int), (w' : Int)) ∧ 1 ≤ v' ∧
      (v' < n → w' < v') ∧ Spec.pairIndex v' w' = E + k := by
  obtain ⟨a1, a2, a3, a4, a5⟩ := erAdvance_spec n v (w + 1 + k) (by omega)
  have a4 := a4 (by omega)
  generalize erAdvance n v (w + 1 + k) = vw at *
  obtain ⟨v1, w1⟩ := vw
  obtain ⟨v', rfl⟩ := Int.eq_ofNat_of_zero_le (show 0 ≤ v1 by simp only at a2; omega)
  obtain ⟨w', rfl⟩ := Int.eq_ofNat_of_zero_le a4
  simp only at a1 a2 a3
  refine ⟨v', w', rfl, by omega, fun h => by exact_mod_cast a3 (by exact_mod_cast h), ?_⟩
  have := two_pairIndex v' w'
  zify
  linarith

theorem erLoop_ok [Inhabited α] (F : Fills T P) {nodes : List α} (hn : nodes.Nodup) {S : α → Prop}
    (hS : ∀ x ∈ nodes, S x) {p : ℝ} (hp : 0 < p) (hp1 : p < 1) (rs : List ℝ) :
    ∀ {v : Nat} {w : Int} {E : Nat} {s s' : σ} {R : α → α → W}, P s S R → 1 ≤ v → -1 ≤ w → (v < nodes.length → w < v) →
      (2 * E : Int) = v * (v - 1) + 2 * w + 2 → erLoop T nodes p rs v w s = .ok s' →
      ∃ used rest skips, rs = used ++ rest ∧ List.Forall₂ (Spec.Skips p) used skips ∧
        nodes.length * (nodes.length - 1) / 2 ≤ E + (skips.map (· + 1)).sum ∧
        P s' S (ones (((positions E skips).filter (· < nodes.length * (nodes.length - 1) / 2)).map (pairAt nodes)) R) := by
  induction rs with
  | nil =>
    intro v w E s s' R h hv hw hwv hE hr
    unfold erLoop at hr
    split at hr
    · cases hr
    · cases hr
      rename_i hnv
      refine ⟨[], [], [], rfl, .nil, ?_, F.congr h (fun _ => Iff.rfl) (by simp [positions, ones])⟩
      have := (tri_le_of_int (n := nodes.length) hE hv).1 (by omega) hw
      simpa using this
  | cons r rs ih =>
    intro v w E s s' R h hv hw hwv hE hr
    unfold erLoop at hr
    split at hr
    · rename_i hnv
      simp only at hr
      split at hr
      · cases hr
      rename_i hr01
      rw [not_not] at hr01
      rw [if_neg (by linarith), if_neg hp.ne'] at hr
      obtain ⟨k, hk⟩ := Int.eq_ofNat_of_zero_le (skip_nonneg hp hp1 hr01.1 hr01.2)
      rw [hk] at hr
      obtain ⟨v', w', e1, e2, e3, e4⟩ := erRound (n := nodes.length) (k := k) hv hE hw
      rw [e1] at hr
      simp only at hr
      have hE' : (2 * (E + k + 1 : Nat) : Int) = v' * (v' - 1) + 2 * w' + 2 := by
        have := two_pairIndex v' w'
        rw [e4] at this
        push_cast at this ⊢; linarith
      have hsk : Spec.Skips p r k := (skip_iff hp hp1 hr01.2 k).1 hk
      have fin : ∀ {s1 : σ} {R1 : α → α → W}, P s1 S R1 →
          (∀ L a b, ones L R1 a b = ones ((([E + k].filter (· < nodes.length * (nodes.length - 1) / 2)).map
            (pairAt nodes)) ++ L) R a b) → erLoop T nodes p rs v' w' s1 = .ok s' →
          ∃ used rest skips, r :: rs = used ++ rest ∧ List.Forall₂ (Spec.Skips p) used skips ∧
            nodes.length * (nodes.length - 1) / 2 ≤ E + (skips.map (· + 1)).sum ∧
            P s' S (ones (((positions E skips).filter
              (· < nodes.length * (nodes.length - 1) / 2)).map (pairAt nodes)) R) := by
        intro s1 R1 h1 h2 h3
        obtain ⟨used, rest, skips, i1, i2, i3, i4⟩ := ih h1 e2 (by omega)
          (fun h => by exact_mod_cast e3 h) hE' h3
        refine ⟨r :: used, rest, k :: skips, by simp [i1], .cons hsk i2, ?_, F.congr i4 (fun _ => Iff.rfl) fun a b => ?_⟩
        · simp only [List.map_cons, List.sum_cons]; omega
        · rw [h2]
          have : positions E (k :: skips) = [E + k] ++ positions (E + k + 1) skips := rfl
          rw [this, List.filter_append, List.map_append]
      split at hr
      · rename_i hv'
        have hv'' : v' < nodes.length := by exact_mod_cast hv'
        have hw'' := e3 hv''
        have hlt := pairIndex_lt hw'' hv''
        rw [e4] at hlt
        have hpa : pairAt nodes (E + k) = (nodes[v'], nodes[w']) := by rw [← e4, pairAt_eq hw'' hv'']
        rw [linkAt_eq hw'' hv''] at hr
        obtain ⟨s1, h1, h2⟩ := F.set h (i := nodes[v']) (j := nodes[w'])
          (fun hh => by have := (List.Nodup.getElem_inj_iff hn).1 hh; omega) 1
        rw [h1] at hr
        simp only at hr
        refine fin (F.congr h2 (S' := S) (fun x => ?_) (fun _ _ => rfl)) (fun L a b => ?_) hr
        · constructor
          · rintro (h | rfl | rfl)
            · exact h
            · exact hS _ (List.getElem_mem _)
            · exact hS _ (List.getElem_mem _)
          · exact .inl
        · have := ones_cons (nodes[v'], nodes[w']) L R a b
          rw [this, List.filter_singleton, decide_eq_true hlt]
          simp [hpa]
      · rename_i hv'
        refine fin h (fun L a b => ?_) hr
        have : ¬ E + k < nodes.length * (nodes.length - 1) / 2 := by
          intro hc; rw [← e4] at hc
          have := lt_of_pairIndex hc
          omega
        rw [List.filter_singleton, decide_eq_false this]; rfl
    · cases hr
      refine ⟨[], r :: rs, [], rfl, .nil, ?_, F.congr h (fun _ => Iff.rfl) (by simp [positions, ones])⟩
      have := (tri_le_of_int (n := nodes.length) hE hv).1 (by omega) hw
      simpa using this

theorem erLoop_returns (F : Fills T P) {nodes : List α} (hn : nodes.Nodup) {S : α → Prop} {p : ℝ} (hp : 0 < p)
    (hp1 : p < 1) (hS : ∀ x ∈ nodes, S x) (rs : List ℝ) (hrs : ∀ r ∈ rs, 0 ≤ r ∧ r < 1) :
    ∀ {v : Nat} {w : Int} {E : Nat} {s : σ} {R : α → α → W}, P s S R → 1 ≤ v → -1 ≤ w → (v < nodes.length → w < v) →
      (2 * E : Int) = v * (v - 1) + 2 * w + 2 → nodes.length * (nodes.length - 1) / 2 < rs.length + E →
      ∃ s', erLoop T nodes p rs v w s = .ok s' := by
  induction rs with
  | nil =>
    intro v w E s R h hv hw hwv hE hl
    unfold erLoop
    rw [if_neg]
    · exact ⟨s, rfl⟩
    · intro hc
      have hc : v < nodes.length := by exact_mod_cast hc
      have := (tri_le_of_int (n := nodes.length) hE hv).2 hc (hwv hc)
      simp only [List.length_nil] at hl; omega
  | cons r rs ih =>
    intro v w E s R h hv hw hwv hE hl
    unfold erLoop
    split
    · have hr01 := hrs r (by simp)
      simp only
      rw [if_neg (by rw [not_not]; exact hr01), if_neg (by linarith), if_neg hp.ne']
      obtain ⟨k, hk⟩ := Int.eq_ofNat_of_zero_le (skip_nonneg hp hp1 hr01.1 hr01.2)
      rw [hk]
      obtain ⟨v', w', e1, e2, e3, e4⟩ := erRound (n := nodes.length) (k := k) hv hE hw
      rw [e1]
      simp only
      have hE' : (2 * (E + k + 1 : Nat) : Int) = v' * (v' - 1) + 2 * w' + 2 := by
        have := two_pairIndex v' w'
        rw [e4] at this
        push_cast at this ⊢; linarith
      have fin : ∀ {s1 : σ} {R1 : α → α → W}, P s1 S R1 → ∃ s', erLoop T nodes p rs v' w' s1 = .ok s' := fun h1 =>
        ih (fun r hr => hrs r (by simp [hr])) h1 e2 (by omega) (fun h => by exact_mod_cast e3 h) hE'
          (by simp only [List.length_cons] at hl; omega)
      split
      · rename_i hv'
        have hv'' : v' < nodes.length := by exact_mod_cast hv'
        have hw'' := e3 hv''
        rw [linkAt_eq hw'' hv'']
        obtain ⟨s1, h1, h2⟩ := F.set h (i := nodes[v']) (j := nodes[w'])
          (fun hh => by have := (List.Nodup.getElem_inj_iff hn).1 hh; omega) 1
        rw [h1]
        simp only
        refine fin (F.congr h2 (S' := S) (fun x => ?_) (fun _ _ => rfl))
        constructor
        · rintro (h | rfl | rfl)
          · exact h
          · exact hS _ (List.getElem_mem _)
          · exact hS _ (List.getElem_mem _)
        · exact .inl
      · exact fin h
    · exact ⟨s, rfl⟩

end

end Pymnet
