import Verif.Proofs.CycleAdj2
import Mathlib.Tactic.NoncommRing
import Mathlib.Tactic.Abel

/-! Products of the matrices `a`, `c` and `f` as weights of walks. -/

set_option linter.unusedSectionVars false
set_option linter.unusedSimpArgs false

namespace Pymnet

open Py MPlex

section

variable {α K : Type} [DecidableEq α] [DecidableEq K] [Field K] {N B : Finset α} {M : α → Finset α} {T : α → α → α → K}

/-- the matrix `a` -/
noncomputable def matA (N B : Finset α) (T : α → α → α → K) : Matrix (NL N B) (NL N B) K := fun u v => Spec.alongA T u.1 v.1

open Classical in
/-- the matrix `c` for a coupling of weight `w` -/
noncomputable def matC (N B : Finset α) (M : α → Finset α) (w : K) : Matrix (NL N B) (NL N B) K := fun u v =>
  if Spec.stepC u.1 v.1 ∧ u.1.1 ∈ M u.1.2 ∧ v.1.1 ∈ M v.1.2 then w else 0

open Classical in
/-- the node-layers of the network among all -/
noncomputable def matD (N B : Finset α) (M : α → Finset α) : Matrix (NL N B) (NL N B) K :=
  Matrix.diagonal fun u => if u.1.1 ∈ M u.1.2 then 1 else 0

/-- the matrix `f` restricted to the node-layers of the network -/
noncomputable def matG (N B : Finset α) (M : α → Finset α) : Matrix (NL N B) (NL N B) K := matD N B M * matF N B * matD N B M

/-- what is known about the links -/
structure Links (N B : Finset α) (M : α → Finset α) (T : α → α → α → K) : Prop where
  sub : ∀ l ∈ B, M l ⊆ N
  self : ∀ i l, T i i l = 0
  sym : ∀ i j l, T i j l = T j i l
  on : ∀ i j, ∀ l ∈ B, T i j l ≠ 0 → j ∈ M l

theorem Links.left (h : Links N B M T) {i j l : α} (hl : l ∈ B) (hi : i ∉ M l) : T i j l = 0 := by
  by_contra hne
  rw [h.sym] at hne
  exact hi (h.on j i l hl hne)

theorem Links.right (h : Links N B M T) {i j l : α} (hl : l ∈ B) (hj : j ∉ M l) : T i j l = 0 := by
  by_contra hne
  exact hj (h.on i j l hl hne)

theorem mem_nodeLayers {u : α × α} : u ∈ Spec.nodeLayers N B M ↔ u ∈ N ×ˢ B ∧ u.1 ∈ M u.2 := by
  unfold Spec.nodeLayers
  simp

/-- The matrix has the given steps between node-layers of the network, and nothing else. -/
def Has (M : α → Finset α) (S : Matrix (NL N B) (NL N B) K) (s : α × α → α × α → K) : Prop :=
  ∀ u v : NL N B, (u.1.1 ∈ M u.1.2 → v.1.1 ∈ M v.1.2 → S u v = s u.1 v.1) ∧
    (u.1.1 ∉ M u.1.2 ∨ v.1.1 ∉ M v.1.2 → S u v = 0)

theorem has_A (h : Links N B M T) : Has M (matA N B T) (Spec.alongA T) := by
  intro u v
  refine ⟨fun _ _ => rfl, ?_⟩
  rintro (hu | hv)
  · unfold matA Spec.alongA
    rw [h.left u.layer hu, ite_self]
  · unfold matA Spec.alongA
    split
    · next e => rw [h.right u.layer (by rw [e]; exact hv)]
    · rfl

theorem has_C : Has (K := K) (N := N) (B := B) M (matC N B M 1) Spec.alongC := by
  intro u v
  refine ⟨fun hu hv => ?_, fun h => ?_⟩
  · unfold matC Spec.alongC
    exact ite_iff (by simp [hu, hv])
  · unfold matC
    rw [if_neg]
    rintro ⟨-, h1, h2⟩
    rcases h with h | h
    · exact h h1
    · exact h h2

theorem has_G : Has (K := K) (N := N) (B := B) M (matG N B M) Spec.alongF := by
  intro u v
  have : matG N B M u v = (if u.1.1 ∈ M u.1.2 then (1 : K) else 0) * Spec.alongF u.1 v.1 * (if v.1.1 ∈ M v.1.2 then 1 else 0) := by
    unfold matG matD
    rw [Matrix.mul_diagonal, Matrix.diagonal_mul]
    unfold matF
    congr 1
  refine ⟨fun hu hv => ?_, fun h => ?_⟩
  · rw [this, if_pos hu, if_pos hv]; simp
  · rw [this]
    rcases h with h | h
    · rw [if_neg h]; simp
    · rw [if_neg h]; simp

theorem has_left {S : Matrix (NL N B) (NL N B) K} {s : α × α → α × α → K} (h : Has M S s) : matD N B M * S = S := by
  ext u v
  unfold matD
  rw [Matrix.diagonal_mul]
  by_cases hu : u.1.1 ∈ M u.1.2
  · rw [if_pos hu, one_mul]
  · rw [if_neg hu, (h u v).2 (.inl hu), mul_zero]

theorem has_right {S : Matrix (NL N B) (NL N B) K} {s : α × α → α × α → K} (h : Has M S s) : S * matD N B M = S := by
  ext u v
  unfold matD
  rw [Matrix.mul_diagonal]
  by_cases hv : v.1.1 ∈ M v.1.2
  · rw [if_pos hv, mul_one]
  · rw [if_neg hv, (h u v).2 (.inr hv), mul_zero]

/-- between other steps `f` is as good as restricted -/
theorem sandwich {X Y : Matrix (NL N B) (NL N B) K} (hX : X * matD N B M = X) (hY : matD N B M * Y = Y) :
    X * matF N B * Y = X * matG N B M * Y := by
  conv_lhs => rw [← hX, ← hY]
  unfold matG
  noncomm_ring

theorem sum_NL (f : α × α → K) : ∑ u : NL N B, f u.1 = ∑ u ∈ N ×ˢ B, f u := Finset.sum_coe_sort (N ×ˢ B) f

/-- the entries of a product are weights of walks -/
theorem prod_weigh (ws : List (Matrix (NL N B) (NL N B) K × (α × α → α × α → K))) (hw : ∀ x ∈ ws, Has M x.1 x.2) (hne : ws ≠ [])
    (u v : NL N B) (hu : u.1.1 ∈ M u.1.2) (hv : v.1.1 ∈ M v.1.2) :
    (ws.map Prod.fst).prod u v = Spec.weigh (Spec.nodeLayers N B M) (ws.map Prod.snd) u.1 v.1 := by
  induction ws generalizing u with
  | nil => exact absurd rfl hne
  | cons x ws ih =>
    cases ws with
    | nil =>
      simp only [List.map_cons, List.map_nil, List.prod_cons, List.prod_nil, mul_one, Spec.weigh]
      exact (hw x (by simp) u v).1 hu hv
    | cons y ws =>
      have e : Spec.weigh (Spec.nodeLayers N B M) ((x :: y :: ws).map Prod.snd) u.1 v.1 =
          ∑ t ∈ Spec.nodeLayers N B M, x.2 u.1 t * Spec.weigh (Spec.nodeLayers N B M) ((y :: ws).map Prod.snd) t v.1 := rfl
      rw [e, List.map_cons, List.prod_cons, Matrix.mul_apply]
      have hz : ∀ t : NL N B, t.1.1 ∉ M t.1.2 → x.1 u t = 0 := fun t ht => (hw x (by simp) u t).2 (.inr ht)
      obtain ⟨G, hG⟩ : ∃ G : α × α → K, ∀ t, G t = if t.1 ∈ M t.2 then
          x.2 u.1 t * Spec.weigh (Spec.nodeLayers N B M) ((y :: ws).map Prod.snd) t v.1 else 0 := ⟨_, fun _ => rfl⟩
      have e2 : ∀ t : NL N B, x.1 u t * ((y :: ws).map Prod.fst).prod t v = G t.1 := by
        intro t
        rw [hG]
        by_cases ht : t.1.1 ∈ M t.1.2
        · rw [if_pos ht, (hw x (by simp) u t).1 hu ht, ih (fun z hz => hw z (by simp at hz ⊢; tauto)) (by simp) t ht]
        · rw [if_neg ht, hz t ht, zero_mul]
      rw [Finset.sum_congr rfl fun t _ => e2 t]
      refine (sum_NL G).trans ?_
      rw [Finset.sum_congr rfl fun t _ => hG t, ← Finset.sum_filter]
      refine Finset.sum_congr ?_ fun _ _ => rfl
      ext t
      rw [mem_nodeLayers, Finset.mem_filter]

theorem weigh_zero {U : Type} (X : Finset U) {s : U → U → K} (ss : List (U → U → K)) {u : U} (h : ∀ w, s u w = 0) (v : U) :
    Spec.weigh X (s :: ss) u v = 0 := by
  cases ss with
  | nil => exact h v
  | cons t ss =>
    change ∑ w ∈ X, s u w * _ = 0
    exact Finset.sum_eq_zero fun w _ => by rw [h w, zero_mul]

/-- closed walks that begin with a link -/
theorem prod_closed (hT : Links N B M T) (ws : List (Matrix (NL N B) (NL N B) K × (α × α → α × α → K)))
    (hw : ∀ x ∈ ws, Has M x.1 x.2) (u : NL N B) :
    (matA N B T * (ws.map Prod.fst).prod) u u = Spec.weigh (Spec.nodeLayers N B M) (Spec.alongA T :: ws.map Prod.snd) u.1 u.1 := by
  by_cases hu : u.1.1 ∈ M u.1.2
  · have := prod_weigh ((matA N B T, Spec.alongA T) :: ws) (by
      intro x hx
      rcases List.mem_cons.1 hx with rfl | hx
      · exact has_A hT
      · exact hw x hx) (by simp) u u hu hu
    simpa using this
  · rw [weigh_zero _ _ fun w => by unfold Spec.alongA; rw [hT.left u.layer hu, ite_self]]
    rw [Matrix.mul_apply]
    exact Finset.sum_eq_zero fun w _ => by rw [(has_A hT u w).2 (.inl hu), zero_mul]

section words

variable (hT : Links N B M T)
include hT

theorem words_eq (u : NL N B) {a c f : Matrix (NL N B) (NL N B) K} (ha : a = matA N B T) (hc : c = matC N B M 1)
    (hf : f = matF N B) :
    [(a * a * a) u u, (a * a * c * a * c) u u, (a * c * a * a * c) u u, (a * c * a * c * a) u u, (a * c * a * c * a * c) u u,
     (a * f * a) u u, (a * f * c * a * c) u u, (a * c * f * a * c) u u, (a * c * f * c * a) u u, (a * c * f * c * a * c) u u] =
    Spec.cycleWeights N B M T u.1 := by
  have hA := has_A hT
  have hC : Has (K := K) (N := N) (B := B) M (matC N B M 1) Spec.alongC := has_C
  have hG : Has (K := K) (N := N) (B := B) M (matG N B M) Spec.alongF := has_G
  have key : ∀ (ws : List (Matrix (NL N B) (NL N B) K × (α × α → α × α → K))), (∀ x ∈ ws, Has M x.1 x.2) →
      ∀ Z, Z = matA N B T * (ws.map Prod.fst).prod →
      Z u u = Spec.weigh (Spec.nodeLayers N B M) (Spec.alongA T :: ws.map Prod.snd) u.1 u.1 := by
    rintro ws hws Z rfl
    exact prod_closed hT ws hws u
  obtain ⟨g, hg⟩ : ∃ g : Matrix (NL N B) (NL N B) K, g = matG N B M := ⟨_, rfl⟩
  rw [← ha] at hA key
  rw [← hc] at hC
  rw [← hg] at hG
  have saa : a * f * a = a * g * a := by
    rw [hf, hg]; exact sandwich (has_right hA) (has_left hA)
  have sac : a * f * c = a * g * c := by
    rw [hf, hg]; exact sandwich (has_right hA) (has_left hC)
  have sca : c * f * a = c * g * a := by
    rw [hf, hg]; exact sandwich (has_right hC) (has_left hA)
  have scc : c * f * c = c * g * c := by
    rw [hf, hg]; exact sandwich (has_right hC) (has_left hC)
  unfold Spec.cycleWeights Spec.weightWords
  simp only [List.map_cons, List.map_nil]
  have e1 := key [(a, Spec.alongA T), (a, Spec.alongA T)] (by simp [hA]) (a * a * a) (by simp [mul_assoc])
  have e2 := key [(a, Spec.alongA T), (c, Spec.alongC), (a, Spec.alongA T), (c, Spec.alongC)] (by simp [hA, hC]) (a * a * c * a * c)
    (by simp [mul_assoc])
  have e3 := key [(c, Spec.alongC), (a, Spec.alongA T), (a, Spec.alongA T), (c, Spec.alongC)] (by simp [hA, hC]) (a * c * a * a * c)
    (by simp [mul_assoc])
  have e4 := key [(c, Spec.alongC), (a, Spec.alongA T), (c, Spec.alongC), (a, Spec.alongA T)] (by simp [hA, hC]) (a * c * a * c * a)
    (by simp [mul_assoc])
  have e5 := key [(c, Spec.alongC), (a, Spec.alongA T), (c, Spec.alongC), (a, Spec.alongA T), (c, Spec.alongC)] (by simp [hA, hC])
    (a * c * a * c * a * c) (by simp [mul_assoc])
  have e6 := key [(g, Spec.alongF), (a, Spec.alongA T)] (by simp [hA, hG]) (a * f * a) (by rw [saa]; simp [mul_assoc])
  have e7 := key [(g, Spec.alongF), (c, Spec.alongC), (a, Spec.alongA T), (c, Spec.alongC)] (by simp [hA, hC, hG]) (a * f * c * a * c)
    (by rw [sac]; simp [mul_assoc])
  have e8 := key [(c, Spec.alongC), (g, Spec.alongF), (a, Spec.alongA T), (c, Spec.alongC)] (by simp [hA, hC, hG]) (a * c * f * a * c)
    (by rw [show a * c * f * a * c = a * (c * f * a) * c by simp only [mul_assoc], sca]; simp [mul_assoc])
  have e9 := key [(c, Spec.alongC), (g, Spec.alongF), (c, Spec.alongC), (a, Spec.alongA T)] (by simp [hA, hC, hG]) (a * c * f * c * a)
    (by rw [show a * c * f * c * a = a * (c * f * c) * a by simp only [mul_assoc], scc]; simp [mul_assoc])
  have e10 := key [(c, Spec.alongC), (g, Spec.alongF), (c, Spec.alongC), (a, Spec.alongA T), (c, Spec.alongC)] (by simp [hA, hC, hG])
    (a * c * f * c * a * c)
    (by rw [show a * c * f * c * a * c = a * (c * f * c) * a * c by simp only [mul_assoc], scc]; simp [mul_assoc])
  simp only [List.map_cons, List.map_nil] at e1 e2 e3 e4 e5 e6 e7 e8 e9 e10
  rw [e1, e2, e3, e4, e5, e6, e7, e8, e9, e10]

end words

/-! ### layers -/

/-- steps within a layer -/
def Stays (X : Matrix (NL N B) (NL N B) K) : Prop := ∀ u v : NL N B, u.1.2 ≠ v.1.2 → X u v = 0

/-- steps to another layer -/
def Moves (X : Matrix (NL N B) (NL N B) K) : Prop := ∀ u v : NL N B, u.1.2 = v.1.2 → X u v = 0

theorem Stays.mul {X Y : Matrix (NL N B) (NL N B) K} (hX : Stays X) (hY : Stays Y) : Stays (X * Y) := by
  intro u v huv
  rw [Matrix.mul_apply]
  refine Finset.sum_eq_zero fun w _ => ?_
  by_cases h : u.1.2 = w.1.2
  · rw [hY w v (by rwa [← h]), mul_zero]
  · rw [hX u w h, zero_mul]

theorem Moves.mul {X Y : Matrix (NL N B) (NL N B) K} (hX : Moves X) (hY : Stays Y) : Moves (X * Y) := by
  intro u v huv
  rw [Matrix.mul_apply]
  refine Finset.sum_eq_zero fun w _ => ?_
  by_cases h : u.1.2 = w.1.2
  · rw [hX u w h, zero_mul]
  · rw [hY w v (by rw [← huv]; exact fun e => h e.symm), mul_zero]

theorem Stays.moves {X Y : Matrix (NL N B) (NL N B) K} (hX : Stays X) (hY : Moves Y) : Moves (X * Y) := by
  intro u v huv
  rw [Matrix.mul_apply]
  refine Finset.sum_eq_zero fun w _ => ?_
  by_cases h : u.1.2 = w.1.2
  · rw [hY w v (by rw [← h]; exact huv), mul_zero]
  · rw [hX u w h, zero_mul]

theorem stays_A : Stays (matA N B T) := fun u v h => by unfold matA Spec.alongA; rw [if_neg h]

theorem stays_F : Stays (matF N B : Matrix (NL N B) (NL N B) K) := fun u v h => by
  unfold matF Spec.alongF Spec.stepF; rw [if_neg fun h' => h h'.1]

theorem moves_C (w : K) : Moves (matC N B M w) := fun u v h => by
  unfold matC Spec.stepC; rw [if_neg fun h' => h'.1.2 h]

theorem matA_symm (hT : Links N B M T) : (matA N B T).transpose = matA N B T := by
  ext u v
  rw [Matrix.transpose_apply]
  unfold matA Spec.alongA
  by_cases h : u.1.2 = v.1.2
  · rw [if_pos h, if_pos h.symm, hT.sym, h]
  · rw [if_neg h, if_neg fun e => h e.symm]

theorem matC_symm (w : K) : (matC N B M w).transpose = matC N B M w := by
  ext u v
  rw [Matrix.transpose_apply]
  unfold matC Spec.stepC
  refine ite_iff ?_
  constructor
  · rintro ⟨⟨a, b⟩, c, d⟩; exact ⟨⟨a.symm, b.symm⟩, d, c⟩
  · rintro ⟨⟨a, b⟩, c, d⟩; exact ⟨⟨a.symm, b.symm⟩, d, c⟩

theorem matF_symm : (matF N B : Matrix (NL N B) (NL N B) K).transpose = matF N B := by
  ext u v
  rw [Matrix.transpose_apply]
  unfold matF Spec.alongF Spec.stepF
  refine ite_iff ?_
  constructor
  · rintro ⟨a, b⟩; exact ⟨a.symm, fun h => b h.symm⟩
  · rintro ⟨a, b⟩; exact ⟨a.symm, fun h => b h.symm⟩

theorem diag_transpose (X : Matrix (NL N B) (NL N B) K) (u : NL N B) : X.transpose u u = X u u := rfl

/-- the sum of all alternating walks -/
theorem ach3 (u : NL N B) {a c : Matrix (NL N B) (NL N B) K} (hA : Stays a) (hC : Moves c) :
    (a * (c + 1) * a * (c + 1) * a * (c + 1)) u u = (a * a * a) u u + (a * a * c * a * c) u u + (a * c * a * a * c) u u +
      (a * c * a * c * a) u u + (a * c * a * c * a * c) u u := by
  have e : a * (c + 1) * a * (c + 1) * a * (c + 1) = a * a * a + a * a * c * a * c + a * c * a * a * c + a * c * a * c * a +
      a * c * a * c * a * c + (a * a * a * c + a * a * c * a + a * c * a * a) := by noncomm_ring
  have z1 : (a * a * a * c) u u = 0 := ((hA.mul hA).mul hA).moves hC u u rfl
  have z2 : (a * a * c * a) u u = 0 := ((hA.mul hA).moves hC).mul hA u u rfl
  have z3 : (a * c * a * a) u u = 0 := ((hA.moves hC).mul hA).mul hA u u rfl
  rw [e]
  simp only [Matrix.add_apply, z1, z2, z3, add_zero]

end

end Pymnet
