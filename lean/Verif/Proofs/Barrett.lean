import Verif.Proofs.Contraction
import Mathlib.Algebra.BigOperators.Field

/-! The clustering coefficients of Barrett et al. and of Barrat et al. -/

set_option linter.unusedSectionVars false
set_option linter.unusedSimpArgs false

namespace Pymnet

open Py

variable {α K : Type} [DecidableEq α] [Field K] [LinearOrder K] [IsStrictOrderedRing K]

section sums

variable {N B : Finset α} {A : α → α → α → K} {w : α → α → K}

theorem barrettNom_eq (hw : ∀ i ∈ N, ∀ j ∈ N, w i j = ∑ l ∈ B, A i j l) {i : α} (hi : i ∈ N) :
    Spec.barrettNom N B A i = Spec.weightedTriangles N w i := by
  unfold Spec.barrettNom Spec.weightedTriangles
  refine Finset.sum_congr rfl fun j hj => Finset.sum_congr rfl fun h hh => ?_
  rw [← Finset.sum_mul, hw i hi j hj, hw i hi h hh, hw j hj h hh, ← Finset.sum_mul, mul_assoc]

theorem barrettDen_eq (hw : ∀ i ∈ N, ∀ j ∈ N, w i j = ∑ l ∈ B, A i j l) {i : α} (hi : i ∈ N) :
    Spec.barrettDen N B A i = ∑ j ∈ N, ∑ h ∈ N, w i j * ∑ l ∈ B, max (A i h l) (A j h l) := by
  unfold Spec.barrettDen
  refine Finset.sum_congr rfl fun j hj => Finset.sum_congr rfl fun h hh => ?_
  rw [← Finset.sum_mul, hw i hi j hj]

end sums

namespace Mono

variable {v : View α K} {N : Finset α} {w : α → α → K}

theorem barrettPairs (h : Mono v N w) (h0 : v.noEdge = 0) (hself : ∀ x, w x x = 0) (n : α) {l : List α} (hn : l.Nodup)
    (hl : ∀ x, x ∈ l ↔ x ∈ N ∧ w n x ≠ 0) :
    forPairs (v.barrettPair [n]) (l.map fun x => [x]) 0 = .ok (Spec.weightedTriangles N w n / 2) := by
  have key := forPairs_sum (f := v.barrettPair [n])
    (g := fun a b => w n (a.headD n) * w n (b.headD n) * w (a.headD n) (b.headD n))
    (l := l.map fun x => [x]) (hn.map (fun x y e => by simpa using e)) (by
      intro a ha b hb _ s
      simp only [List.mem_map] at ha hb
      obtain ⟨x, -, rfl⟩ := ha
      obtain ⟨y, -, rfl⟩ := hb
      unfold View.barrettPair
      simp only [h.num2, ok_bind, pure_eq_ok, h0, List.headD_cons]
      congr 1
      by_cases hxy : w x y = 0
      · simp [hxy]
      · simp [hxy]) 0
  rw [key, zero_add]
  simp only [pairSum_map, List.headD_cons]
  have e1 := pairSum_double (g := fun a b => w n a * w n b * w a b) hn
    (fun i _ j _ => by rw [h.sym i j]; ring)
  rw [sum_neighbors hl (by
    intro i j hij
    by_cases he : i = j
    · rw [if_pos he]
    · rw [if_neg he]; rcases hij with h | h <;> simp [h])] at e1
  have f1 : ∑ i ∈ N, ∑ j ∈ N, (if i = j then 0 else w n i * w n j * w i j) = Spec.weightedTriangles N w n := by
    unfold Spec.weightedTriangles
    refine Finset.sum_congr rfl fun i _ => Finset.sum_congr rfl fun j _ => ?_
    by_cases he : i = j
    · rw [if_pos he, he, hself]; ring
    · rw [if_neg he]
  rw [f1] at e1
  rw [← e1]
  congr 1
  ring

end Mono

theorem Lay.maxSum {v : View α K} {N B : Finset α} {A : α → α → α → K} (h : Lay v N B A) (i j x : α) {ls : List α}
    (h2 : ls.Nodup) {C : Finset α} (h3 : ∀ y, y ∈ ls ↔ y ∈ C) (hC : C ⊆ B) :
    v.maxSum i j x ls = .ok (∑ l ∈ C, max (A i x l) (A j x l)) := by
  unfold View.maxSum
  rw [forE_fin h2 h3 (g := fun l => max (A i x l) (A j x l)) (fun l hl s => by
    rw [h.num3 i x l (hC hl), ok_bind, h.num3 j x l (hC hl), ok_bind]; rfl), zero_add]

section barrett

variable {v u : View α K} {N B : Finset α} {A : α → α → α → K} {w : α → α → K}

theorem barrett_spec (hv : Lay v N B A) (hu : Mono u N w) (h0 : u.noEdge = 0) (hself : ∀ x, w x x = 0)
    (hw : ∀ i ∈ N, ∀ j ∈ N, w i j = ∑ l ∈ B, A i j l) {n : α} (hn : n ∈ N) :
    View.barrett v u n = .ok (if (Spec.neighbours N (fun i j => w i j ≠ 0) n).card < 2 then none
      else Spec.quotient (Spec.barrettNom N B A n) (Spec.barrettDen N B A n)) := by
  obtain ⟨l, h1, h2, h3, h4, hc⟩ := hu.neigh0 h0 n
  obtain ⟨ls, l1, l2, l3⟩ := hv.layers
  unfold View.barrett
  rw [h4, ok_bind, hc]
  by_cases hk : 2 ≤ l.length
  · have hden : View.barrettDen v u n (l.map fun x => [x]) ls = .ok (Spec.barrettDen N B A n) := by
      unfold View.barrettDen
      rw [forE_sum (g := fun jl => ∑ x ∈ N, w n (jl.headD n) * ∑ l ∈ B, max (A n x l) (A (jl.headD n) x l))]
      · rw [zero_add, List.map_map]
        simp only [Function.comp_def, List.headD_cons]
        rw [sum_neighbor h2 h3 (fun i hi => by simp [hi]), barrettDen_eq hw hn]
      · intro jl hjl s
        simp only [List.mem_map] at hjl
        obtain ⟨j, -, rfl⟩ := hjl
        simp only [View.name1, ok_bind, List.headD_cons]
        refine forE_fin hu.nodup hu.mem (fun x _ s => ?_) s
        rw [hv.maxSum n j x l2 l3 (Finset.Subset.refl _), ok_bind, hu.num, ok_bind]
        rfl
    rw [if_pos (by exact_mod_cast hk), if_neg (by omega), h1, ok_bind, hu.barrettPairs h0 hself n h2 h3, ok_bind,
      l1, ok_bind, hden, ok_bind, pure_eq_ok, barrettNom_eq hw hn]
    congr 1
    unfold Spec.quotient
    by_cases hd : Spec.barrettDen N B A n = 0
    · rw [if_pos hd, if_neg (by simpa using hd)]
    · rw [if_neg hd, if_pos hd]
      congr 1
      congr 1
      field_simp
  · rw [if_neg (by exact_mod_cast hk), if_pos (by omega)]
    rfl

theorem barrett_few (hu : Mono u N w) (h0 : u.noEdge = 0) (hself : ∀ x, w x x = 0)
    (hw : ∀ i ∈ N, ∀ j ∈ N, w i j = ∑ l ∈ B, A i j l) {n : α} (hn : n ∈ N)
    (hk : (Spec.neighbours N (fun i j => w i j ≠ 0) n).card < 2) : Spec.barrettNom N B A n = 0 := by
  obtain ⟨l, h1, h2, h3, h4, hc⟩ := hu.neigh0 h0 n
  rw [barrettNom_eq hw hn]
  exact Mono.few_triangles hself n h2 h3 (by omega)

theorem Lay.barrettExplicit (hv : Lay v N B A) (n : α) :
    v.barrettExplicit n = .ok (Spec.quotient (Spec.barrettNom N B A n) (Spec.barrettDen N B A n)) := by
  obtain ⟨ls, l1, l2, l3⟩ := hv.layers
  have hloop : ∀ {t1 : α → α → Except Err K} {g : α → α → K}, (∀ j h, t1 j h = .ok (g j h)) →
      v.explicitLoop n ls t1 = .ok (∑ j ∈ N, ∑ h ∈ N, ∑ k ∈ B, A n j k * g j h) := by
    intro t1 g ht
    unfold View.explicitLoop
    rw [forE_fin hv.nodup hv.mem fun j _ s => forE_fin hv.nodup hv.mem (fun h _ s =>
      forE_fin l2 l3 (g := fun k => A n j k * g j h) (fun k hk s => by
        rw [ht, ok_bind, hv.num3 n j k hk, ok_bind]; rfl) s) s, zero_add]
  have ht2 : ∀ j h, v.explicitT2 j h ls = .ok (∑ m ∈ B, A j h m) := by
    intro j h
    unfold View.explicitT2
    rw [forE_fin l2 l3 (g := fun m => A j h m) (fun k hk s => by rw [hv.num3 j h k hk, ok_bind]; rfl), zero_add]
  have ht1 : ∀ j h, v.explicitT1 n j h ls = .ok (∑ l ∈ B, A n h l * ∑ m ∈ B, A j h m) := by
    intro j h
    unfold View.explicitT1
    rw [forE_fin l2 l3 (g := fun l => A n h l * ∑ m ∈ B, A j h m) (fun k hk s => by
      rw [ht2, ok_bind, hv.num3 n h k hk, ok_bind, mul_comm]; rfl), zero_add]
  unfold View.barrettExplicit
  rw [l1, ok_bind, hloop ht1, ok_bind, hloop fun j h => hv.maxSum n j h l2 l3 (Finset.Subset.refl _), ok_bind, pure_eq_ok]
  congr 1
  unfold Spec.quotient Spec.barrettNom Spec.barrettDen
  split <;> simp_all

end barrett

/-! ### Barrat et al. -/

theorem barratSum_def (N : Finset α) (w : α → α → K) (i : α) : Spec.barratSum N w i =
    ∑ j ∈ N, ∑ h ∈ N, if w i j ≠ 0 ∧ w i h ≠ 0 ∧ w j h ≠ 0 then (w i j + w i h) / 2 else 0 := by
  unfold Spec.barratSum
  congr!

theorem Spec.Looks.barrat {m : MNet α K} {al : Bool} {S : Nat → α → Prop} {NL : List α → Prop}
    {R : List α → List α → K} (h : Spec.Looks m 0 0 false al S NL R) {N : Finset α} (hN : ∀ x, x ∈ N ↔ S 0 x)
    (hself : ∀ x, R [x] [x] = 0) (hpos : ∀ i j, 0 ≤ R [i] [j]) {n : α} (hn : n ∈ N) :
    m.barrat [n] = .ok (if (Spec.neighbours N (fun i j => R [i] [j] ≠ 0) n).card < 2 then none
      else some (Spec.barratSum N (fun i j => R [i] [j]) n /
        (((Spec.neighbours N (fun i j => R [i] [j] ≠ 0) n).card - 1) * ∑ j ∈ N, R [n] [j]))) ∧
    ((2 ≤ (Spec.neighbours N (fun i j => R [i] [j] ≠ 0) n).card) → 0 < ∑ j ∈ N, R [n] [j]) := by
  have hz : m.view.noEdge = 0 := h.noEdge_eq
  have hm := h.mono hN
  set w : α → α → K := fun i j => R [i] [j] with hwd
  obtain ⟨l, h1, h2, h3, h4, hc⟩ := hm.neigh0 hz n
  have hstr : m.str [n] none = .ok (∑ j ∈ N, w n j) := by
    have hd : m.directed = false := h.directed_eq
    have e1 : m.view.neighbors [n] = .ok (m.iterTotal [n] none) :=
      View.neighbors_eq (by rw [show m.view.aspects = 0 from h.aspects_eq]; rfl)
    rw [h1] at e1
    have e2 : m.iterOut [n] none = l.map fun x => [x] := by
      injection e1 with e1
      rw [e1]
      simp [MNet.iterTotal, MNet.iterOut, hd]
    unfold MNet.str
    rw [hd, if_neg (by simp), MNet.strOut_spec h.inv, e2, List.map_map]
    congr 1
    have e3 : ((fun b => m.reads [n] b) ∘ fun x => [x]) = fun x => w n x := by
      funext x
      exact h.reads_eq rfl rfl
    rw [e3]
    exact sum_neighbor h2 h3 fun i hi => hi
  have hspos : 2 ≤ l.length → 0 < ∑ j ∈ N, w n j := by
    intro hk
    obtain ⟨a, ha⟩ : ∃ a, a ∈ l := by
      match l, hk with
      | a :: t, _ => exact ⟨a, by simp⟩
    refine Finset.sum_pos' (fun j _ => hpos n j) ⟨a, ((h3 a).1 ha).1, ?_⟩
    exact lt_of_le_of_ne (hpos n a) (Ne.symm ((h3 a).1 ha).2)
  rw [hc]
  refine ⟨?_, hspos⟩
  unfold MNet.barrat
  rw [h4, ok_bind]
  by_cases hk : 2 ≤ l.length
  · rw [if_pos (by exact_mod_cast hk), if_neg (by omega), h1, ok_bind]
    rw [forPairs_sum (g := fun a b => if w (a.headD n) (b.headD n) ≠ 0 then w n (a.headD n) + w n (b.headD n) else 0)
      (h2.map (fun x y e => by simpa using e)) (by
        intro a ha b hb _ s
        simp only [List.mem_map] at ha hb
        obtain ⟨x, -, rfl⟩ := ha
        obtain ⟨y, -, rfl⟩ := hb
        simp only [hm.num2, ok_bind, pure_eq_ok, hz, List.headD_cons]
        by_cases hxy : w x y = 0
        · simp [hxy]
        · simp [hxy]), ok_bind, hstr, ok_bind, zero_add]
    have e0 : pairSum (fun a b : List α => if w (a.headD n) (b.headD n) ≠ 0 then w n (a.headD n) + w n (b.headD n) else 0)
        (l.map fun x => [x]) = pairSum (fun a b => if w a b ≠ 0 then w n a + w n b else 0) l := by
      rw [pairSum_map]; rfl
    rw [e0]
    have e1 := pairSum_double (g := fun a b => if w a b ≠ 0 then w n a + w n b else 0) h2
      (fun i _ j _ => by rw [hm.sym i j, add_comm])
    have e2 : ∑ i ∈ l.toFinset, ∑ j ∈ l.toFinset, (if i = j then 0 else if w i j ≠ 0 then w n i + w n j else 0) =
        2 * Spec.barratSum N w n := by
      have e3 : ∑ i ∈ l.toFinset, ∑ j ∈ l.toFinset, (if i = j then 0 else if w i j ≠ 0 then w n i + w n j else 0) =
          ∑ i ∈ l.toFinset, ∑ j ∈ l.toFinset, (if w n i ≠ 0 ∧ w n j ≠ 0 ∧ w i j ≠ 0 then w n i + w n j else 0) := by
        refine Finset.sum_congr rfl fun i hi => Finset.sum_congr rfl fun j hj => ?_
        have hi' := ((h3 i).1 (List.mem_toFinset.1 hi)).2
        have hj' := ((h3 j).1 (List.mem_toFinset.1 hj)).2
        by_cases he : i = j
        · subst he; simp [hself, hwd]
        · rw [if_neg he]; simp [hi', hj']
      rw [e3, sum_neighbors h3 (fun i j hij => by rcases hij with e | e <;> simp [e])]
      rw [barratSum_def, Finset.mul_sum]
      refine Finset.sum_congr rfl fun i _ => ?_
      rw [Finset.mul_sum]
      refine Finset.sum_congr rfl fun j _ => ?_
      split
      · field_simp
      · simp
    rw [e2] at e1
    have e4 : pairSum (fun a b => if w a b ≠ 0 then w n a + w n b else 0) l = Spec.barratSum N w n := by
      have : (2 : K) ≠ 0 := two_ne_zero
      linarith
    rw [e4]
    have hl1 : (2 : K) ≤ l.length := by exact_mod_cast hk
    simp only [divE]
    push_cast
    rw [if_neg (mul_ne_zero (by linarith) (hspos hk).ne'), ok_bind]
    rfl
  · rw [if_neg (by exact_mod_cast hk), if_pos (by omega)]
    rfl

/-- Barrat's sum is at most `(k-1) s`. -/
theorem barratSum_le {N : Finset α} {w : α → α → K} (hpos : ∀ i j, 0 ≤ w i j) (hself : ∀ x, w x x = 0) (n : α) :
    0 ≤ Spec.barratSum N w n ∧
    Spec.barratSum N w n ≤ ((Spec.neighbours N (fun i j => w i j ≠ 0) n).card - 1) * ∑ j ∈ N, w n j := by
  classical
  set k := Spec.neighbours N (fun i j => w i j ≠ 0) n with hk
  have hkm : ∀ x, x ∈ k ↔ x ∈ N ∧ w n x ≠ 0 := fun x => by simp [hk, Spec.neighbours]
  rw [barratSum_def]
  constructor
  · refine Finset.sum_nonneg fun i _ => Finset.sum_nonneg fun j _ => ?_
    split
    · have := hpos n i; have := hpos n j; linarith
    · exact le_refl _
  · have hsub : k ⊆ N := fun x hx => ((hkm x).1 hx).1
    have hs : ∑ j ∈ N, w n j = ∑ j ∈ k, w n j := by
      refine (Finset.sum_subset hsub fun x hx hm => ?_).symm
      by_contra hc; exact hm ((hkm x).2 ⟨hx, hc⟩)
    have e : (∑ j ∈ N, ∑ h ∈ N, if w n j ≠ 0 ∧ w n h ≠ 0 ∧ w j h ≠ 0 then (w n j + w n h) / 2 else 0) ≤
        ∑ j ∈ k, ∑ h ∈ k, if j = h then 0 else (w n j + w n h) / 2 := by
      rw [← Finset.sum_subset hsub (f := fun j => ∑ h ∈ N, if w n j ≠ 0 ∧ w n h ≠ 0 ∧ w j h ≠ 0 then (w n j + w n h) / 2 else 0)]
      · refine Finset.sum_le_sum fun j hj => ?_
        rw [← Finset.sum_subset hsub (f := fun h => if w n j ≠ 0 ∧ w n h ≠ 0 ∧ w j h ≠ 0 then (w n j + w n h) / 2 else 0)]
        · refine Finset.sum_le_sum fun h _ => ?_
          by_cases he : j = h
          · subst he; simp [hself]
          · rw [if_neg he]
            split
            · exact le_refl _
            · have := hpos n j; have := hpos n h; linarith
        · intro h hh hm
          rw [if_neg]
          rintro ⟨-, h2, -⟩
          exact hm ((hkm h).2 ⟨hh, h2⟩)
      · intro j hj hm
        refine Finset.sum_eq_zero fun h _ => ?_
        rw [if_neg]
        rintro ⟨h2, -⟩
        exact hm ((hkm j).2 ⟨hj, h2⟩)
    have e2 : (∑ j ∈ k, ∑ h ∈ k, if j = h then 0 else (w n j + w n h) / 2) = (k.card - 1) * ∑ j ∈ k, w n j := by
      have : ∀ j ∈ k, (∑ h ∈ k, if j = h then 0 else (w n j + w n h) / 2) =
          (k.card * w n j + ∑ h ∈ k, w n h) / 2 - w n j := by
        intro j hj
        have : ∀ h ∈ k, (if j = h then 0 else (w n j + w n h) / 2) =
            (w n j + w n h) / 2 - if j = h then (w n j + w n h) / 2 else 0 := by
          intro h _; split <;> simp
        rw [Finset.sum_congr rfl this, Finset.sum_sub_distrib, Finset.sum_ite_eq, if_pos hj, ← Finset.sum_div,
          Finset.sum_add_distrib, Finset.sum_const, nsmul_eq_mul]
        ring
      rw [Finset.sum_congr rfl this, Finset.sum_sub_distrib, ← Finset.sum_div, Finset.sum_add_distrib, Finset.sum_const,
        nsmul_eq_mul, ← Finset.mul_sum]
      ring
    rw [hs]
    exact (e.trans (le_of_eq e2))

end Pymnet
