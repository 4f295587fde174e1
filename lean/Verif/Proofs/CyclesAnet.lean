import Verif.Proofs.Cycles2
import Mathlib.Algebra.Order.Floor.Ring

/-! `cc_cycle_vector_anet` on node-aligned networks without weights. -/

set_option linter.unusedSectionVars false
set_option linter.unusedSimpArgs false

namespace Pymnet

open Py MPlex Spec

variable {α K : Type} [DecidableEq α] [Field K] [LinearOrder K] [IsStrictOrderedRing K] [FloorRing K] [IntNames α]
  {p : MPlex α K} {N B : Finset α} {M : α → Finset α} {A : α → α → α → K}

/-- the number of layers in which two nodes are linked -/
def cntL (B : Finset α) (A : α → α → α → K) (i j : α) : Int := ∑ l ∈ B, if A i j l ≠ 0 then 1 else 0

/-- A node-aligned network without weights and its aggregated network. -/
structure AnetOf (p : MPlex α K) (u : View α K) (N B : Finset α) (M : α → Finset α) (A : α → α → α → K) (w : α → α → K) :
    Prop where
  cyc : CycL p N B M A
  al : p.fic = true
  one : ∀ i j l, l ∈ B → A i j l = 0 ∨ A i j l = 1
  mono : Mono u N w
  ne : u.noEdge = 0
  sum : ∀ i ∈ N, ∀ j ∈ N, w i j = ∑ l ∈ B, A i j l

theorem pyInt_intCast (k : Int) : pyInt (k : K) = k := by
  unfold pyInt
  split <;> simp

theorem cntL_sym (h : CycL p N B M A) (i j : α) : cntL B A i j = cntL B A j i := by
  unfold cntL
  exact Finset.sum_congr rfl fun l _ => by rw [h.base.sym i j]

theorem cntL_nonneg (i j : α) : 0 ≤ cntL B A i j := Finset.sum_nonneg fun l _ => by split <;> simp

theorem sum_pairs_comm {β γ : Type} (X Y : Finset β) (Z : Finset γ) (f : β → β → γ → Int) :
    ∑ x ∈ X, ∑ y ∈ Y, ∑ z ∈ Z, f x y z = ∑ z ∈ Z, ∑ x ∈ X, ∑ y ∈ Y, f x y z := by
  rw [Finset.sum_congr rfl fun x _ => Finset.sum_comm, Finset.sum_comm]

namespace AnetOf

variable {u : View α K} {w : α → α → K}

theorem w_eq (h : AnetOf p u N B M A w) {i j : α} (hi : i ∈ N) (hj : j ∈ N) : w i j = ((cntL B A i j : Int) : K) := by
  rw [h.sum i hi j hj, cntL]
  push_cast
  refine Finset.sum_congr rfl fun l hl => ?_
  rcases h.one i j l hl with e | e <;> simp [e]

theorem w_ne (h : AnetOf p u N B M A w) {i j : α} (hi : i ∈ N) (hj : j ∈ N) : w i j ≠ 0 ↔ cntL B A i j ≠ 0 := by
  rw [h.w_eq hi hj, Int.cast_ne_zero]

theorem int_w (h : AnetOf p u N B M A w) {i j : α} (hi : i ∈ N) (hj : j ∈ N) : pyInt (w i j) = cntL B A i j := by
  rw [h.w_eq hi hj, pyInt_intCast]

theorem cnt_split {l : α} (hl : l ∈ B) (i j : α) :
    cntL B A i j = (if A i j l ≠ 0 then 1 else 0) + ∑ l' ∈ B, if l' ≠ l ∧ A i j l' ≠ 0 then 1 else 0 := by
  unfold cntL
  rw [← Finset.add_sum_erase _ _ hl]
  congr 1
  rw [← Finset.add_sum_erase B (fun l' => if l' ≠ l ∧ A i j l' ≠ 0 then (1 : Int) else 0) hl]
  simp only [ne_eq, not_true_eq_false, false_and, if_false, zero_add]
  refine Finset.sum_congr rfl fun l' hl' => ?_
  simp [(Finset.mem_erase.1 hl').1]

theorem otherLayers (h : AnetOf p u N B M A w) {l : α} (hl : l ∈ B) {i j : α} (hi : i ∈ N) (hj : j ∈ N) (s : Int) :
    p.otherLayers u i j l s = .ok (s + ∑ l' ∈ B, if l' ≠ l ∧ A i j l' ≠ 0 then 1 else 0) := by
  unfold MPlex.otherLayers
  rw [h.mono.num i j, ok_bind, h.cyc.base.lay.num3 i j l hl, ok_bind, pure_eq_ok, h.int_w hi hj, h.cyc.base.ne, cnt_split hl]
  by_cases ha : A i j l ≠ 0
  · rw [if_pos ha, if_pos ha]; congr 1; ring
  · rw [if_neg ha, if_neg ha]; congr 1; ring

theorem walks_CAC (h : CycL p N B M A) {l' l : α} (j n : α) :
    walks (nodeLayers N B M) [stepC, stepA (LinkOf A), stepC] (j, l') (n, l) =
      ∑ l3 ∈ B, if l3 ≠ l' ∧ l3 ≠ l ∧ A j n l3 ≠ 0 then 1 else 0 := by
  rw [walks_C h.sub]
  refine Finset.sum_congr rfl fun l3 hl3 => ?_
  rw [walks_AC h.on h.sub _ _ hl3, ite_ite]
  refine ite_test ?_ _ _
  constructor
  · rintro ⟨⟨a, -⟩, b, c⟩; exact ⟨a, c, b⟩
  · rintro ⟨a, c, b⟩; exact ⟨⟨a, h.on' hl3 b⟩, b, c⟩

theorem aacac (h : AnetOf p u N B M A w) {l : α} (hl : l ∈ B) {c : MNet α K} (hc : p.layerNet l = .ok c) {n : α}
    (hn : n ∈ N) (s : Int) :
    p.anAacac u c n l s = .ok (s + walks (nodeLayers N B M)
      [stepA (LinkOf A), stepA (LinkOf A), stepC, stepA (LinkOf A), stepC] (n, l) (n, l)) := by
  unfold anAacac
  rw [walks_A h.cyc.on _ _ _ hl]
  refine h.cyc.loopA hl hc n (fun i hi s => ?_) s
  rw [walks_A h.cyc.on _ _ _ hl]
  refine h.cyc.loopA hl hc i (fun j hj s => ?_) s
  rw [h.otherLayers hl (h.cyc.onN hl hj) hn, walks_CAC h.cyc]
  congr 2
  exact Finset.sum_congr rfl fun l' _ => ite_test (by tauto) _ _

theorem walks_acaca (h : CycL p N B M A) {l : α} (hl : l ∈ B) (n : α) :
    walks (nodeLayers N B M) [stepA (LinkOf A), stepC, stepA (LinkOf A), stepC, stepA (LinkOf A)] (n, l) (n, l) =
      ∑ i ∈ N, if A n i l ≠ 0 then ∑ j ∈ N, (if A n j l ≠ 0 then
        ∑ l' ∈ B, (if l' ≠ l ∧ A i j l' ≠ 0 then 1 else 0) else 0) else 0 := by
  rw [walks_A h.on _ _ _ hl]
  refine Finset.sum_congr rfl fun i _ => ?_
  by_cases hi : A n i l ≠ 0
  · rw [if_pos hi, if_pos hi, walks_C h.sub]
    simp only [ite_sum, ite_ite]
    rw [Finset.sum_comm]
    refine Finset.sum_congr rfl fun l' hl' => ?_
    rw [walks_A h.on _ _ _ hl', ite_sum]
    refine Finset.sum_congr rfl fun j _ => ?_
    rw [walks_CA h.sub _ _ hl, ite_ite, ite_ite]
    refine ite_test ?_ _ _
    rw [LinkOf, LinkOf, h.base.sym j n]
    constructor
    · rintro ⟨⟨⟨a, -⟩, b⟩, -, -, c⟩; exact ⟨c, a, b⟩
    · rintro ⟨c, a, b⟩; exact ⟨⟨⟨a, h.on' hl' b⟩, b⟩, a.symm, h.on n j l hl c, c⟩
  · rw [if_neg hi, if_neg hi]

theorem acaca (h : AnetOf p u N B M A w) {l : α} (hl : l ∈ B) {c : MNet α K} (hc : p.layerNet l = .ok c) {n : α} (s : Int) :
    ∃ t, p.anAcaca u c n l s = .ok (s + t) ∧ t * 2 = walks (nodeLayers N B M)
      [stepA (LinkOf A), stepC, stepA (LinkOf A), stepC, stepA (LinkOf A)] (n, l) (n, l) := by
  obtain ⟨ns, n1, n2, n3, n4, n5⟩ := h.cyc.nbs hl hc n
  refine ⟨pairSum (fun i j => ∑ l' ∈ B, if l' ≠ l ∧ A i j l' ≠ 0 then 1 else 0) ns, ?_, ?_⟩
  · unfold anAcaca
    rw [n5, ok_bind]
    by_cases hk : 2 ≤ ns.length
    · rw [if_pos (by exact_mod_cast hk), n1, ok_bind]
      refine forPairs_sum n3 (fun i hi j hj _ s => ?_) s
      exact h.otherLayers hl ((n4 i).1 hi).1 ((n4 j).1 hj).1 s
    · rw [if_neg (by exact_mod_cast hk), pairSum_short _ hk, add_zero]; rfl
  · rw [walks_acaca h.cyc hl, pairs_double n3 n4]
    · intro i _ j _
      exact Finset.sum_congr rfl fun l' _ => by rw [h.cyc.base.sym i j]
    · intro i _
      simp [h.cyc.base.self]

theorem acacac (h : AnetOf p u N B M A w) {l : α} (hl : l ∈ B) {c : MNet α K} (hc : p.layerNet l = .ok c) {n : α}
    (hn : n ∈ N) :
    p.anAcacac u c n l = .ok (walks (nodeLayers N B M)
      [stepA (LinkOf A), stepC, stepA (LinkOf A), stepC, stepA (LinkOf A), stepC] (n, l) (n, l)) := by
  unfold anAcacac
  rw [walks_A h.cyc.on _ _ _ hl, ← zero_add (Finset.sum _ _)]
  refine h.cyc.loopA hl hc n (fun i hi s => ?_) 0
  rw [walks_C h.cyc.sub]
  refine h.cyc.loopC hl (h.cyc.on _ _ l hl hi) (fun l' hl' hne _ s => ?_) s
  rw [walks_A h.cyc.on _ _ _ hl']
  refine h.cyc.loopA' hl' i (fun j hj s => ?_) s
  rw [h.otherLayers hl (h.cyc.onN hl' hj) hn, ok_bind, h.cyc.base.lay.num3 j n l' hl', ok_bind, pure_eq_ok, walks_CAC h.cyc,
    h.cyc.base.ne]
  have e : (∑ l3 ∈ B, if l3 ≠ l ∧ A j n l3 ≠ 0 then (1 : Int) else 0) =
      (if A j n l' ≠ 0 then 1 else 0) + ∑ l3 ∈ B, if l3 ≠ l' ∧ l3 ≠ l ∧ A j n l3 ≠ 0 then 1 else 0 := by
    have e1 := cnt_split (A := A) hl j n
    have e2 := cnt_split (A := A) hl' j n
    have e3 : (∑ l3 ∈ B, if l3 ≠ l' ∧ A j n l3 ≠ 0 then (1 : Int) else 0) =
        (if A j n l ≠ 0 then 1 else 0) + ∑ l3 ∈ B, if l3 ≠ l' ∧ l3 ≠ l ∧ A j n l3 ≠ 0 then 1 else 0 := by
      rw [← Finset.add_sum_erase _ _ hl]
      congr 1
      · exact ite_test (by simp [hne.symm]) _ _
      · rw [← Finset.add_sum_erase B (fun l3 => if l3 ≠ l' ∧ l3 ≠ l ∧ A j n l3 ≠ 0 then (1 : Int) else 0) hl]
        simp only [ne_eq, not_true_eq_false, false_and, and_false, if_false, zero_add]
        refine Finset.sum_congr rfl fun l3 h3 => ?_
        simp [(Finset.mem_erase.1 h3).1]
    omega
  rw [e]
  by_cases ha : A j n l' ≠ 0
  · rw [if_pos ha, if_pos ha]; congr 1; ring
  · rw [if_neg ha, if_neg ha]; congr 1; ring

theorem afcac (h : AnetOf p u N B M A w) {l : α} (hl : l ∈ B) {c : MNet α K} (hc : p.layerNet l = .ok c) {n : α}
    (hn : n ∈ N) (s : Int) :
    p.anAfcac u c n l s = .ok (s + walks (nodeLayers N B M)
      [stepA (LinkOf A), stepF, stepC, stepA (LinkOf A), stepC] (n, l) (n, l)) := by
  obtain ⟨ns, n1, n2, n3, n4, n5⟩ := h.cyc.nbs hl hc n
  obtain ⟨us, u1, u2, u3, u4⟩ := h.mono.neigh n
  rw [h.ne] at u3
  unfold anAfcac
  rw [n1, ok_bind, names_eq u1, ok_bind]
  rw [CycL.fin_list (X := N) (c := fun y => w n y ≠ 0) (g := fun y => (∑ i ∈ N, if A n i l ≠ 0 ∧ y ≠ i then 1 else 0) *
    ∑ l2 ∈ B, if l2 ≠ l ∧ A n y l2 ≠ 0 then 1 else 0) us u2 u3, h.cyc.walks_afcac hl]
  · congr 2
    rw [Finset.sum_comm]
    refine Finset.sum_congr rfl fun y hy => ?_
    have e : (∑ l2 ∈ B, ∑ i ∈ N, if A n i l ≠ 0 ∧ y ≠ i ∧ y ∈ M l ∧ l2 ≠ l ∧ A n y l2 ≠ 0 then (1 : Int) else 0) =
        (∑ i ∈ N, if A n i l ≠ 0 ∧ y ≠ i then 1 else 0) * ∑ l2 ∈ B, if l2 ≠ l ∧ A n y l2 ≠ 0 then 1 else 0 := by
      rw [Finset.sum_mul_sum, Finset.sum_comm]
      refine Finset.sum_congr rfl fun i _ => Finset.sum_congr rfl fun l2 _ => ?_
      have hy' : y ∈ M l := by rw [h.cyc.fic h.al l hl]; exact hy
      by_cases h1 : A n i l ≠ 0 ∧ y ≠ i <;> by_cases h2 : l2 ≠ l ∧ A n y l2 ≠ 0
      · rw [if_pos h1, if_pos h2, if_pos ⟨h1.1, h1.2, hy', h2⟩, one_mul]
      · rw [if_neg h2, if_neg fun h' => h2 h'.2.2.2, mul_zero]
      · rw [if_neg h1, if_neg fun h' => h1 ⟨h'.1, h'.2.1⟩, zero_mul]
      · rw [if_neg h1, if_neg fun h' => h1 ⟨h'.1, h'.2.1⟩, zero_mul]
    rw [e]
    by_cases hw : w n y ≠ 0
    · rw [if_pos hw]
    · rw [if_neg hw]
      have h0 : cntL B A n y = 0 := by
        by_contra hx; exact hw ((h.w_ne hn hy).2 hx)
      have h1 := cnt_split (A := A) hl n y
      have h2 : 0 ≤ ∑ l2 ∈ B, if l2 ≠ l ∧ A n y l2 ≠ 0 then (1 : Int) else 0 :=
        Finset.sum_nonneg fun _ _ => by split <;> simp
      have h3 : (0 : Int) ≤ if A n y l ≠ 0 then 1 else 0 := by split <;> simp
      rw [show (∑ l2 ∈ B, if l2 ≠ l ∧ A n y l2 ≠ 0 then (1 : Int) else 0) = 0 by omega, mul_zero]
  · intro y hy _ s
    rw [h.cyc.base.lay.num3 y n l hl, ok_bind, h.mono.num y n, ok_bind, pure_eq_ok, h.int_w hy hn, h.cyc.base.ne,
      ← count_others n3 n4 y, cnt_split hl, h.cyc.base.sym y n]
    have e : ∀ l2, A y n l2 = A n y l2 := fun l2 => h.cyc.base.sym y n l2
    simp only [e]
    by_cases ha : A n y l ≠ 0
    · rw [if_pos ha, if_pos ha, if_pos ((n4 y).2 ⟨hy, ha⟩), if_pos ((n4 y).2 ⟨hy, ha⟩)]
      congr 1; ring
    · have : y ∉ ns := fun h' => ha ((n4 y).1 h').2
      rw [if_neg ha, if_neg ha, if_neg this, if_neg this]
      congr 1; ring

/-- with a layer: the same numbers as without the aggregated network -/
theorem cyclesAnet (h : AnetOf p u N B M A w) {l : α} (hl : l ∈ B) {n : α} (hn : n ∈ N) :
    ∃ v, p.cyclesAnet n (some l) u = .ok v ∧ v.toList = cycleCounts N B M (LinkOf A) (n, l) := by
  obtain ⟨c, hc, -⟩ := h.cyc.child l hl
  obtain ⟨ls, l1, l2, l3⟩ := h.cyc.base.lay.layers
  have hlen : ls.length = B.card := card_of_list l2 l3
  obtain ⟨t, ht, ht2⟩ := h.acaca hl hc (n := n) 0
  unfold MPlex.cyclesAnet
  rw [if_pos ⟨h.cyc.base.asp, h.al⟩, l1, ok_bind]
  dsimp only
  rw [hc, ok_bind, h.cyc.aaa hl hc, ok_bind, h.aacac hl hc hn, ok_bind, h.cyc.acaac hl hc, ok_bind, ht, ok_bind,
    h.acacac hl hc hn, ok_bind, h.cyc.afa hl hc, ok_bind, h.afcac hl hc hn, ok_bind, hlen]
  refine ⟨_, rfl, ?_⟩
  simp only [Cycles.toList, cycleCounts, cycleWords, List.map_cons, List.map_nil, h.cyc.al_acfac h.al hl,
    h.cyc.al_acfca h.al hl, h.cyc.al_acfcac h.al hl, zero_add, ht2]

end AnetOf

end Pymnet
