import Verif.Proofs.CyclesAnet
import Mathlib.Tactic.Linarith

/-! `cc_cycle_vector_anet` without a layer: the sums over the layers. -/

set_option linter.unusedSectionVars false
set_option linter.unusedSimpArgs false

namespace Pymnet

open Py MPlex Spec

variable {α K : Type} [DecidableEq α] [Field K] [LinearOrder K] [IsStrictOrderedRing K] [FloorRing K] [IntNames α]
  {p : MPlex α K} {N B : Finset α} {M : α → Finset α} {A : α → α → α → K}

/-- the number of triangles at a node with the given layers of their links -/
def triT (N : Finset α) (A : α → α → α → K) (n l1 l2 l3 : α) : Int :=
  ∑ i ∈ N, ∑ j ∈ N, if A n i l1 ≠ 0 ∧ A i j l2 ≠ 0 ∧ A j n l3 ≠ 0 then 1 else 0

namespace CycL

variable (h : CycL p N B M A)
include h

theorem triT_rev (n l1 l2 l3 : α) : triT N A n l1 l2 l3 = triT N A n l3 l2 l1 := by
  unfold triT
  rw [Finset.sum_comm]
  refine Finset.sum_congr rfl fun i _ => Finset.sum_congr rfl fun j _ => ite_test ?_ _ _
  rw [h.base.sym n j l1, h.base.sym j i l2, h.base.sym i n l3]
  tauto

theorem t_aaa {l : α} (hl : l ∈ B) (n : α) :
    walks (nodeLayers N B M) [stepA (LinkOf A), stepA (LinkOf A), stepA (LinkOf A)] (n, l) (n, l) = triT N A n l l l := by
  rw [walks_A h.on _ _ _ hl]
  simp only [walks_A h.on _ _ _ hl, walks_A1, ite_sum, ite_ite]
  unfold triT
  refine Finset.sum_congr rfl fun i _ => Finset.sum_congr rfl fun j _ => ite_test ?_ _ _
  simp only [LinkOf, true_and]

theorem t_aacac {l : α} (hl : l ∈ B) (n : α) :
    walks (nodeLayers N B M) [stepA (LinkOf A), stepA (LinkOf A), stepC, stepA (LinkOf A), stepC] (n, l) (n, l) =
      ∑ l3 ∈ B, if l3 ≠ l then triT N A n l l l3 else 0 := by
  rw [walks_A h.on _ _ _ hl]
  simp only [walks_A h.on _ _ _ hl, AnetOf.walks_CAC h, ite_sum, ite_ite, triT]
  rw [sum_pairs_comm]
  refine Finset.sum_congr rfl fun l3 _ => Finset.sum_congr rfl fun i _ => Finset.sum_congr rfl fun j _ => ite_test ?_ _ _
  simp only [LinkOf]; tauto

theorem t_acaac {l : α} (hl : l ∈ B) (n : α) :
    walks (nodeLayers N B M) [stepA (LinkOf A), stepC, stepA (LinkOf A), stepA (LinkOf A), stepC] (n, l) (n, l) =
      ∑ l2 ∈ B, if l2 ≠ l then triT N A n l l2 l2 else 0 := by
  rw [walks_A h.on _ _ _ hl]
  simp only [walks_C h.sub, ite_sum, triT]
  rw [Finset.sum_comm]
  refine Finset.sum_congr rfl fun l2 hl2 => Finset.sum_congr rfl fun i _ => ?_
  rw [walks_A h.on _ _ _ hl2]
  simp only [walks_AC h.on h.sub _ _ hl2, ite_sum, ite_ite]
  refine Finset.sum_congr rfl fun j _ => ite_test ?_ _ _
  have := h.on' hl2 (i := i) (j := j)
  simp only [LinkOf]; tauto

theorem t_acaca {l : α} (hl : l ∈ B) (n : α) :
    walks (nodeLayers N B M) [stepA (LinkOf A), stepC, stepA (LinkOf A), stepC, stepA (LinkOf A)] (n, l) (n, l) =
      ∑ l2 ∈ B, if l2 ≠ l then triT N A n l l2 l else 0 := by
  rw [AnetOf.walks_acaca h hl]
  simp only [ite_sum, ite_ite, triT]
  rw [sum_pairs_comm]
  refine Finset.sum_congr rfl fun l2 hl2 => Finset.sum_congr rfl fun i _ => Finset.sum_congr rfl fun j _ => ite_test ?_ _ _
  rw [h.base.sym n j l]; tauto

theorem t_acacac {l : α} (hl : l ∈ B) (n : α) :
    walks (nodeLayers N B M) [stepA (LinkOf A), stepC, stepA (LinkOf A), stepC, stepA (LinkOf A), stepC] (n, l) (n, l) =
      ∑ l2 ∈ B, ∑ l3 ∈ B, if l2 ≠ l ∧ l3 ≠ l2 ∧ l3 ≠ l then triT N A n l l2 l3 else 0 := by
  rw [walks_A h.on _ _ _ hl]
  simp only [walks_C h.sub, ite_sum, triT]
  rw [Finset.sum_comm]
  refine Finset.sum_congr rfl fun l2 hl2 => ?_
  rw [Finset.sum_comm]
  refine Finset.sum_congr rfl fun i _ => ?_
  simp only [walks_A h.on _ _ _ hl2, AnetOf.walks_CAC h, ite_sum, ite_ite]
  rw [Finset.sum_comm]
  refine Finset.sum_congr rfl fun l3 _ => Finset.sum_congr rfl fun j _ => ite_test ?_ _ _
  have := h.on' hl2 (i := i) (j := j)
  simp only [LinkOf]; tauto

/-- over all layers, the two ends of a cycle can be swapped -/
theorem sum_acaac (n : α) :
    (∑ l ∈ B, ∑ l2 ∈ B, if l2 ≠ l then triT N A n l l2 l2 else 0) =
      ∑ l ∈ B, ∑ l3 ∈ B, if l3 ≠ l then triT N A n l l l3 else 0 := by
  rw [Finset.sum_comm]
  refine Finset.sum_congr rfl fun l _ => Finset.sum_congr rfl fun l3 _ => ?_
  rw [h.triT_rev n l3 l l]
  exact ite_test ⟨Ne.symm, Ne.symm⟩ _ _

/-- the five kinds of cycles are all the triangles of the aggregated network -/
theorem sum_all (n : α) :
    (∑ l ∈ B, ∑ l2 ∈ B, ∑ l3 ∈ B, triT N A n l l2 l3) =
      (∑ l ∈ B, triT N A n l l l) + (∑ l ∈ B, ∑ l3 ∈ B, if l3 ≠ l then triT N A n l l l3 else 0) +
        (∑ l ∈ B, ∑ l2 ∈ B, if l2 ≠ l then triT N A n l l2 l2 else 0) +
        (∑ l ∈ B, ∑ l2 ∈ B, if l2 ≠ l then triT N A n l l2 l else 0) +
        ∑ l ∈ B, ∑ l2 ∈ B, ∑ l3 ∈ B, if l2 ≠ l ∧ l3 ≠ l2 ∧ l3 ≠ l then triT N A n l l2 l3 else 0 := by
  simp only [← Finset.sum_add_distrib]
  refine Finset.sum_congr rfl fun l hl => ?_
  have e : ∀ l2 ∈ B, ∀ l3 ∈ B, triT N A n l l2 l3 =
      (if l2 = l then if l3 = l then triT N A n l l l else 0 else 0) +
        (if l2 = l then (if l3 ≠ l then triT N A n l l l3 else 0) else 0) +
        (if l3 = l2 then (if l2 ≠ l then triT N A n l l2 l2 else 0) else 0) +
        (if l3 = l then (if l2 ≠ l then triT N A n l l2 l else 0) else 0) +
        (if l2 ≠ l ∧ l3 ≠ l2 ∧ l3 ≠ l then triT N A n l l2 l3 else 0) := by
    intro l2 _ l3 _
    by_cases h1 : l2 = l
    · subst h1
      by_cases h2 : l3 = l2
      · subst h2; simp
      · simp [h2]
    · by_cases h2 : l3 = l2
      · subst h2; simp [h1]
      · by_cases h3 : l3 = l
        · subst h3; simp [h1, h2]
        · simp [h1, h2, h3]
  rw [Finset.sum_congr rfl fun l2 h2 => Finset.sum_congr rfl fun l3 h3 => e l2 h2 l3 h3]
  simp only [Finset.sum_add_distrib]
  congr 1
  congr 1
  · congr 1
    · congr 1
      · rw [Finset.sum_eq_single l]
        · rw [Finset.sum_eq_single l] <;> simp +contextual [hl]
        · intro b _ hb; simp [hb]
        · intro h'; exact absurd hl h'
      · rw [Finset.sum_eq_single l]
        · simp
        · intro b _ hb; simp [hb]
        · intro h'; exact absurd hl h'
    · refine Finset.sum_congr rfl fun l2 h2 => ?_
      rw [Finset.sum_ite_eq_of_mem' _ _ _ h2]
  · refine Finset.sum_congr rfl fun l2 h2 => ?_
    rw [Finset.sum_ite_eq_of_mem' _ _ _ hl]

end CycL

theorem prod3 (P Q R : α → Prop) [DecidablePred P] [DecidablePred Q] [DecidablePred R] :
    (∑ l ∈ B, if P l then (1 : Int) else 0) * (∑ l ∈ B, if Q l then (1 : Int) else 0) *
        (∑ l ∈ B, if R l then (1 : Int) else 0) =
      ∑ l ∈ B, ∑ l2 ∈ B, ∑ l3 ∈ B, if P l ∧ Q l2 ∧ R l3 then 1 else 0 := by
  rw [Finset.sum_mul_sum, Finset.sum_mul]
  refine Finset.sum_congr rfl fun l _ => ?_
  rw [Finset.sum_mul_sum]
  refine Finset.sum_congr rfl fun l2 _ => Finset.sum_congr rfl fun l3 _ => ?_
  by_cases hP : P l <;> by_cases hQ : Q l2 <;> by_cases hR : R l3 <;> simp [hP, hQ, hR]

namespace AnetOf

variable {u : View α K} {w : α → α → K}

theorem tot (h : AnetOf p u N B M A w) {n : α} (hn : n ∈ N) :
    ∃ t, p.anTot u n = .ok t ∧ 2 * t = ∑ l ∈ B, ∑ l2 ∈ B, ∑ l3 ∈ B, triT N A n l l2 l3 := by
  obtain ⟨us, u1, u2, u3, u4⟩ := h.mono.neigh n
  rw [h.ne] at u3
  have h0 : ∀ i ∈ N, ∀ j ∈ N, ¬ w i j ≠ 0 → cntL B A i j = 0 := fun i hi j hj hw => by
    by_contra hx; exact hw ((h.w_ne hi hj).2 hx)
  refine ⟨pairSum (fun i j => cntL B A n i * cntL B A i j * cntL B A j n) us, ?_, ?_⟩
  · unfold anTot
    rw [u4, ok_bind]
    by_cases hk : 2 ≤ us.length
    · rw [if_pos (by exact_mod_cast hk), names_eq u1, ok_bind]
      rw [← zero_add (pairSum _ _)]
      refine forPairs_sum u2 (fun i hi j hj _ s => ?_) 0
      have hi' := ((u3 i).1 hi).1
      have hj' := ((u3 j).1 hj).1
      rw [h.mono.num i j, ok_bind, h.cyc.base.ne]
      by_cases hw : w i j ≠ 0
      · rw [if_pos hw, h.mono.num n i, ok_bind, h.mono.num j n, ok_bind, pure_eq_ok, h.int_w hn hi', h.int_w hi' hj',
          h.int_w hj' hn]
      · rw [if_neg hw, h0 i hi' j hj' hw]; simp [pure_eq_ok]
    · rw [if_neg (by exact_mod_cast hk), pairSum_short _ hk]; rfl
  · rw [mul_comm, pairs_double u2 u3]
    · have e : ∀ i ∈ N, (if w n i ≠ 0 then ∑ j ∈ N, (if w n j ≠ 0 then cntL B A n i * cntL B A i j * cntL B A j n else 0) else 0) =
          ∑ j ∈ N, cntL B A n i * cntL B A i j * cntL B A j n := by
        intro i hi
        by_cases hw : w n i ≠ 0
        · rw [if_pos hw]
          refine Finset.sum_congr rfl fun j hj => ?_
          by_cases hw' : w n j ≠ 0
          · rw [if_pos hw']
          · rw [if_neg hw', cntL_sym h.cyc j n, h0 n hn j hj hw', mul_zero]
        · rw [if_neg hw, h0 n hn i hi hw]; simp
      rw [Finset.sum_congr rfl e]
      simp only [cntL, triT, prod3]
      rw [sum_pairs_comm]
      refine Finset.sum_congr rfl fun l _ => ?_
      rw [sum_pairs_comm]
      refine Finset.sum_congr rfl fun l2 _ => ?_
      rw [sum_pairs_comm]
    · intro i _ j _
      rw [cntL_sym h.cyc n i, cntL_sym h.cyc i j, cntL_sym h.cyc j n]; ring
    · intro i hi
      have : cntL B A i i = 0 := by unfold cntL; simp [h.cyc.base.self]
      rw [this]; simp

theorem layers_sum (h : AnetOf p u N B M A w) {ls : List α} (l2 : ls.Nodup) (l3 : ∀ x, x ∈ ls ↔ x ∈ B)
    {f : MNet α K → α → Int → Except Err Int} {g : α → Int}
    (hf : ∀ l ∈ B, ∀ c, p.layerNet l = .ok c → ∀ s, f c l s = .ok (s + g l)) :
    p.onLayers ls f = .ok (∑ l ∈ B, g l) := by
  unfold onLayers
  rw [← zero_add (Finset.sum _ _)]
  refine forE_fin l2 l3 (fun l hl s => ?_) 0
  obtain ⟨c, hc, -⟩ := h.cyc.child l hl
  rw [hc, ok_bind, hf l hl c hc]

theorem aaa (h : AnetOf p u N B M A w) {l : α} (hl : l ∈ B) {c : MNet α K} (hc : p.layerNet l = .ok c) (n : α) :
    ∃ t, (∀ s, anAaa c n s = .ok (s + t)) ∧ t * 2 = triT N A n l l l := by
  have e := h.cyc.aaa hl hc n
  rw [h.cyc.t_aaa hl] at e
  obtain ⟨ns, n1, n2, n3, n4, n5⟩ := h.cyc.nbs hl hc n
  unfold bfAaa at e
  unfold anAaa
  rw [n5, ok_bind] at e
  by_cases hk : (2 : Int) ≤ (ns.length : Int)
  · rw [if_pos hk] at e
    simp only [n5, ok_bind, if_pos hk]
    simp only [n2, ok_bind] at e ⊢
    cases hp : forPairs c.view.ccPair (ns.map fun x => [x]) 0 with
    | error x => rw [hp] at e; cases e
    | ok t =>
      rw [hp, ok_bind] at e
      exact ⟨t, fun s => rfl, Except.ok.inj e⟩
  · rw [if_neg hk] at e
    simp only [n5, ok_bind, if_neg hk]
    exact ⟨0, fun s => by rw [add_zero]; rfl, by rw [← Except.ok.inj e]; rfl⟩

/-- without a layer: the sums over the layers -/
theorem cyclesAnet_none (h : AnetOf p u N B M A w) {n : α} (hn : n ∈ N) :
    ∃ v, p.cyclesAnet n none u = .ok v ∧ v.toList = (cycleWords (LinkOf A)).map fun r =>
      ∑ l ∈ B, walks (nodeLayers N B M) r (n, l) (n, l) := by
  obtain ⟨ls, l1, l2, l3⟩ := h.cyc.base.lay.layers
  have hlen : ls.length = B.card := card_of_list l2 l3
  have hch : ∀ l ∈ B, ∃ c, p.layerNet l = .ok c := fun l hl => by
    obtain ⟨c, hc, -⟩ := h.cyc.child l hl; exact ⟨c, hc⟩
  obtain ⟨t, ht, ht2⟩ := h.tot hn
  have ha : ∃ g : α → Int, ∀ l ∈ B, (∀ c, p.layerNet l = .ok c → ∀ s, anAaa c n s = .ok (s + g l)) ∧
      g l * 2 = triT N A n l l l := by
    classical
    have : ∀ l, ∃ t, l ∈ B → (∀ c, p.layerNet l = .ok c → ∀ s, anAaa c n s = .ok (s + t)) ∧ t * 2 = triT N A n l l l := by
      intro l
      by_cases hl : l ∈ B
      · obtain ⟨c, hc⟩ := hch l hl
        obtain ⟨t, a1, a2⟩ := h.aaa hl hc n
        exact ⟨t, fun _ => ⟨fun c' hc' => by rw [hc] at hc'; cases hc'; exact a1, a2⟩⟩
      · exact ⟨0, fun h' => absurd h' hl⟩
    choose g hg using this
    exact ⟨g, hg⟩
  have hb : ∃ g : α → Int, ∀ l ∈ B, (∀ c, p.layerNet l = .ok c → ∀ s, p.anAcaca u c n l s = .ok (s + g l)) ∧
      g l * 2 = ∑ l2 ∈ B, if l2 ≠ l then triT N A n l l2 l else 0 := by
    have : ∀ l, ∃ t, l ∈ B → (∀ c, p.layerNet l = .ok c → ∀ s, p.anAcaca u c n l s = .ok (s + t)) ∧
        t * 2 = ∑ l2 ∈ B, if l2 ≠ l then triT N A n l l2 l else 0 := by
      intro l
      by_cases hl : l ∈ B
      · obtain ⟨c, hc⟩ := hch l hl
        obtain ⟨t, a1, a2⟩ := h.acaca hl hc (n := n) 0
        refine ⟨t, fun _ => ⟨fun c' hc' s => ?_, by rw [a2, h.cyc.t_acaca hl]⟩⟩
        rw [hc] at hc'; cases hc'
        obtain ⟨t', b1, b2⟩ := h.acaca hl hc (n := n) s
        rw [b1]; congr 2; omega
      · exact ⟨0, fun h' => absurd h' hl⟩
    choose g hg using this
    exact ⟨g, hg⟩
  obtain ⟨ga, ga1⟩ := ha
  obtain ⟨gb, gb1⟩ := hb
  unfold MPlex.cyclesAnet
  rw [if_pos ⟨h.cyc.base.asp, h.al⟩, l1, ok_bind]
  dsimp only
  rw [h.layers_sum l2 l3 (g := ga) fun l hl => (ga1 l hl).1, ok_bind,
    h.layers_sum l2 l3 (g := fun l => walks (nodeLayers N B M) [stepA (LinkOf A), stepA (LinkOf A), stepC, stepA (LinkOf A),
      stepC] (n, l) (n, l)) fun l hl c hc s => h.aacac hl hc hn s, ok_bind,
    h.layers_sum l2 l3 (g := gb) fun l hl => (gb1 l hl).1, ok_bind, ht, ok_bind,
    h.layers_sum l2 l3 (g := fun l => walks (nodeLayers N B M) [stepA (LinkOf A), stepF, stepA (LinkOf A)] (n, l) (n, l))
      fun l hl c hc s => by rw [h.cyc.afa hl hc, ok_bind]; rfl, ok_bind,
    h.layers_sum l2 l3 (g := fun l => walks (nodeLayers N B M) [stepA (LinkOf A), stepF, stepC, stepA (LinkOf A), stepC]
      (n, l) (n, l)) fun l hl c hc s => h.afcac hl hc hn s, ok_bind, hlen]
  refine ⟨_, rfl, ?_⟩
  have ea : (∑ l ∈ B, ga l) * 2 = ∑ l ∈ B, triT N A n l l l := by
    rw [Finset.sum_mul]; exact Finset.sum_congr rfl fun l hl => (ga1 l hl).2
  have eb : (∑ l ∈ B, gb l) * 2 = ∑ l ∈ B, ∑ l2 ∈ B, if l2 ≠ l then triT N A n l l2 l else 0 := by
    rw [Finset.sum_mul]; exact Finset.sum_congr rfl fun l hl => (gb1 l hl).2
  have all := h.cyc.sum_all n
  have rev := h.cyc.sum_acaac n
  simp only [Cycles.toList, cycleWords, List.map_cons, List.map_nil, Finset.sum_congr rfl fun l hl => h.cyc.t_aaa hl n,
    Finset.sum_congr rfl fun l hl => h.cyc.t_aacac hl n, Finset.sum_congr rfl fun l hl => h.cyc.t_acaac hl n,
    Finset.sum_congr rfl fun l hl => h.cyc.t_acaca hl n, Finset.sum_congr rfl fun l hl => h.cyc.t_acacac hl n,
    Finset.sum_congr rfl fun l hl => h.cyc.al_acfac h.al hl n, Finset.sum_congr rfl fun l hl => h.cyc.al_acfca h.al hl n,
    Finset.sum_congr rfl fun l hl => h.cyc.al_acfcac h.al hl n, Finset.sum_mul, ea, eb, rev, ht2]
  rw [all, rev]
  congr 5
  ring

end AnetOf

end Pymnet
