import Verif.Proofs.CycleNet
import Verif.Proofs.Walks

/-! `cc_cycle_vector_bf` counts closed walks. -/

set_option linter.unusedSectionVars false
set_option linter.unusedSimpArgs false

namespace Pymnet

open Py MPlex Spec

variable {α W : Type} [DecidableEq α] [DecidableEq W] [Zero W] [IntNames α] {p : MPlex α W} {N B : Finset α}
  {M : α → Finset α} {A : α → α → α → W}

/-- the relation "linked" -/
abbrev LinkOf (A : α → α → α → W) (i j l : α) : Prop := A i j l ≠ 0

theorem sum_if_filter {β : Type} (N : Finset β) (c : β → Prop) [DecidablePred c] (g : β → Int) (X : Finset β)
    (h : ∀ x, x ∈ X ↔ x ∈ N ∧ c x) : ∑ x ∈ X, g x = ∑ x ∈ N, if c x then g x else 0 := by
  rw [← Finset.sum_filter]
  refine Finset.sum_congr ?_ fun _ _ => rfl
  ext x; rw [h, Finset.mem_filter]

namespace CycL

theorem on (h : CycL p N B M A) : ∀ i j, ∀ l ∈ B, LinkOf A i j l → j ∈ M l := h.base.on

theorem sub (h : CycL p N B M A) : ∀ l ∈ B, M l ⊆ N := h.base.sub

theorem onN (h : CycL p N B M A) {i j l : α} (hl : l ∈ B) (hij : A i j l ≠ 0) : j ∈ N := h.sub l hl (h.on i j l hl hij)

theorem on' (h : CycL p N B M A) {i j l : α} (hl : l ∈ B) (hij : A i j l ≠ 0) : i ∈ M l :=
  h.on j i l hl (by rw [LinkOf, h.base.sym]; exact hij)

theorem fin_list (l : List α) (hn : l.Nodup) {f : Int → α → Except Err Int} {g : α → Int} {c : α → Prop}
    [DecidablePred c] {X : Finset α} (hm : ∀ x, x ∈ l ↔ x ∈ X ∧ c x) (hf : ∀ x ∈ X, c x → ∀ s, f s x = .ok (s + g x)) (s : Int) :
    forE f l s = .ok (s + ∑ x ∈ X, if c x then g x else 0) := by
  rw [forE_fin (N := X.filter c) (g := g) hn (fun x => by rw [hm, Finset.mem_filter])
    (fun x hx => hf x (Finset.mem_filter.1 hx).1 (Finset.mem_filter.1 hx).2), Finset.sum_filter]

/-- a loop over the neighbours in a layer -/
theorem loopA (h : CycL p N B M A) {l : α} (hl : l ∈ B) {c : MNet α W} (hc : p.layerNet l = .ok c) (i : α)
    {f : Int → α → Except Err Int} {g : α → Int} (hf : ∀ x, A i x l ≠ 0 → ∀ s, f s x = .ok (s + g x)) (s : Int) :
    (c.view.names i >>= fun is => forE f is s) = .ok (s + ∑ x ∈ N, if A i x l ≠ 0 then g x else 0) := by
  obtain ⟨c', hc', -, -, hn⟩ := h.child l hl
  rw [hc] at hc'; cases hc'
  obtain ⟨ns, n1, -, n2, n3, -⟩ := hn i
  rw [n1, ok_bind]
  exact fin_list ns n2 (fun x => by rw [n3]; exact ⟨fun hx => ⟨h.onN hl hx, hx⟩, fun hx => hx.2⟩) (fun x _ => hf x) s

/-- a loop over the neighbours in a layer of the multiplex network -/
theorem loopA' (h : CycL p N B M A) {l : α} (hl : l ∈ B) (i : α)
    {f : Int → α → Except Err Int} {g : α → Int} (hf : ∀ x, A i x l ≠ 0 → ∀ s, f s x = .ok (s + g x)) (s : Int) :
    (p.view.layerNeighbors i l >>= fun is => forE f is s) = .ok (s + ∑ x ∈ N, if A i x l ≠ 0 then g x else 0) := by
  obtain ⟨ns, n1, n2, n3, -⟩ := h.inner l hl i
  rw [n1, ok_bind]
  exact fin_list ns n2 (fun x => by rw [n3]; exact ⟨fun hx => ⟨h.onN hl hx, hx⟩, fun hx => hx.2⟩) (fun x _ => hf x) s

/-- a loop over the other layers of a node -/
theorem loopC (h : CycL p N B M A) {l : α} (hl : l ∈ B) {i : α} (hi : i ∈ M l)
    {f : Int → α → Except Err Int} {g : α → Int} (hf : ∀ x ∈ B, x ≠ l → i ∈ M x → ∀ s, f s x = .ok (s + g x)) (s : Int) :
    (p.view.couplingLayers i l >>= fun ls => forE f ls s) = .ok (s + ∑ x ∈ B, if x ≠ l ∧ i ∈ M x then g x else 0) := by
  obtain ⟨ls, n1, n2, -, n3⟩ := h.coup l hl i
  rw [n1, ok_bind]
  exact fin_list ls n2 (fun x => (n3 hi).1 x) (fun x hx hc => hf x hx hc.1 hc.2) s

/-- the last test of a cycle -/
theorem close (h : CycL p N B M A) {l' l : α} (hl' : l' ∈ B) (hne : l' ≠ l) (x n : α) (s : Int) :
    p.view.countLink x n l' s = .ok (s + walks (nodeLayers N B M) [stepA (LinkOf A), stepC] (x, l') (n, l)) := by
  unfold View.countLink
  rw [h.num2 l' hl' x n, ok_bind, pure_eq_ok, walks_AC h.on h.sub x n hl']
  rw [show p.view.noEdge = 0 from h.base.ne]
  by_cases hx : A x n l' ≠ 0
  · rw [if_pos hx, if_pos ⟨hx, hne⟩]
  · rw [if_neg hx, if_neg fun h' => hx h'.1, add_zero]

theorem aacac (h : CycL p N B M A) {l : α} (hl : l ∈ B) {c : MNet α W} (hc : p.layerNet l = .ok c) (n : α) :
    p.bfAacac c n l = .ok (walks (nodeLayers N B M) [stepA (LinkOf A), stepA (LinkOf A), stepC, stepA (LinkOf A), stepC]
      (n, l) (n, l)) := by
  unfold bfAacac
  rw [h.loopA hl hc n (g := fun x => walks (nodeLayers N B M) [stepA (LinkOf A), stepC, stepA (LinkOf A), stepC]
      (x, l) (n, l)), walks_A h.on _ _ _ hl, zero_add]
  intro x hx s
  rw [h.loopA hl hc x (g := fun x => walks (nodeLayers N B M) [stepC, stepA (LinkOf A), stepC]
      (x, l) (n, l)), walks_A h.on _ _ _ hl]
  intro x hx s
  rw [h.loopC hl (h.on _ _ l hl hx) (g := fun l' => walks (nodeLayers N B M) [stepA (LinkOf A), stepC]
      (x, l') (n, l)), walks_C h.sub]
  intro l' hl' hne _ s
  exact h.close hl' hne x n s

theorem acaac (h : CycL p N B M A) {l : α} (hl : l ∈ B) {c : MNet α W} (hc : p.layerNet l = .ok c) (n : α) :
    p.bfAcaac c n l = .ok (walks (nodeLayers N B M) [stepA (LinkOf A), stepC, stepA (LinkOf A), stepA (LinkOf A), stepC]
      (n, l) (n, l)) := by
  unfold bfAcaac
  rw [h.loopA hl hc n (g := fun x => walks (nodeLayers N B M) [stepC, stepA (LinkOf A), stepA (LinkOf A), stepC]
      (x, l) (n, l)), walks_A h.on _ _ _ hl, zero_add]
  intro x hx s
  rw [h.loopC hl (h.on _ _ l hl hx) (g := fun l' => walks (nodeLayers N B M) [stepA (LinkOf A), stepA (LinkOf A), stepC]
      (x, l') (n, l)), walks_C h.sub]
  intro l' hl' hne _ s
  rw [h.loopA' hl' x (g := fun x => walks (nodeLayers N B M) [stepA (LinkOf A), stepC]
      (x, l') (n, l)), walks_A h.on _ _ _ hl']
  intro x hx s
  exact h.close hl' hne x n s

theorem acacac (h : CycL p N B M A) {l : α} (hl : l ∈ B) {c : MNet α W} (hc : p.layerNet l = .ok c) (n : α) :
    p.bfAcacac c n l = .ok (walks (nodeLayers N B M)
      [stepA (LinkOf A), stepC, stepA (LinkOf A), stepC, stepA (LinkOf A), stepC] (n, l) (n, l)) := by
  unfold bfAcacac
  rw [h.loopA hl hc n (g := fun x => walks (nodeLayers N B M) [stepC, stepA (LinkOf A), stepC, stepA (LinkOf A), stepC]
      (x, l) (n, l)), walks_A h.on _ _ _ hl, zero_add]
  intro x hx s
  rw [h.loopC hl (h.on _ _ l hl hx) (g := fun l' => walks (nodeLayers N B M)
      [stepA (LinkOf A), stepC, stepA (LinkOf A), stepC] (x, l') (n, l)), walks_C h.sub]
  intro l' hl' hne _ s
  rw [h.loopA' hl' x (g := fun x => walks (nodeLayers N B M) [stepC, stepA (LinkOf A), stepC]
      (x, l') (n, l)), walks_A h.on _ _ _ hl']
  intro x hx s
  rw [h.loopC hl' (h.on _ _ l' hl' hx) (g := fun l' => walks (nodeLayers N B M) [stepA (LinkOf A), stepC]
      (x, l') (n, l)), walks_C h.sub]
  intro l3 hl3 _ _ s
  by_cases h3 : l3 ≠ l
  · rw [if_pos h3]; exact h.close hl3 h3 x n s
  · rw [if_neg h3, walks_AC h.on h.sub x n hl3, if_neg fun h' => h3 h'.2, add_zero]; rfl


end CycL

/-! ### Sums of indicators -/

theorem ite_sum {β : Type} (c : Prop) [Decidable c] (s : Finset β) (f : β → Int) :
    (if c then ∑ x ∈ s, f x else 0) = ∑ x ∈ s, if c then f x else 0 := by
  by_cases h : c <;> simp [h]

theorem ite_ite (a b : Prop) [Decidable a] [Decidable b] (x : Int) :
    (if a then if b then x else 0 else 0) = if a ∧ b then x else 0 := by
  by_cases ha : a <;> by_cases hb : b <;> simp [ha, hb]

theorem pairSum_short {β : Type} (g : β → β → Int) {l : List β} (h : ¬ 2 ≤ l.length) : pairSum g l = 0 := by
  match l, h with
  | [], _ => rfl
  | [a], _ => simp [pairSum]
  | a :: b :: t, h => exact absurd (by simp) h

theorem pairSum_cast {β : Type} (g : β → β → Nat) (l : List β) :
    ((pairSum g l : Nat) : Int) = pairSum (fun a b => ((g a b : Nat) : Int)) l := by
  induction l with
  | nil => rfl
  | cons a t ih =>
    simp only [pairSum]
    rw [Nat.cast_add, ih, Nat.cast_list_sum, List.map_map]
    rfl

theorem pairs_double {l : List α} (hn : l.Nodup) {c : α → Prop} [DecidablePred c] (hm : ∀ x, x ∈ l ↔ x ∈ N ∧ c x)
    {g : α → α → Int} (hg : ∀ i ∈ l, ∀ j ∈ l, g i j = g j i) (h0 : ∀ i ∈ l, g i i = 0) :
    pairSum g l * 2 = ∑ i ∈ N, if c i then ∑ j ∈ N, (if c j then g i j else 0) else 0 := by
  have hX : l.toFinset = N.filter c := by ext x; rw [List.mem_toFinset, hm, Finset.mem_filter]
  rw [mul_two, pairSum_double hn hg, hX, Finset.sum_filter]
  refine Finset.sum_congr rfl fun i hi => ?_
  by_cases hc : c i
  · rw [if_pos hc, if_pos hc, Finset.sum_filter]
    refine Finset.sum_congr rfl fun j hj => ?_
    by_cases hij : i = j
    · subst hij
      rw [if_pos rfl, h0 i ((hm i).2 ⟨hi, hc⟩)]
    · rw [if_neg hij]
  · rw [if_neg hc, if_neg hc]

/-- the number of elements of a list other than `i` -/
theorem count_others {l : List α} (hn : l.Nodup) {c : α → Prop} [DecidablePred c] (hm : ∀ x, x ∈ l ↔ x ∈ N ∧ c x) (i : α) :
    (if i ∈ l then (l.length : Int) - 1 else l.length) = ∑ y ∈ N, if c y ∧ i ≠ y then 1 else 0 := by
  have hX : l.toFinset = N.filter c := by ext x; rw [List.mem_toFinset, hm, Finset.mem_filter]
  have e : (∑ y ∈ N, if c y ∧ i ≠ y then (1 : Int) else 0) = ((l.toFinset.erase i).card : Int) := by
    rw [Finset.card_eq_sum_ones, hX, Nat.cast_sum]
    rw [sum_if_filter N (fun y => c y ∧ i ≠ y) (fun _ => ((1 : Nat) : Int)) _ (fun x => by
      rw [Finset.mem_erase, Finset.mem_filter]; constructor
      · rintro ⟨a, b, d⟩; exact ⟨b, d, fun e => a e.symm⟩
      · rintro ⟨b, d, a⟩; exact ⟨fun e => a e.symm, b, d⟩)]
    simp
  rw [e]
  by_cases hi : i ∈ l
  · rw [if_pos hi, Finset.card_erase_of_mem (List.mem_toFinset.2 hi), List.toFinset_card_of_nodup hn]
    have := List.length_pos_of_mem hi
    omega
  · rw [if_neg hi, Finset.erase_eq_of_notMem (by rwa [List.mem_toFinset]), List.toFinset_card_of_nodup hn]

theorem length_sum {l : List α} (hn : l.Nodup) {c : α → Prop} [DecidablePred c] (hm : ∀ x, x ∈ l ↔ x ∈ N ∧ c x) (g : Int) :
    (l.length : Int) * g = ∑ y ∈ N, if c y then g else 0 := by
  have hX : l.toFinset = N.filter c := by ext x; rw [List.mem_toFinset, hm, Finset.mem_filter]
  rw [← Finset.sum_filter, ← hX, Finset.sum_const, List.toFinset_card_of_nodup hn]
  simp

namespace CycL

theorem nbs (h : CycL p N B M A) {l : α} (hl : l ∈ B) {c : MNet α W} (hc : p.layerNet l = .ok c) (i : α) :
    ∃ ns : List α, c.view.names i = .ok ns ∧ c.view.neighbors [i] = .ok (ns.map fun x => [x]) ∧ ns.Nodup ∧
      (∀ x, x ∈ ns ↔ x ∈ N ∧ A i x l ≠ 0) ∧ c.view.itemDeg [i] = .ok (ns.length : Int) := by
  obtain ⟨c', hc', -, -, hn⟩ := h.child l hl
  rw [hc] at hc'; cases hc'
  obtain ⟨ns, n1, n1', n2, n3, n4⟩ := hn i
  exact ⟨ns, n1, n1', n2, fun x => by rw [n3]; exact ⟨fun hx => ⟨h.onN hl hx, hx⟩, fun hx => hx.2⟩, n4⟩

theorem aaa (h : CycL p N B M A) {l : α} (hl : l ∈ B) {c : MNet α W} (hc : p.layerNet l = .ok c) (n : α) :
    bfAaa c n = .ok (walks (nodeLayers N B M) [stepA (LinkOf A), stepA (LinkOf A), stepA (LinkOf A)] (n, l) (n, l)) := by
  obtain ⟨ns, n1, n2, n3, n4, n5⟩ := h.nbs hl hc n
  obtain ⟨c', hc', hm, h0, -⟩ := h.child l hl
  rw [hc] at hc'; cases hc'
  have e : walks (nodeLayers N B M) [stepA (LinkOf A), stepA (LinkOf A), stepA (LinkOf A)] (n, l) (n, l) =
      pairSum (fun i j => if A i j l ≠ 0 then (1 : Int) else 0) ns * 2 := by
    rw [pairs_double n3 n4 (fun i _ j _ => by simp only [h.base.sym i j]) (fun i _ => by simp [h.base.self]),
      walks_A h.on _ _ _ hl]
    refine Finset.sum_congr rfl fun i _ => ?_
    by_cases hi : A n i l ≠ 0
    · rw [if_pos hi, if_pos hi, walks_A h.on _ _ _ hl]
      refine Finset.sum_congr rfl fun j _ => ?_
      rw [walks_A1, ite_ite, ite_ite]
      refine ite_test ?_ _ _
      rw [LinkOf, LinkOf, h.base.sym j n]
      tauto
    · rw [if_neg hi, if_neg hi]
  unfold bfAaa
  rw [n5, ok_bind, e]
  by_cases hk : 2 ≤ ns.length
  · rw [if_pos (by exact_mod_cast hk), n2, ok_bind, forPairs_sum (g := fun x y => match x, y with
      | [i], [j] => if A i j l ≠ 0 then 1 else 0
      | _, _ => 0) (n3.map fun a b hab => by simpa using hab), ok_bind, pairSum_map, zero_add, pairSum_cast, pure_eq_ok]
    · congr 2
      congr 1
      funext i j
      by_cases hij : A i j l ≠ 0
      · simp only [if_pos hij, Nat.cast_one]
      · simp only [if_neg hij, Nat.cast_zero]
    · intro x hx y hy _ s
      rw [List.mem_map] at hx hy
      obtain ⟨i, hi, rfl⟩ := hx
      obtain ⟨j, hj, rfl⟩ := hy
      unfold View.ccPair
      rw [hm.num2 i j, ok_bind, h0, pure_eq_ok]
      by_cases hij : A i j l ≠ 0
      · simp only [if_pos hij]
      · simp only [if_neg hij, add_zero]
  · rw [if_neg (by exact_mod_cast hk), pairSum_short _ hk]; rfl

theorem afa (h : CycL p N B M A) {l : α} (hl : l ∈ B) {c : MNet α W} (hc : p.layerNet l = .ok c) (n : α) :
    bfAfa c n = .ok (walks (nodeLayers N B M) [stepA (LinkOf A), stepF, stepA (LinkOf A)] (n, l) (n, l)) := by
  obtain ⟨ns, n1, n2, n3, n4, n5⟩ := h.nbs hl hc n
  unfold bfAfa
  rw [n5, ok_bind, pure_eq_ok, length_sum n3 n4, walks_A h.on _ _ _ hl]
  congr 1
  refine Finset.sum_congr rfl fun i hi => ?_
  by_cases hx : A n i l ≠ 0
  · rw [if_pos hx, if_pos hx, walks_F _ _ _ hl]
    have := count_others n3 n4 i
    rw [if_pos ((n4 i).2 ⟨hi, hx⟩)] at this
    rw [this]
    refine Finset.sum_congr rfl fun y _ => ?_
    rw [walks_A1, ite_ite]
    refine ite_test ?_ _ _
    constructor
    · rintro ⟨a, b⟩
      exact ⟨⟨h.on n y l hl a, b⟩, rfl, by rw [LinkOf, h.base.sym]; exact a⟩
    · rintro ⟨⟨-, b⟩, -, a⟩
      exact ⟨by rw [h.base.sym]; exact a, b⟩
  · rw [if_neg hx, if_neg hx]

theorem acaca (h : CycL p N B M A) {l : α} (hl : l ∈ B) {c : MNet α W} (hc : p.layerNet l = .ok c) (n : α) :
    p.bfAcaca c n l = .ok (walks (nodeLayers N B M) [stepA (LinkOf A), stepC, stepA (LinkOf A), stepC, stepA (LinkOf A)]
      (n, l) (n, l)) := by
  obtain ⟨ns, n1, n2, n3, n4, n5⟩ := h.nbs hl hc n
  have hsym : ∀ i j, (∑ l' ∈ B, if l' ≠ l ∧ i ∈ M l' then (if A i j l' ≠ 0 then (1 : Int) else 0) else 0) =
      ∑ l' ∈ B, if l' ≠ l ∧ A i j l' ≠ 0 then (1 : Int) else 0 := by
    intro i j
    refine Finset.sum_congr rfl fun l' hl' => ?_
    rw [ite_ite]
    refine ite_test ?_ _ _
    constructor
    · rintro ⟨⟨a, -⟩, b⟩; exact ⟨a, b⟩
    · rintro ⟨a, b⟩; exact ⟨⟨a, h.on' hl' b⟩, b⟩
  have e : walks (nodeLayers N B M) [stepA (LinkOf A), stepC, stepA (LinkOf A), stepC, stepA (LinkOf A)] (n, l) (n, l) =
      pairSum (fun i j => ∑ l' ∈ B, if l' ≠ l ∧ i ∈ M l' then (if A i j l' ≠ 0 then (1 : Int) else 0) else 0) ns * 2 := by
    rw [pairs_double n3 n4 (fun i _ j _ => by
        rw [hsym, hsym]; exact Finset.sum_congr rfl fun l' _ => by rw [h.base.sym i j])
      (fun i _ => by rw [hsym]; simp [h.base.self]), walks_A h.on _ _ _ hl]
    refine Finset.sum_congr rfl fun i _ => ?_
    by_cases hi : A n i l ≠ 0
    · rw [if_pos hi, if_pos hi, walks_C h.sub]
      simp only [hsym, ite_sum, ite_ite]
      rw [Finset.sum_comm]
      refine Finset.sum_congr rfl fun l' hl' => ?_
      by_cases hne : l' ≠ l
      · by_cases him : i ∈ M l'
        · rw [if_pos ⟨hne, him⟩, walks_A h.on _ _ _ hl']
          refine Finset.sum_congr rfl fun j _ => ?_
          rw [walks_CA h.sub _ _ hl, ite_ite]
          refine ite_test ?_ _ _
          constructor
          · rintro ⟨a, -, -, b⟩
            exact ⟨by rw [h.base.sym]; exact b, ⟨hne, him⟩, a⟩
          · rintro ⟨a, -, b⟩
            exact ⟨b, hne.symm, h.on _ _ l hl a, by rw [LinkOf, h.base.sym]; exact a⟩
        · rw [if_neg fun h' => him h'.2, eq_comm]
          refine Finset.sum_eq_zero fun j _ => if_neg ?_
          rintro ⟨-, -, a⟩
          exact him (h.on' hl' a)
      · rw [if_neg fun h' => hne h'.1, eq_comm]
        exact Finset.sum_eq_zero fun j _ => if_neg fun h' => hne h'.2.1.1
    · rw [if_neg hi, if_neg hi]
  unfold bfAcaca
  rw [n5, ok_bind, e]
  by_cases hk : 2 ≤ ns.length
  · rw [if_pos (by exact_mod_cast hk), n1, ok_bind, forPairs_sum (g := fun i j => ∑ l' ∈ B, if l' ≠ l ∧ i ∈ M l' then
      (if A i j l' ≠ 0 then (1 : Int) else 0) else 0) n3, ok_bind, pure_eq_ok, zero_add]
    intro i hi j hj _ s
    rw [h.loopC hl (h.on _ _ l hl ((n4 i).1 hi).2) (g := fun l' => if A i j l' ≠ 0 then (1 : Int) else 0)]
    intro l' hl' _ _ s
    unfold View.countLink
    rw [h.num2 l' hl' i j, ok_bind, pure_eq_ok, show p.view.noEdge = 0 from h.base.ne]
    by_cases hx : A i j l' ≠ 0
    · rw [if_pos hx, if_pos hx]
    · rw [if_neg hx, if_neg hx, add_zero]
  · rw [if_neg (by exact_mod_cast hk), pairSum_short _ hk]; rfl

/-- if the node is not on the layer it has no neighbours there -/
theorem nbs_nil (h : CycL p N B M A) {l n : α} (hl : l ∈ B) (hn : n ∉ M l) {ns : List α}
    (hm : ∀ x, x ∈ ns ↔ x ∈ N ∧ A n x l ≠ 0) : ns = [] :=
  List.eq_nil_iff_forall_not_mem.2 fun x hx => hn (h.on' hl ((hm x).1 hx).2)

/-- no walk starts with a link at a node that is not on the layer -/
theorem walks_nil (h : CycL p N B M A) {l n : α} (hl : l ∈ B) (hn : n ∉ M l) (r : α × α → α × α → Prop)
    (rs : List (α × α → α × α → Prop)) (v : α × α) : walks (nodeLayers N B M) (stepA (LinkOf A) :: r :: rs) (n, l) v = 0 := by
  rw [walks_A h.on _ _ _ hl]
  exact Finset.sum_eq_zero fun y _ => if_neg fun hy => hn (h.on' hl hy)

theorem walks_afcac (h : CycL p N B M A) {l : α} (hl : l ∈ B) (n : α) :
    walks (nodeLayers N B M) [stepA (LinkOf A), stepF, stepC, stepA (LinkOf A), stepC] (n, l) (n, l) =
      ∑ l2 ∈ B, ∑ y ∈ N, ∑ i ∈ N, if A n i l ≠ 0 ∧ y ≠ i ∧ y ∈ M l ∧ l2 ≠ l ∧ A n y l2 ≠ 0 then 1 else 0 := by
  rw [walks_A h.on _ _ _ hl]
  simp only [walks_F _ _ _ hl, walks_C h.sub, ite_sum]
  rw [Finset.sum_comm]
  simp only [Finset.sum_comm (s := N) (t := B)]
  refine Finset.sum_congr rfl fun l2 hl2 => Finset.sum_congr rfl fun y _ => Finset.sum_congr rfl fun i _ => ?_
  rw [walks_AC h.on h.sub _ _ hl2]
  simp only [ite_ite]
  refine ite_test ?_ _ _
  rw [LinkOf, LinkOf, h.base.sym y n]
  constructor
  · rintro ⟨a, ⟨b, c⟩, ⟨d, -⟩, e, -⟩
    exact ⟨a, fun h => c h.symm, b, d, e⟩
  · rintro ⟨a, b, c, d, e⟩
    exact ⟨a, ⟨c, fun h => b h.symm⟩, ⟨d, h.on n y l2 hl2 e⟩, e, d⟩

theorem afcac (h : CycL p N B M A) {l : α} (hl : l ∈ B) {c : MNet α W} (hc : p.layerNet l = .ok c) (n : α) :
    p.bfAfcac c n l = .ok (walks (nodeLayers N B M) [stepA (LinkOf A), stepF, stepC, stepA (LinkOf A), stepC]
      (n, l) (n, l)) := by
  obtain ⟨ns, n1, n2, n3, n4, n5⟩ := h.nbs hl hc n
  unfold bfAfcac
  rw [n1, ok_bind]
  have step : ∀ l2 ∈ B, l2 ≠ l → ∀ s : Int, (p.view.layerNeighbors n l2 >>= fun is => forE (fun s i => do
      let w ← p.view.num [i, i, l, l2]
      pure (if w ≠ p.noEdge then
        if i ∈ ns then s + ((ns.length : Int) - 1) else s + (ns.length : Int)
      else s)) is s) = .ok (s + ∑ y ∈ N, if A n y l2 ≠ 0 then (if y ∈ M l then
        ∑ i ∈ N, if A n i l ≠ 0 ∧ y ≠ i then 1 else 0 else 0) else 0) := by
    intro l2 hl2 hne s
    refine h.loopA' hl2 n (fun y hy s => ?_) s
    obtain ⟨x, hx, hx'⟩ := h.numC l hl l2 hl2 (Ne.symm hne) y
    rw [hx, ok_bind, pure_eq_ok, h.base.ne, ← count_others n3 n4 y]
    have : x ≠ 0 ↔ y ∈ M l := by
      rw [hx']; exact ⟨fun a => a.1, fun a => ⟨a, h.on n y l2 hl2 hy⟩⟩
    by_cases hm : y ∈ M l
    · rw [if_pos (this.2 hm), if_pos hm]
      by_cases hy : y ∈ ns
      · rw [if_pos hy, if_pos hy]
      · rw [if_neg hy, if_neg hy]
    · rw [if_neg fun h' => hm (this.1 h'), if_neg hm, add_zero]
  by_cases hn : n ∈ M l
  · rw [h.loopC hl hn (fun l2 hl2 hne _ => step l2 hl2 hne), zero_add, h.walks_afcac hl]
    congr 1
    refine Finset.sum_congr rfl fun l2 hl2 => ?_
    simp only [ite_sum, ite_ite]
    refine Finset.sum_congr rfl fun y _ => Finset.sum_congr rfl fun i _ => ite_test ?_ _ _
    constructor
    · rintro ⟨⟨a, b⟩, c, d, e, f⟩; exact ⟨e, f, d, a, c⟩
    · rintro ⟨e, f, d, a, c⟩; exact ⟨⟨a, h.on' hl2 c⟩, c, d, e, f⟩
  · obtain ⟨ls, l1, l2, l3, -⟩ := h.coup l hl n
    rw [l1, ok_bind, forE_sum (g := fun _ => 0), h.walks_nil hl hn]
    · simp
    · intro x hx s
      rw [step x (l3 x hx).1 (l3 x hx).2]
      congr 2
      refine Finset.sum_eq_zero fun y _ => ?_
      have : ∀ i, A n i l = 0 := fun i => by
        by_contra hi; exact hn (h.on' hl hi)
      simp [this]

end CycL

end Pymnet
