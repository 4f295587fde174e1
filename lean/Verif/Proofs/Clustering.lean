import Verif.Model.Clustering
import Verif.Spec.Clustering
import Verif.Proofs.Diagnostics
import Verif.Proofs.Subnet
import Verif.Proofs.Comb
import Mathlib.Algebra.BigOperators.Ring.Finset
import Mathlib.Algebra.Order.BigOperators.Group.Finset
import Mathlib.Tactic.Ring
import Mathlib.Tactic.Linarith
import Mathlib.Tactic.FieldSimp

/-! Loops of the clustering coefficients as sums. -/

set_option linter.unusedSectionVars false
set_option linter.unusedSimpArgs false

namespace Pymnet

open Py

theorem ok_bind {β γ : Type} (x : β) (f : β → Except Err γ) : (Except.ok x >>= f) = f x := rfl

theorem pure_eq_ok {β : Type} (x : β) : (pure x : Except Err β) = .ok x := rfl

/-- a loop that adds a term in every round -/
theorem forE_sum {σ β : Type} [AddMonoid σ] {f : σ → β → Except Err σ} {g : β → σ} {l : List β}
    (h : ∀ x ∈ l, ∀ s, f s x = .ok (s + g x)) (s : σ) : forE f l s = .ok (s + (l.map g).sum) := by
  induction l generalizing s with
  | nil => simp [forE]
  | cons x l ih =>
    simp only [forE, h x (by simp), List.map_cons, List.sum_cons]
    rw [ih (fun y hy => h y (by simp [hy])), add_assoc]

theorem combinations_one {γ : Type} (l : List γ) : combinations l 1 = l.map fun x => [x] := by
  induction l with
  | nil => rfl
  | cons a t ih => simp [combinations, ih]

/-- sum over the pairs of a list, first element before second -/
def pairSum {σ β : Type} [Add σ] [Zero σ] (g : β → β → σ) : List β → σ
  | [] => 0
  | a :: t => (t.map (g a)).sum + pairSum g t

theorem forPairs_sum {σ β : Type} [AddMonoid σ] {f : σ → β → β → Except Err σ} {g : β → β → σ} {l : List β}
    (hl : l.Nodup) (h : ∀ i ∈ l, ∀ j ∈ l, i ≠ j → ∀ s, f s i j = .ok (s + g i j)) (s : σ) :
    forPairs f l s = .ok (s + pairSum g l) := by
  induction l generalizing s with
  | nil => simp [forPairs, combinations, forE, pairSum]
  | cons a t ih =>
    rw [List.nodup_cons] at hl
    unfold forPairs
    rw [combinations, combinations_one, forE_append]
    rw [forE_sum (g := fun c => match c with | [_, j] => g a j | _ => 0) (by
      intro c hc s
      simp only [List.map_map, List.mem_map, Function.comp] at hc
      obtain ⟨j, hj, rfl⟩ := hc
      exact h a (by simp) j (by simp [hj]) (by rintro rfl; exact hl.1 hj) s)]
    have := ih hl.2 (fun i hi j hj => h i (by simp [hi]) j (by simp [hj])) (s + (t.map (g a)).sum)
    unfold forPairs at this
    simp only [List.map_map, Function.comp_def]
    rw [this, pairSum, add_assoc]

theorem pairSum_double {σ β : Type} [AddCommMonoid σ] [DecidableEq β] {g : β → β → σ} {l : List β} (hl : l.Nodup)
    (hg : ∀ i ∈ l, ∀ j ∈ l, g i j = g j i) :
    pairSum g l + pairSum g l = ∑ i ∈ l.toFinset, ∑ j ∈ l.toFinset, if i = j then 0 else g i j := by
  rw [List.sum_toFinset _ hl]
  simp only [List.sum_toFinset _ hl]
  induction l with
  | nil => simp [pairSum]
  | cons a t ih =>
    rw [List.nodup_cons] at hl
    have ih := ih hl.2 (fun i hi j hj => hg i (by simp [hi]) j (by simp [hj]))
    have e1 : (t.map fun j => if a = j then (0 : σ) else g a j) = t.map (g a) := by
      apply List.map_congr_left
      intro j hj
      rw [if_neg (by rintro rfl; exact hl.1 hj)]
    have e2 : (t.map fun i => if i = a then (0 : σ) else g i a) = t.map (g a) := by
      apply List.map_congr_left
      intro j hj
      rw [if_neg (by rintro rfl; exact hl.1 hj), hg j (by simp [hj]) a (by simp)]
    simp only [List.map_cons, List.sum_cons, pairSum, if_true, e1, List.sum_map_add, e2, zero_add]
    rw [← ih]
    abel

namespace View

variable {α W : Type} [DecidableEq α] [DecidableEq W] {v : View α W}

theorem num_eq {item a b : List α} {w : W} (ha : Spec.Addresses v.aspects item a b)
    (hl : v.getLink (interleave a b) = .ok w) : v.num item = .ok w := by
  unfold num
  rw [getItem_addresses ha hl, ok_bind]
  rfl

theorem num2_eq {a b : List α} {w : W} (ha : a.length = v.aspects + 1) (hb : b.length = v.aspects + 1)
    (hl : v.getLink (interleave a b) = .ok w) : v.num2 a b = .ok w := by
  have := getItem_addresses (v := v) (addresses_interleave ha hb) hl
  unfold num2 nodeGet nodesToLink
  rw [if_pos (by simp; omega)]
  simp only [interleave_map]
  unfold readItem at this
  rw [this]; rfl

theorem neighbors_eq {nl : List α} (hl : nl.length = v.aspects + 1) : v.neighbors nl = v.iterTotal nl none := by
  unfold neighbors getItem
  simp only [List.length_map, hl, if_true, vals?_map]

/-- the number of pairs counted by `cc_num_den` -/
theorem ccNumDen_eq {nl : List α} {k : Nat} {ns : List (List α)} {R : List α → List α → W}
    (hk : v.itemDeg nl = .ok (k : Int)) (hn : v.neighbors nl = .ok ns) (hnd : ns.Nodup)
    (hr : ∀ a ∈ ns, ∀ b ∈ ns, a ≠ b → v.num2 a b = .ok (R a b)) :
    v.ccNumDen nl = .ok (pairSum (fun a b => if R a b ≠ v.noEdge then 1 else 0) ns,
      (((k : Int) * ((k : Int) - 1) : Int) : ℚ) / 2) := by
  unfold ccNumDen
  rw [hk, ok_bind, hn, ok_bind, forPairs_sum (g := fun a b => if R a b ≠ v.noEdge then 1 else 0) hnd, ok_bind, zero_add]
  · rfl
  · intro i hi j hj hij s
    unfold ccPair
    rw [hr i hi j hj hij, ok_bind, pure_eq_ok]
    by_cases h : R i j ≠ v.noEdge
    · rw [if_pos h, if_pos h]
    · rw [if_neg h, if_neg h]; rfl

end View

end Pymnet

namespace Pymnet

open Py

/-! ### counting pairs of neighbours -/

section count

variable {V : Type} [DecidableEq V] {N : Finset V} {link : V → V → Prop} {n : V} {ns : List V}

theorem neighbours_eq (hm : ∀ x, x ∈ ns ↔ x ∈ N ∧ link n x) : Spec.neighbours N link n = ns.toFinset := by
  classical
  ext x
  simp [Spec.neighbours, hm]

theorem triads_eq (hm : ∀ x, x ∈ ns ↔ x ∈ N ∧ link n x) : Spec.triads N link n = ns.toFinset.offDiag := by
  classical
  ext ⟨x, y⟩
  simp only [Spec.triads, Finset.mem_filter, Finset.mem_product, Finset.mem_offDiag, List.mem_toFinset, hm]
  tauto

theorem triads_card (hn : ns.Nodup) (hm : ∀ x, x ∈ ns ↔ x ∈ N ∧ link n x) :
    (Spec.triads N link n).card = ns.length * ns.length - ns.length := by
  rw [triads_eq hm, Finset.offDiag_card, List.toFinset_card_of_nodup hn]

theorem triangles_card [DecidableRel link] (hn : ns.Nodup) (hm : ∀ x, x ∈ ns ↔ x ∈ N ∧ link n x)
    (hs : ∀ a ∈ ns, ∀ b ∈ ns, link a b ↔ link b a) :
    (Spec.triangles N link n).card = 2 * pairSum (fun a b => if link a b then 1 else 0) ns := by
  classical
  rw [two_mul, pairSum_double hn (fun i hi j hj => by simp only [hs i hi j hj])]
  unfold Spec.triangles
  have ho : ns.toFinset.offDiag = (ns.toFinset ×ˢ ns.toFinset).filter fun p => p.1 ≠ p.2 := by
    ext ⟨x, y⟩; simp only [Finset.mem_offDiag, Finset.mem_filter, Finset.mem_product]; tauto
  rw [triads_eq hm, Finset.card_filter, ← Finset.sum_product', ho, Finset.sum_filter]
  refine Finset.sum_congr rfl fun p _ => ?_
  by_cases h : p.1 = p.2
  · rw [if_pos h, if_neg (by simpa using h)]
  · rw [if_neg h, if_pos h]
    by_cases h' : link p.1 p.2
    · rw [if_pos h', if_pos h']
    · rw [if_neg h', if_neg h']

end count

theorem pairSum_map {σ β γ : Type} [Add σ] [Zero σ] (g : γ → γ → σ) (f : β → γ) (l : List β) :
    pairSum g (l.map f) = pairSum (fun a b => g (f a) (f b)) l := by
  induction l with
  | nil => rfl
  | cons a t ih => simp [pairSum, ih, Function.comp_def]

/-- What the clustering coefficients use of a monoplex network. -/
structure Mono {α W : Type} [DecidableEq α] [DecidableEq W] (v : View α W) (N : Finset α) (w : α → α → W) : Prop where
  nodup : v.nodes.Nodup
  mem : ∀ x, x ∈ v.nodes ↔ x ∈ N
  num : ∀ i j, v.num [i, j] = .ok (w i j)
  num2 : ∀ i j, v.num2 [i] [j] = .ok (w i j)
  sym : ∀ i j, w i j = w j i
  neigh : ∀ i, ∃ l : List α, v.neighbors [i] = .ok (l.map fun x => [x]) ∧ l.Nodup ∧
    (∀ x, x ∈ l ↔ x ∈ N ∧ w i x ≠ v.noEdge) ∧ v.itemDeg [i] = .ok (l.length : Int)

theorem MNet.Inv.mono {α W : Type} [DecidableEq α] [DecidableEq W] {m : MNet α W} (hi : m.Inv) (hasp : m.aspects = 0)
    (hdir : m.directed = false) {N : Finset α} (hN : ∀ x, x ∈ N ↔ x ∈ m.slices.headD []) :
    Mono m.view N fun i j => m.reads [i] [j] := by
  have ha : m.view.aspects = 0 := hasp
  have hgl : ∀ i j, m.view.getLink (interleave [i] [j]) = .ok (m.reads [i] [j]) := fun i j =>
    MNet.getLink_interleave m (u := [i]) (v := [j]) rfl (by simp)
  have hsym : ∀ i j, m.reads [i] [j] = m.reads [j] [i] := fun i j => by
    simp only [MNet.reads, hi.l.sym hdir [i] [j]]
  refine ⟨?_, fun x => (hN x).symm, fun i j => ?_, fun i j => ?_, hsym, fun i => ?_⟩
  · change (m.slices.headD []).Nodup
    have := hi.r.snodup
    rw [MNet.slices_split hi.r] at this
    exact this _ (by simp)
  · exact View.num_eq (v := m.view) (a := [i]) (b := [j]) ⟨by simp [ha], by simp [ha], Or.inl rfl⟩ (hgl i j)
  · exact View.num2_eq (v := m.view) (by simp [ha]) (by simp [ha]) (hgl i j)
  · have hmem : ∀ b, b ∈ m.iterTotal [i] none ↔ ∃ x, b = [x] ∧ x ∈ N ∧ m.reads [i] [x] ≠ m.noEdge := by
      intro b
      rw [MNet.mem_iterTotal hi.l]
      simp only [dimsOk, and_true]
      constructor
      · intro hb
        have key : (m.lk [i] b).isSome = true ∨ (m.lk b [i]).isSome = true → b.length = 1 := by
          rintro (hb | hb)
          · obtain ⟨w, hw⟩ := Option.isSome_iff_exists.1 hb
            have := (hi.reg _ _ w hw).2.1; omega
          · obtain ⟨w, hw⟩ := Option.isSome_iff_exists.1 hb
            have := (hi.reg _ _ w hw).1.1; omega
        match b, key hb with
        | [x], _ =>
          have hs : (m.lk [i] [x]).isSome = true := by
            rw [hi.l.sym hdir [x] [i]] at hb
            tauto
          refine ⟨x, rfl, ?_, (MNet.reads_ne_noEdge hi.l _ _).2 hs⟩
          obtain ⟨w, hw⟩ := Option.isSome_iff_exists.1 hs
          rw [hN]
          have := (hi.reg _ _ w hw).2.2 0 x rfl
          unfold MNet.inSlice at this
          rw [MNet.slices_split hi.r] at this
          simpa using this
      · rintro ⟨x, rfl, -, hx⟩
        left
        rw [← MNet.reads_ne_noEdge hi.l]
        exact hx
    have hdeg : m.view.itemDeg [i] = .ok ((m.iterTotal [i] none).length : Int) := by
      rw [View.itemDeg_eq (by simp [ha])]
      simp only [MNet.view, MNet.deg, MNet.degOut, MNet.degDict_eq, MNet.iterTotal, hdir, Bool.false_eq_true, if_false,
        MNet.iterOut]
    refine ⟨(m.iterTotal [i] none).flatMap id, ?_, ?_, ?_, ?_⟩
    · rw [View.neighbors_eq (by simp [ha])]
      change Except.ok (m.iterTotal [i] none) = _
      congr 1
      generalize m.iterTotal [i] none = l at hmem
      have : ∀ b ∈ l, ∃ x, b = [x] := fun b hb => by obtain ⟨x, hx, -⟩ := (hmem b).1 hb; exact ⟨x, hx⟩
      clear hmem
      induction l with
      | nil => rfl
      | cons b t ih =>
        obtain ⟨x, rfl⟩ := this b (by simp)
        simp only [List.flatMap_cons, id, List.cons_append, List.nil_append, List.map_cons]
        rw [← ih (fun b hb => this b (by simp [hb]))]
    · have hnd := MNet.iterTotal_nodup hi.l [i] none
      rw [List.nodup_flatMap]
      constructor
      · intro b hb
        obtain ⟨x, rfl, -⟩ := (hmem b).1 hb
        simp
      · refine List.Pairwise.imp_of_mem ?_ hnd
        intro b c hb hc hne
        obtain ⟨x, rfl, -⟩ := (hmem b).1 hb
        obtain ⟨y, rfl, -⟩ := (hmem c).1 hc
        simpa [Function.onFun, eq_comm] using hne
    · intro x
      rw [List.mem_flatMap]
      constructor
      · rintro ⟨b, hb, hx⟩
        obtain ⟨y, rfl, h1, h2⟩ := (hmem b).1 hb
        simp at hx; subst hx
        exact ⟨h1, h2⟩
      · rintro ⟨h1, h2⟩
        exact ⟨[x], (hmem _).2 ⟨x, rfl, h1, h2⟩, by simp⟩
    · rw [hdeg]
      congr 2
      generalize m.iterTotal [i] none = l at hmem
      have : ∀ b ∈ l, ∃ x, b = [x] := fun b hb => by obtain ⟨x, hx, -⟩ := (hmem b).1 hb; exact ⟨x, hx⟩
      clear hmem hdeg
      induction l with
      | nil => rfl
      | cons b t ih =>
        obtain ⟨x, rfl⟩ := this b (by simp)
        simp only [List.flatMap_cons, id, List.cons_append, List.nil_append, List.length_cons]
        rw [← ih (fun b hb => this b (by simp [hb]))]

theorem Spec.Looks.mono {α W : Type} [DecidableEq α] [DecidableEq W] {m : MNet α W} {z : W} {al : Bool}
    {S : Nat → α → Prop} {NL : List α → Prop} {R : List α → List α → W} (h : Spec.Looks m 0 z false al S NL R)
    {N : Finset α} (hN : ∀ x, x ∈ N ↔ S 0 x) : Mono m.view N fun i j => R [i] [j] := by
  have hi := h.inv
  have e : (fun i j => R [i] [j]) = fun i j => m.reads [i] [j] := by
    funext i j
    exact (h.reads_eq (u := [i]) (v := [j]) rfl rfl).symm
  rw [e]
  refine hi.mono h.aspects_eq h.directed_eq fun x => ?_
  rw [hN, ← h.inSlice (k := 0) (by omega)]
  unfold MNet.inSlice
  have hs := MNet.slices_split hi.r
  generalize m.slices.headD [] = s0 at hs ⊢
  rw [hs]
  simp

namespace Mono

variable {α W : Type} [DecidableEq α] [DecidableEq W] {v : View α W} {N : Finset α} {w : α → α → W}

theorem ccNumDen (h : Mono v N w) (n : α) :
    ∃ t : Nat, v.ccNumDen [n] = .ok (t, ((Spec.triads N (fun i j => w i j ≠ v.noEdge) n).card : ℚ) / 2) ∧
      (Spec.triangles N (fun i j => w i j ≠ v.noEdge) n).card = 2 * t := by
  obtain ⟨l, h1, h2, h3, h4⟩ := h.neigh n
  have := View.ccNumDen_eq (R := fun a b => w (a.headD n) (b.headD n)) h4 h1 (h2.map (fun x y e => by simpa using e)) (by
    intro a ha b hb _
    simp only [List.mem_map] at ha hb
    obtain ⟨x, -, rfl⟩ := ha
    obtain ⟨y, -, rfl⟩ := hb
    exact h.num2 x y)
  refine ⟨pairSum (fun a b => if w a b ≠ v.noEdge then 1 else 0) l, this.trans ?_, ?_⟩
  · rw [pairSum_map]
    congr 2
    rw [triads_card h2 h3]
    have hle : l.length ≤ l.length * l.length := Nat.le_mul_self _
    push_cast [Nat.cast_sub hle]
    ring
  · rw [triangles_card h2 h3 (fun a _ b _ => by simp only [h.sym a b])]

theorem lcc (h : Mono v N w) (n : α) :
    v.lcc [n] = .ok (if (Spec.neighbours N (fun i j => w i j ≠ v.noEdge) n).card < 2 then none
      else some ((Spec.triangles N (fun i j => w i j ≠ v.noEdge) n).card /
        (Spec.triads N (fun i j => w i j ≠ v.noEdge) n).card)) := by
  obtain ⟨t, e, ht⟩ := h.ccNumDen n
  obtain ⟨l, h1, h2, h3, h4⟩ := h.neigh n
  have hc : (Spec.neighbours N (fun i j => w i j ≠ v.noEdge) n).card = l.length := by
    rw [neighbours_eq h3, List.toFinset_card_of_nodup h2]
  unfold View.lcc
  rw [h4, ok_bind, hc]
  by_cases hk : 2 ≤ l.length
  · rw [if_pos (by exact_mod_cast hk), if_neg (by omega), e, ok_bind]
    have hpos : (Spec.triads N (fun i j => w i j ≠ v.noEdge) n).card ≠ 0 := by
      rw [triads_card h2 h3]
      have : l.length * 2 ≤ l.length * l.length := Nat.mul_le_mul_left _ hk
      omega
    have hq : ((Spec.triads N (fun i j => w i j ≠ v.noEdge) n).card : ℚ) ≠ 0 := by exact_mod_cast hpos
    simp only [divE]
    rw [if_neg (by simpa using hpos), ok_bind, pure_eq_ok, ht]
    congr 2
    push_cast
    field_simp
  · rw [if_neg (by exact_mod_cast hk), if_pos (by omega)]
    rfl

end Mono

end Pymnet
