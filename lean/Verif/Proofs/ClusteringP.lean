import Verif.Proofs.ClusteringW

/-! Clustering coefficients computed from the layers of a network with one aspect. -/

set_option linter.unusedSectionVars false
set_option linter.unusedSimpArgs false

namespace Pymnet

open Py

/-- a loop over a duplicate-free list that adds a term in every round -/
theorem forE_fin {σ β : Type} [AddCommMonoid σ] {f : σ → β → Except Err σ} {g : β → σ} {l : List β} {N : Finset β}
    (hn : l.Nodup) (hm : ∀ x, x ∈ l ↔ x ∈ N) (h : ∀ x ∈ N, ∀ s, f s x = .ok (s + g x)) (s : σ) :
    forE f l s = .ok (s + ∑ x ∈ N, g x) := by
  classical
  rw [forE_sum (g := g) fun x hx => h x ((hm x).1 hx)]
  have : l.toFinset = N := by ext x; rw [List.mem_toFinset, hm]
  rw [← this, List.sum_toFinset _ hn]

/-- What the clustering coefficients use of the layers of a network with one aspect. -/
structure Lay {α W : Type} [DecidableEq α] [DecidableEq W] (v : View α W) (N B : Finset α) (A : α → α → α → W) : Prop where
  asp : v.aspects = 1
  nodup : v.nodes.Nodup
  mem : ∀ x, x ∈ v.nodes ↔ x ∈ N
  layers : ∃ ls, v.layers1 = .ok ls ∧ ls.Nodup ∧ ∀ x, x ∈ ls ↔ x ∈ B
  num3 : ∀ i j, ∀ l ∈ B, v.num [i, j, l] = .ok (A i j l)

theorem Spec.Looks.lay {α W : Type} [DecidableEq α] [DecidableEq W] {m : MNet α W} {z : W} {dir al : Bool}
    {S : Nat → α → Prop} {NL : List α → Prop} {R : List α → List α → W} (h : Spec.Looks m 1 z dir al S NL R)
    {N B : Finset α} (hN : ∀ x, x ∈ N ↔ S 0 x) (hB : ∀ x, x ∈ B ↔ S 1 x) :
    Lay m.view N B fun i j l => R [i, l] [j, l] := by
  have ha : m.view.aspects = 1 := h.aspects_eq
  have hi := h.inv
  refine ⟨ha, ?_, fun x => ?_, ?_, fun i j l _ => ?_⟩
  · change (m.slices.headD []).Nodup
    have := hi.r.snodup
    rw [MNet.slices_split hi.r] at this
    exact this _ (by simp)
  · rw [hN, ← h.inSlice (k := 0) (by omega)]
    change x ∈ m.slices.headD [] ↔ _
    unfold MNet.inSlice
    have hs := MNet.slices_split hi.r
    generalize m.slices.headD [] = s0 at hs ⊢
    rw [hs]
    simp
  · obtain ⟨l, h1, h2, h3⟩ := h.layers 1 (le_refl _)
    refine ⟨l, ?_, h2, fun x => (h3 x).trans (hB x).symm⟩
    unfold MNet.getLayers at h1
    unfold View.layers1
    change (match m.slices[1]? with | none => _ | some l => _) = _
    cases hs : m.slices[1]? with
    | none => rw [hs] at h1; cases h1
    | some s => rw [hs] at h1; exact h1
  · unfold View.num
    rw [h.reads [i, j, l] [i, l] [j, l] ⟨rfl, rfl, Or.inr ⟨i, j, [l], rfl, rfl, rfl⟩⟩, ok_bind]
    rfl

/-- a conditional round of a loop -/
theorem forE_fin_if {σ β : Type} [AddCommMonoid σ] {f : σ → β → Except Err σ} {g : β → σ} {l : List β} {N : Finset β}
    {c : β → Prop} [DecidablePred c]
    (hn : l.Nodup) (hm : ∀ x, x ∈ l ↔ x ∈ N) (h : ∀ x ∈ N, c x → ∀ s, f s x = .ok (s + g x)) (s : σ) :
    forE (fun s x => if c x then f s x else pure s) l s = .ok (s + ∑ x ∈ N.filter c, g x) := by
  rw [forE_fin (g := fun x => if c x then g x else 0) hn hm, Finset.sum_filter]
  intro x hx s
  by_cases hc : c x
  · rw [if_pos hc, if_pos hc, h x hx hc]
  · rw [if_neg hc, if_neg hc, add_zero]; rfl

namespace Lay

variable {α W : Type} [DecidableEq α] [DecidableEq W] {v : View α W} {N B : Finset α} {A : α → α → α → W}

/-- the links of the layers -/
abbrev link (v : View α W) (A : α → α → α → W) : α → α → α → Prop := fun i j l => A i j l ≠ v.noEdge

theorem countVH (h : Lay v N B A) (node : α) {cond : α → α → Except Err Bool} {c : α → α → Bool}
    (hc : ∀ x y, cond x y = .ok (c x y)) (s : ℕ) :
    v.countVH node cond s = .ok (s + ∑ x ∈ N.filter (· ≠ node), ∑ y ∈ N.filter (· ≠ node), if c x y then 1 else 0) := by
  unfold View.countVH
  refine forE_fin_if (c := fun x => x ≠ node) h.nodup h.mem (fun x _ _ s => ?_) s
  refine forE_fin_if (c := fun x => x ≠ node) h.nodup h.mem (fun y _ _ s => ?_) s
  rw [hc, ok_bind]
  cases c x y <;> rfl

theorem hasLink3 (h : Lay v N B A) (i j : α) {l : α} (hl : l ∈ B) :
    v.hasLink3 i j l = .ok (decide (A i j l ≠ v.noEdge)) := by
  unfold View.hasLink3
  rw [h.num3 i j l hl, ok_bind]
  rfl

theorem wedge (h : Lay v N B A) (node : α) {a b : α} (ha : a ∈ B) (hb : b ∈ B) (s : ℕ) :
    v.countVH node (v.wedge node a b) s = .ok (s + ∑ x ∈ N.filter (· ≠ node), ∑ y ∈ N.filter (· ≠ node),
      Spec.adj (link v A) node x a * Spec.adj (link v A) y node b) := by
  rw [h.countVH node (c := fun x y => decide (A node x a ≠ v.noEdge ∧ A y node b ≠ v.noEdge))]
  · congr 2
    refine Finset.sum_congr rfl fun x _ => Finset.sum_congr rfl fun y _ => ?_
    unfold Spec.adj
    by_cases h1 : A node x a = v.noEdge <;> by_cases h2 : A y node b = v.noEdge <;> simp [h1, h2]
  · intro x y
    unfold View.wedge
    rw [h.hasLink3 _ _ ha, ok_bind, h.hasLink3 _ _ hb]
    by_cases h1 : A node x a = v.noEdge <;> simp [h1, pure_eq_ok]

theorem closed (h : Lay v N B A) (node : α) {a g b : α} (ha : a ∈ B) (hg : g ∈ B) (hb : b ∈ B) (s : ℕ) :
    v.countVH node (v.closed node a g b) s = .ok (s + ∑ x ∈ N.filter (· ≠ node), ∑ y ∈ N.filter (· ≠ node),
      Spec.adj (link v A) node x a * Spec.adj (link v A) x y g * Spec.adj (link v A) y node b) := by
  rw [h.countVH node (c := fun x y => decide (A node x a ≠ v.noEdge ∧ A x y g ≠ v.noEdge ∧ A y node b ≠ v.noEdge))]
  · congr 2
    refine Finset.sum_congr rfl fun x _ => Finset.sum_congr rfl fun y _ => ?_
    unfold Spec.adj
    by_cases h1 : A node x a = v.noEdge <;> by_cases h2 : A y node b = v.noEdge <;>
      by_cases h3 : A x y g = v.noEdge <;> simp [h1, h2, h3]
  · intro x y
    unfold View.closed
    rw [h.hasLink3 _ _ ha, ok_bind, h.hasLink3 _ _ hb, h.hasLink3 _ _ hg]
    by_cases h1 : A node x a = v.noEdge
    · simp [h1, pure_eq_ok]
    · by_cases h2 : A x y g = v.noEdge <;> simp [h1, h2, pure_eq_ok, ok_bind]

theorem battiston1 (h : Lay v N B A) (node : α) :
    v.battiston1 node = if B.card < 2 then .error .assertionError
      else .ok (if Spec.battiston1Den N B (link v A) node = 0 then none
        else some ((Spec.battiston1Num N B (link v A) node : ℚ) / Spec.battiston1Den N B (link v A) node / (B.card - 1))) := by
  classical
  obtain ⟨ls, h1, h2, h3⟩ := h.layers
  have hcard : ls.length = B.card := by
    rw [← List.toFinset_card_of_nodup h2]
    congr 1; ext x; rw [List.mem_toFinset, h3]
  unfold View.battiston1
  rw [if_pos h.asp, h1, ok_bind, hcard]
  by_cases hb : 2 ≤ B.card
  · rw [if_pos hb, if_neg (by omega), forE_fin h2 h3 (fun a ha s => h.wedge node ha ha s), ok_bind, zero_add]
    have hd : ∑ a ∈ B, ∑ x ∈ N.filter (· ≠ node), ∑ y ∈ N.filter (· ≠ node),
        Spec.adj (link v A) node x a * Spec.adj (link v A) y node a = Spec.battiston1Den N B (link v A) node := by
      unfold Spec.battiston1Den
      refine Finset.sum_congr rfl fun a _ => ?_
      congr!
    rw [hd]
    by_cases h0 : Spec.battiston1Den N B (link v A) node = 0
    · rw [if_pos h0, if_pos h0]; rfl
    · rw [if_neg h0, if_neg h0, forE_fin h2 h3 (fun a ha s => forE_fin_if (c := fun b => b ≠ a) h2 h3
        (fun b hb _ s => h.closed node ha hb ha s) s), ok_bind, zero_add]
      have hn : ∑ a ∈ B, ∑ b ∈ B.filter (· ≠ a), ∑ x ∈ N.filter (· ≠ node), ∑ y ∈ N.filter (· ≠ node),
          Spec.adj (link v A) node x a * Spec.adj (link v A) x y b * Spec.adj (link v A) y node a =
            Spec.battiston1Num N B (link v A) node := by
        unfold Spec.battiston1Num
        congr!
      rw [hn]
      have hb1 : (B.card : ℚ) - 1 ≠ 0 := by
        have : (2 : ℚ) ≤ B.card := by exact_mod_cast hb
        linarith
      simp only [divE]
      rw [if_neg (by exact_mod_cast h0), ok_bind, if_neg hb1, ok_bind]
      rfl
  · rw [if_neg hb, if_pos (by omega)]

theorem battiston2 (h : Lay v N B A) (node : α) :
    v.battiston2 node = .ok (if B.card < 3 ∨ Spec.battiston2Den N B (link v A) node = 0 then none
        else some ((Spec.battiston2Num N B (link v A) node : ℚ) / Spec.battiston2Den N B (link v A) node / (B.card - 2))) := by
  classical
  obtain ⟨ls, h1, h2, h3⟩ := h.layers
  have hcard : ls.length = B.card := by
    rw [← List.toFinset_card_of_nodup h2]
    congr 1; ext x; rw [List.mem_toFinset, h3]
  unfold View.battiston2
  rw [if_pos h.asp, h1, ok_bind, hcard]
  by_cases hb : B.card < 3
  · rw [if_pos hb, if_pos (Or.inl hb)]; rfl
  · rw [if_neg hb, forE_fin h2 h3 (fun a ha s => forE_fin_if (c := fun b => b ≠ a) h2 h3
        (fun b hb _ s => h.wedge node ha hb s) s), ok_bind, zero_add]
    have hd : ∑ a ∈ B, ∑ b ∈ B.filter (· ≠ a), ∑ x ∈ N.filter (· ≠ node), ∑ y ∈ N.filter (· ≠ node),
        Spec.adj (link v A) node x a * Spec.adj (link v A) y node b = Spec.battiston2Den N B (link v A) node := by
      unfold Spec.battiston2Den
      congr!
    rw [hd]
    by_cases h0 : Spec.battiston2Den N B (link v A) node = 0
    · rw [if_pos h0, if_pos (Or.inr h0)]; rfl
    · rw [if_neg h0, if_neg (by tauto), forE_fin h2 h3 (fun a ha s => forE_fin_if (c := fun b => b ≠ a) h2 h3
        (fun b hb _ s => forE_fin_if (c := fun g => g ≠ a ∧ g ≠ b) h2 h3 (fun g hg _ s =>
          h.closed node ha hg hb s) s) s), ok_bind, zero_add]
      have hn : ∑ a ∈ B, ∑ b ∈ B.filter (· ≠ a), ∑ g ∈ B.filter (fun g => g ≠ a ∧ g ≠ b),
          ∑ x ∈ N.filter (· ≠ node), ∑ y ∈ N.filter (· ≠ node),
          Spec.adj (link v A) node x a * Spec.adj (link v A) x y g * Spec.adj (link v A) y node b =
            Spec.battiston2Num N B (link v A) node := by
        unfold Spec.battiston2Num
        congr!
      rw [hn]
      have hb1 : (B.card : ℚ) - 2 ≠ 0 := by
        have : (3 : ℚ) ≤ B.card := by exact_mod_cast (not_lt.1 hb)
        linarith
      simp only [divE]
      rw [if_neg (by exact_mod_cast h0), ok_bind, if_neg hb1, ok_bind]
      rfl

end Lay

theorem Spec.adj_le_one {V L : Type} (link : V → V → L → Prop) (u v : V) (a : L) : Spec.adj link u v a ≤ 1 := by
  unfold Spec.adj; split <;> omega

/-- A path closes on at most all other layers. -/
theorem battiston1_le {V L : Type} (N : Finset V) (B : Finset L) (link : V → V → L → Prop) (u : V) :
    Spec.battiston1Num N B link u ≤ (B.card - 1) * Spec.battiston1Den N B link u := by
  classical
  unfold Spec.battiston1Num Spec.battiston1Den
  rw [Finset.mul_sum]
  refine Finset.sum_le_sum fun a ha => ?_
  have hc : (B.filter (· ≠ a)).card = B.card - 1 := by
    rw [Finset.filter_ne', Finset.card_erase_of_mem ha]
  have : ∀ b ∈ B.filter (· ≠ a), ∑ v ∈ N.filter (· ≠ u), ∑ h ∈ N.filter (· ≠ u),
      Spec.adj link u v a * Spec.adj link v h b * Spec.adj link h u a ≤
      ∑ v ∈ N.filter (· ≠ u), ∑ h ∈ N.filter (· ≠ u), Spec.adj link u v a * Spec.adj link h u a := by
    intro b _
    refine Finset.sum_le_sum fun x _ => Finset.sum_le_sum fun y _ => ?_
    rw [mul_assoc]
    refine Nat.mul_le_mul_left _ ?_
    calc _ ≤ 1 * Spec.adj link y u a := Nat.mul_le_mul_right _ (Spec.adj_le_one ..)
      _ = _ := one_mul _
  refine (Finset.sum_le_card_nsmul _ _ _ this).trans (le_of_eq ?_)
  rw [smul_eq_mul]
  congr! 1

theorem battiston2_le {V L : Type} (N : Finset V) (B : Finset L) (link : V → V → L → Prop) (u : V) :
    Spec.battiston2Num N B link u ≤ (B.card - 2) * Spec.battiston2Den N B link u := by
  classical
  unfold Spec.battiston2Num Spec.battiston2Den
  rw [Finset.mul_sum]
  refine Finset.sum_le_sum fun a ha => ?_
  rw [Finset.mul_sum]
  refine Finset.sum_le_sum fun b hb => ?_
  rw [Finset.mem_filter] at hb
  have hc : (B.filter fun g => g ≠ a ∧ g ≠ b).card = B.card - 2 := by
    have : (B.filter fun g => g ≠ a ∧ g ≠ b) = (B.erase a).erase b := by
      ext g; simp only [Finset.mem_filter, Finset.mem_erase]; tauto
    rw [this, Finset.card_erase_of_mem (by simp [hb.1, hb.2]), Finset.card_erase_of_mem ha]
    omega
  have : ∀ g ∈ B.filter (fun g => g ≠ a ∧ g ≠ b), ∑ v ∈ N.filter (· ≠ u), ∑ h ∈ N.filter (· ≠ u),
      Spec.adj link u v a * Spec.adj link v h g * Spec.adj link h u b ≤
      ∑ v ∈ N.filter (· ≠ u), ∑ h ∈ N.filter (· ≠ u), Spec.adj link u v a * Spec.adj link h u b := by
    intro g _
    refine Finset.sum_le_sum fun x _ => Finset.sum_le_sum fun y _ => ?_
    rw [mul_assoc]
    refine Nat.mul_le_mul_left _ ?_
    calc _ ≤ 1 * Spec.adj link y u b := Nat.mul_le_mul_right _ (Spec.adj_le_one ..)
      _ = _ := one_mul _
  have h2 := Finset.sum_le_card_nsmul _ _ _ this
  rw [hc, smul_eq_mul] at h2
  refine le_trans (le_of_eq ?_) (h2.trans (le_of_eq ?_))
  · congr!
  · congr!

end Pymnet
