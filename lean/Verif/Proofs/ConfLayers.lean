import Verif.Proofs.ConfDegs

/-! The configuration model on the layers of a multiplex network. -/

set_option linter.unusedSectionVars false

namespace Pymnet

open Py Models MPlex

variable {α W : Type} [DecidableEq α] [DecidableEq W] [LinearOrder α] [Zero W] [One W]

theorem Ends.weaken {τ : Type} {B B' : Err → Prop} {x : Except Stop τ} {P : τ → Prop} (h : Ends B x P)
    (hB : ∀ e, B e → B' e) : Ends B' x P := by
  match x, h with
  | .ok _, h => exact h
  | .error .more, _ => trivial
  | .error (.raised e), h => exact hB e h

/-- the content after some of the layers -/
def ConfPre (ix : Nat → α) (c : Coupling α W) (al : Bool) (pre : List (α × Degs α)) (p : MPlex α W) : Prop :=
  ∃ R, BuiltP p c al (fun x => ∃ l ∈ pre, Spec.nodesOf ix l.2 x) (fun s => ∃ l ∈ pre, s = l.1)
      (fun n s => ∃ l ∈ pre, s = l.1 ∧ Spec.nodesOf ix l.2 n) R ∧
    (∀ l ∈ pre, Spec.Fulfils ix l.2 (R l.1)) ∧ ∀ s, (∀ l ∈ pre, s ≠ l.1) → ∀ a b, R s a b = 0

theorem confPre_layer {ix : Nat → α} {c : Coupling α W} {al : Bool} {pre : List (α × Degs α)} {l : α × Degs α}
    (hl : ∀ x ∈ pre, l.1 ≠ x.1) {p : MPlex α W} (h : ConfPre ix c al pre p) :
    ∃ p1, (p.addLayer l.1 1).toExcept = .ok p1 ∧ ∃ S0 LY NL0 R0, LY l.1 ∧
      BuiltL c al l.1 S0 LY NL0 R0 p1 (fun _ => False) (fun _ _ => 0) ∧
      ∀ {p2 : MPlex α W} {R : α → α → W}, BuiltL c al l.1 S0 LY NL0 R0 p2 (Spec.nodesOf ix l.2) R →
        Spec.Fulfils ix l.2 R → ConfPre ix c al (pre ++ [l]) p2 := by
  obtain ⟨R, h1, h2, h3⟩ := h
  obtain ⟨p1, e1, e2⟩ := h1.addLayer l.1
  refine ⟨p1, e1, (fun x => ∃ l ∈ pre, Spec.nodesOf ix l.2 x), (fun x => (∃ l ∈ pre, x = l.1) ∨ x = l.1),
    (fun n s => ∃ l ∈ pre, s = l.1 ∧ Spec.nodesOf ix l.2 n), R, .inr rfl, ?_, ?_⟩
  · refine e2.congr (fun x => by simp) (fun _ => Iff.rfl) (fun n s => ?_) (fun s a b => ?_)
    · constructor
      · rintro ⟨k, k1, rfl, k2⟩; exact .inl ⟨fun h => hl k k1 h.symm, k, k1, rfl, k2⟩
      · rintro (⟨-, h⟩ | ⟨-, h⟩)
        · exact h
        · exact h.elim
    · split
      · rename_i hs; subst hs; exact h3 _ (fun k hk => hl k hk) a b
      · rfl
  · intro p2 R2 hb hL
    refine ⟨_, BuiltP.congr hb (fun x => ?_) (fun x => ?_) (fun n s => ?_) (fun _ _ _ => rfl), ?_, ?_⟩
    · simp [or_and_right, exists_or]
    · simp [or_and_right, exists_or]
    · simp only [List.mem_append, List.mem_singleton, or_and_right, exists_or, exists_eq_left]
      constructor
      · rintro (⟨-, h⟩ | ⟨h, h'⟩)
        · exact .inl h
        · exact .inr ⟨h, h'⟩
      · rintro (⟨k, k1, rfl, k2⟩ | ⟨h, h'⟩)
        · exact .inl ⟨fun h => hl k k1 h.symm, k, k1, rfl, k2⟩
        · exact .inr ⟨h, h'⟩
    · intro k hk
      rcases List.mem_append.1 hk with hk | hk
      · have : k.1 ≠ l.1 := fun h => hl k hk h.symm
        simpa only [this, if_false] using h2 k hk
      · cases List.mem_singleton.1 hk
        simpa using hL
    · intro s hs a b
      rw [if_neg (hs l (by simp))]
      exact h3 s (fun k hk => hs k (by simp [hk])) a b

theorem confLayers_ends [NeZero (1 : W)] {ix : Nat → α} (hix : Function.Injective ix) {c : Coupling α W} {al : Bool}
    {rnd : α → ConfRandom α} {layers : List (α × Degs α)} (hd : (layers.map Prod.fst).Nodup)
    (hk : ∀ l ∈ layers, Spec.DistinctKeys l.2) :
    Ends (fun e => ∃ l ∈ layers, (e = .assertionError ∧ (Spec.degreeSum l.2 % 2 ≠ 0 ∨
          Spec.nodeCount l.2 * (Spec.nodeCount l.2 - 1) < Spec.degreeSum l.2)) ∨
        (e = .valueError ∧ Spec.degreeSum l.2 = 2))
      (confLayers ix rnd layers (MPlex.init [c] false 0 al)) (ConfPre ix c al layers) := by
  refine forS_ends (P := ConfPre ix c al) layers ?_ ?_
  · exact ⟨_, (BuiltP.init c al).congr (by simp) (by simp) (by simp) (fun _ _ _ => rfl), by simp, fun _ _ _ _ => rfl⟩
  · intro pre l post s hl h
    have hm : l ∈ layers := by simp [hl]
    rw [hl, List.map_append, List.nodup_append] at hd
    have hne : ∀ x ∈ pre, l.1 ≠ x.1 := fun x hx h =>
      hd.2.2 x.1 (List.mem_map.2 ⟨x, hx, rfl⟩) l.1 (by simp) h.symm
    obtain ⟨p1, e1, S0, LY, NL0, R0, hLY, e2, e3⟩ := confPre_layer hne h
    rw [e1]
    simp only
    exact ((singleLayerConf_ends (fills_layer c al l.1 S0 LY NL0 R0 hLY) hix e2 (hk l hm) (rnd l.1)).mono
      (fun p2 ⟨R, h1, h2⟩ => e3 h1 h2)).weaken fun e he => ⟨l, hm, he⟩

/-! ### the flag -/

theorem sameNodes_iff {ix : Nat → α} (hix : Function.Injective ix) {a b : Degs α}
    (h : (∃ x y, a = .nodes x ∧ b = .nodes y) ∨ (∃ x y, a = .dist x ∧ b = .dist y)) :
    sameNodes a b = true ↔ ∀ x, Spec.nodesOf ix a x ↔ Spec.nodesOf ix b x := by
  rcases h with ⟨a, b, rfl, rfl⟩ | ⟨a, b, rfl, rfl⟩
  · simp only [sameNodes, Spec.nodesOf, decide_eq_true_eq]
    exact ⟨fun h x => ⟨h.1 x, h.2 x⟩, fun h => ⟨fun x => (h x).1, fun x => (h x).2⟩⟩
  · simp only [sameNodes, Spec.nodesOf, decide_eq_true_eq]
    constructor
    · intro h x; rw [h]
    · intro h
      by_contra hne
      rcases lt_or_gt_of_ne hne with hlt | hlt
      · obtain ⟨i, hi, e⟩ := (h (ix (a.map Prod.snd).sum)).2 ⟨_, hlt, rfl⟩
        rw [hix e] at hi; exact lt_irrefl _ hi
      · obtain ⟨i, hi, e⟩ := (h (ix (b.map Prod.snd).sum)).1 ⟨_, hlt, rfl⟩
        rw [hix e] at hi; exact lt_irrefl _ hi

theorem nodeAligned_iff {ix : Nat → α} (hix : Function.Injective ix) : ∀ {l : List (Degs α)}, Spec.SameKind l →
    (nodeAligned l = true ↔ ∀ a ∈ l, ∀ b ∈ l, ∀ x, Spec.nodesOf ix a x ↔ Spec.nodesOf ix b x)
  | [], _ => by simp [nodeAligned]
  | [a], _ => by simp [nodeAligned]
  | a :: b :: t, h => by
    have hab : (∃ x y, a = .nodes x ∧ b = .nodes y) ∨ (∃ x y, a = .dist x ∧ b = .dist y) := by
      rcases h with h | h
      · obtain ⟨x, hx⟩ := h a (by simp)
        obtain ⟨y, hy⟩ := h b (by simp)
        exact .inl ⟨x, y, hx, hy⟩
      · obtain ⟨x, hx⟩ := h a (by simp)
        obtain ⟨y, hy⟩ := h b (by simp)
        exact .inr ⟨x, y, hx, hy⟩
    have ht : Spec.SameKind (b :: t) :=
      h.imp (fun h d hd => h d (List.mem_cons_of_mem _ hd)) (fun h d hd => h d (List.mem_cons_of_mem _ hd))
    rw [nodeAligned, Bool.and_eq_true, sameNodes_iff hix hab, nodeAligned_iff hix ht]
    constructor
    · rintro ⟨h1, h2⟩ c hc d hd x
      have key : ∀ c ∈ a :: b :: t, Spec.nodesOf ix c x ↔ Spec.nodesOf ix b x := by
        intro c hc
        rcases List.mem_cons.1 hc with rfl | hc
        · exact h1 x
        · exact h2 c hc b (by simp) x
      rw [key c hc, key d hd]
    · exact fun h => ⟨h a (by simp) b (by simp), fun c hc d hd => h c (List.mem_cons_of_mem _ hc) d (List.mem_cons_of_mem _ hd)⟩

/-- `conf` of several layers -/
theorem confPlex_ends [NeZero (1 : W)] [IntNames α] {ix : Nat → α} (hix : Function.Injective ix) {c : Coupling α W}
    {rnd : α → ConfRandom α} {layers : List (α × Degs α)} (hd : (layers.map Prod.fst).Nodup)
    (hk : ∀ l ∈ layers, Spec.DistinctKeys l.2) (hs : Spec.SameKind (layers.map Prod.snd)) :
    Ends (fun e => ∃ l ∈ layers, (e = .assertionError ∧ (Spec.degreeSum l.2 % 2 ≠ 0 ∨
          Spec.nodeCount l.2 * (Spec.nodeCount l.2 - 1) < Spec.degreeSum l.2)) ∨
        (e = .valueError ∧ Spec.degreeSum l.2 = 2))
      (confLayers ix rnd layers (MPlex.init [c] false 0 (nodeAligned (layers.map Prod.snd)))) (fun p => ∃ al R,
        (al = true ↔ ∀ l ∈ layers, ∀ l' ∈ layers, ∀ x, Spec.nodesOf ix l.2 x ↔ Spec.nodesOf ix l'.2 x) ∧
        Spec.LooksPlex p c al (fun x => ∃ l ∈ layers, Spec.nodesOf ix l.2 x) (fun s => ∃ l ∈ layers, s = l.1)
          (fun x s => ∃ l ∈ layers, s = l.1 ∧ Spec.nodesOf ix l.2 x) R ∧
        ∀ l ∈ layers, Spec.Fulfils ix l.2 (R l.1)) := by
  refine (confLayers_ends hix hd hk).mono ?_
  rintro p ⟨R, h1, h2, -⟩
  have hal : nodeAligned (layers.map Prod.snd) = true ↔
      ∀ l ∈ layers, ∀ l' ∈ layers, ∀ x, Spec.nodesOf ix l.2 x ↔ Spec.nodesOf ix l'.2 x := by
    rw [nodeAligned_iff hix hs]
    refine ⟨fun h l hl l' hl' => h _ (List.mem_map_of_mem hl) _ (List.mem_map_of_mem hl'), fun h a ha b hb => ?_⟩
    obtain ⟨l, hl, rfl⟩ := List.mem_map.1 ha
    obtain ⟨l', hl', rfl⟩ := List.mem_map.1 hb
    exact h l hl l' hl'
  refine ⟨nodeAligned (layers.map Prod.snd), R, hal, ?_, h2⟩
  have := h1.looks
  refine ⟨this.reachable, this.nodes, this.layers, fun s hs => ?_, this.reads, this.intra⟩
  obtain ⟨L, l1, l2, l3⟩ := this.layerNodes s hs
  refine ⟨L, l1, l2, fun x => (l3 x).trans ?_⟩
  by_cases ha : nodeAligned (layers.map Prod.snd) = true
  · rw [if_pos ha]
    constructor
    · rintro ⟨l', hl', hx⟩
      obtain ⟨l, hl, rfl⟩ := hs
      exact ⟨l, hl, rfl, (hal.1 ha l hl l' hl' x).2 hx⟩
    · rintro ⟨l, hl, -, hx⟩; exact ⟨l, hl, hx⟩
  · rw [if_neg ha]

end Pymnet
