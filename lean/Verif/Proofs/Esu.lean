import Verif.Proofs.Search

/-! The search from one node-layer in `sample_multilayer_subgraphs_esu`. -/

set_option linter.unusedSectionVars false
set_option linter.unusedSimpArgs false

namespace Pymnet

open Py

variable {α W : Type} [DecidableEq α] [DecidableEq W]

theorem mem_product2 {N L : List α} {a : List α} : a ∈ product [N, L] ↔ Spec.Inside N L a := by
  unfold Spec.Inside
  simp only [product, List.mem_flatMap, List.mem_map, List.mem_singleton]
  constructor
  · rintro ⟨n, hn, t, ⟨l, hl, t', rfl, rfl⟩, rfl⟩
    exact ⟨n, hn, l, hl, rfl⟩
  · rintro ⟨n, hn, l, hl, rfl⟩
    exact ⟨n, hn, [l], ⟨l, hl, [], rfl, rfl⟩, rfl⟩

theorem inside_pair {N L : List α} {n l : α} : Spec.Inside N L [n, l] ↔ n ∈ N ∧ l ∈ L := by
  unfold Spec.Inside
  constructor
  · rintro ⟨n', hn, l', hl, he⟩
    simp only [List.cons.injEq, and_true] at he
    obtain ⟨rfl, rfl⟩ := he
    exact ⟨hn, hl⟩
  · rintro ⟨hn, hl⟩; exact ⟨n, hn, l, hl, rfl⟩

theorem inside_mono {N N' L L' : List α} (hN : ∀ x ∈ N, x ∈ N') (hL : ∀ x ∈ L, x ∈ L') {a : List α} (h : Spec.Inside N L a) :
    Spec.Inside N' L' a := by
  obtain ⟨n, hn, l, hl, e⟩ := h
  exact ⟨n, hN n hn, l, hL l hl, e⟩

theorem mem_neighborsOf {m : MNet α W} {nls : List (List α)} {N L : List α} {b : List α} :
    b ∈ neighborsOf m nls N L ↔ ∃ a, Spec.Inside N L a ∧ a ∈ nls ∧ b ∈ m.iterTotal a none := by
  unfold neighborsOf
  simp only [List.mem_flatMap, List.mem_filter, mem_product2, decide_eq_true_eq, and_assoc]

theorem lowerThan_iff {nls : List (List α)} {v x : List α} : lowerThan nls v x = true ↔ x ∈ nls ∧ nls.idxOf x < nls.idxOf v := by
  simp [lowerThan]

namespace Ctx

variable (c : Ctx α W)

/-- Numbered higher than the first node-layer. -/
def High (b : List α) : Prop := c.nls.idxOf c.v < c.nls.idxOf b

/-- Not numbered lower than the first node-layer. -/
def NotLow (b : List α) : Prop := b ∈ c.nls → c.nls.idxOf c.v ≤ c.nls.idxOf b

/-- `b` is a neighbour of the subgraph, numbered higher than the first node-layer. -/
def NbOf (N L b : List α) : Prop := ∃ a, Spec.Inside N L a ∧ a ∈ c.nls ∧ b ∈ c.m.iterTotal a none ∧ c.High b

/-- Nodes of neighbours that are not in the subgraph. -/
def NbN (N L : List α) (n : α) : Prop := n ∉ N ∧ ∃ l, c.NbOf N L [n, l]

/-- Layers of neighbours that are not in the subgraph. -/
def NbL (N L : List α) (l : α) : Prop := l ∉ L ∧ ∃ n, c.NbOf N L [n, l]

/-- What the context has to satisfy. -/
structure Wf : Prop where
  len2 : ∀ x ∈ c.nls, x.length = 2
  nb : ∀ a b, b ∈ c.m.iterTotal a none → b ∈ c.nls

variable {c}

theorem NbOf.mono {N N' L L' b : List α} (hN : ∀ x ∈ N, x ∈ N') (hL : ∀ x ∈ L, x ∈ L') (h : c.NbOf N L b) : c.NbOf N' L' b := by
  obtain ⟨a, h1, h2⟩ := h
  exact ⟨a, inside_mono hN hL h1, h2⟩

theorem number_ok {b : List α} (h : b ∈ c.nls) : number c.nls b = .ok (c.nls.idxOf b) := by simp [number, h]

theorem lt_of_pair (hw : c.Wf) {b : List α} (h : b ∈ c.nls) : ∃ n l, b = [n, l] := by
  exact List.length_eq_two.1 (hw.len2 b h)

/-! ### The three loops over neighbours -/

theorem origAdd_ok {have_ s : List α} {x : α} {b : List α} (hb : b ∈ c.nls) :
    ∃ s', origAdd c.nls c.v have_ s x b = .ok s' ∧ ∀ y, y ∈ s' ↔ y ∈ s ∨ (y = x ∧ x ∉ have_ ∧ c.High b) := by
  unfold origAdd
  by_cases h : x ∉ have_ ∧ x ∉ s
  · rw [if_pos h, number_ok hb]
    simp only
    by_cases hh : c.nls.idxOf b > c.nls.idxOf c.v
    · rw [if_pos hh]
      refine ⟨_, rfl, fun y => ?_⟩
      have : c.High b := hh
      simp [this, h.1]
    · rw [if_neg hh]
      refine ⟨_, rfl, fun y => ?_⟩
      have : ¬ c.High b := hh
      simp [this]
  · rw [if_neg h]
    refine ⟨_, rfl, fun y => ?_⟩
    constructor
    · exact Or.inl
    · rintro (h1 | ⟨rfl, h1, -⟩)
      · exact h1
      · by_contra h2; exact h ⟨h1, h2⟩

theorem orig_ok (hw : c.Wf) (N L : List α) (bs : List (List α)) (hbs : ∀ b ∈ bs, b ∈ c.nls) :
    ∃ o, forE (origStep c.nls c.v N L) bs (([], []) : List α × List α) = .ok o ∧
      (∀ n, n ∈ o.1 ↔ n ∉ N ∧ ∃ l, [n, l] ∈ bs ∧ c.High [n, l]) ∧ ∀ l, l ∈ o.2 ↔ l ∉ L ∧ ∃ n, [n, l] ∈ bs ∧ c.High [n, l] := by
  refine forE_ok (P := fun pre (o : List α × List α) => (∀ n, n ∈ o.1 ↔ n ∉ N ∧ ∃ l, [n, l] ∈ pre ∧ c.High [n, l]) ∧
    ∀ l, l ∈ o.2 ↔ l ∉ L ∧ ∃ n, [n, l] ∈ pre ∧ c.High [n, l]) bs (by simp) ?_
  rintro pre b post s hsplit ⟨h1, h2⟩
  have hb : b ∈ c.nls := hbs b (by rw [hsplit]; simp)
  obtain ⟨n, l, rfl⟩ := lt_of_pair hw hb
  obtain ⟨s1, e1, m1⟩ := origAdd_ok (c := c) (have_ := N) (s := s.1) (x := n) hb
  obtain ⟨s2, e2, m2⟩ := origAdd_ok (c := c) (have_ := L) (s := s.2) (x := l) hb
  refine ⟨(s1, s2), by simp only [origStep, e1, e2], fun x => ?_, fun x => ?_⟩
  · rw [m1, h1]
    simp only [List.mem_append, List.mem_singleton, List.cons.injEq, and_true]
    constructor
    · rintro (⟨hx, l', hl', hh⟩ | ⟨rfl, hx, hh⟩)
      · exact ⟨hx, l', Or.inl hl', hh⟩
      · exact ⟨hx, l, Or.inr ⟨rfl, rfl⟩, hh⟩
    · rintro ⟨hx, l', hl' | ⟨rfl, rfl⟩, hh⟩
      · exact Or.inl ⟨hx, l', hl', hh⟩
      · exact Or.inr ⟨rfl, hx, hh⟩
  · rw [m2, h2]
    simp only [List.mem_append, List.mem_singleton, List.cons.injEq, and_true]
    constructor
    · rintro (⟨hx, l', hl', hh⟩ | ⟨rfl, hx, hh⟩)
      · exact ⟨hx, l', Or.inl hl', hh⟩
      · exact ⟨hx, n, Or.inr ⟨rfl, rfl⟩, hh⟩
    · rintro ⟨hx, l', hl' | ⟨rfl, rfl⟩, hh⟩
      · exact Or.inl ⟨hx, l', hl', hh⟩
      · exact Or.inr ⟨rfl, hx, hh⟩

/-- No conflict of a node with the layers, of a layer with the nodes. -/
theorem clean_iff {N L : List α} : (product [N, L]).all (fun x => !lowerThan c.nls c.v x) = true ↔
    ∀ n ∈ N, ∀ l ∈ L, c.NotLow [n, l] := by
  simp only [List.all_eq_true, mem_product2]
  constructor
  · intro h n hn l hl hm
    have := h _ (inside_pair.2 ⟨hn, hl⟩)
    by_contra hlt
    have h3 : lowerThan c.nls c.v [n, l] = true := lowerThan_iff.2 ⟨hm, by omega⟩
    rw [h3] at this; cases this
  · rintro h x ⟨n, hn, l, hl, rfl⟩
    have := h n hn l hl
    cases h3 : lowerThan c.nls c.v [n, l] with
    | false => rfl
    | true =>
      have := this (lowerThan_iff.1 h3).1
      have := (lowerThan_iff.1 h3).2
      omega

theorem ext_ok (hw : c.Wf) (N L ON OL VN VL : List α) (hVN : VN.Nodup) (hVL : VL.Nodup) (bs : List (List α)) (hbs : ∀ b ∈ bs, b ∈ c.nls) :
    ∃ o, forE (extStep c.nls c.v N L ON OL) bs (VN, VL) = .ok o ∧ o.1.Nodup ∧ o.2.Nodup ∧
      (∀ n, n ∈ o.1 ↔ n ∈ VN ∨ (n ∉ ON ∧ n ∉ N ∧ (∀ l ∈ L, c.NotLow [n, l]) ∧ ∃ l, [n, l] ∈ bs ∧ c.High [n, l])) ∧
      ∀ l, l ∈ o.2 ↔ l ∈ VL ∨ (l ∉ OL ∧ l ∉ L ∧ (∀ n ∈ N, c.NotLow [n, l]) ∧ ∃ n, [n, l] ∈ bs ∧ c.High [n, l]) := by
  refine forE_ok (P := fun pre (o : List α × List α) => o.1.Nodup ∧ o.2.Nodup ∧
      (∀ n, n ∈ o.1 ↔ n ∈ VN ∨ (n ∉ ON ∧ n ∉ N ∧ (∀ l ∈ L, c.NotLow [n, l]) ∧ ∃ l, [n, l] ∈ pre ∧ c.High [n, l])) ∧
      ∀ l, l ∈ o.2 ↔ l ∈ VL ∨ (l ∉ OL ∧ l ∉ L ∧ (∀ n ∈ N, c.NotLow [n, l]) ∧ ∃ n, [n, l] ∈ pre ∧ c.High [n, l])) bs
      (by simp [hVN, hVL]) ?_
  rintro pre b post s hsplit ⟨d1, d2, h1, h2⟩
  have hb : b ∈ c.nls := hbs b (by rw [hsplit]; simp)
  obtain ⟨n, l, rfl⟩ := lt_of_pair hw hb
  unfold extStep
  rw [number_ok hb]
  simp only
  by_cases hh : c.nls.idxOf [n, l] > c.nls.idxOf c.v
  swap
  · rw [if_neg hh]
    have hh' : ¬ c.High [n, l] := hh
    refine ⟨s, rfl, d1, d2, fun x => ?_, fun x => ?_⟩
    · rw [h1]
      refine or_congr_right (and_congr_right fun _ => and_congr_right fun _ => and_congr_right fun _ => exists_congr fun l' => ?_)
      simp only [List.mem_append, List.mem_singleton, List.cons.injEq, and_true]
      constructor
      · rintro ⟨a, b⟩; exact ⟨Or.inl a, b⟩
      · rintro ⟨a | ⟨rfl, rfl⟩, b⟩
        · exact ⟨a, b⟩
        · exact absurd b hh'
    · rw [h2]
      refine or_congr_right (and_congr_right fun _ => and_congr_right fun _ => and_congr_right fun _ => exists_congr fun l' => ?_)
      simp only [List.mem_append, List.mem_singleton, List.cons.injEq, and_true]
      constructor
      · rintro ⟨a, b⟩; exact ⟨Or.inl a, b⟩
      · rintro ⟨a | ⟨rfl, rfl⟩, b⟩
        · exact ⟨a, b⟩
        · exact absurd b hh'
  · rw [if_pos hh]
    have hh' : c.High [n, l] := hh
    have cl1 : (product [[n], L]).all (fun x => !lowerThan c.nls c.v x) = true ↔ ∀ l ∈ L, c.NotLow [n, l] := by
      rw [clean_iff]; simp
    have cl2 : (product [N, [l]]).all (fun x => !lowerThan c.nls c.v x) = true ↔ ∀ n ∈ N, c.NotLow [n, l] := by
      rw [clean_iff]; simp
    refine ⟨_, rfl, ?_, ?_, fun x => ?_, fun x => ?_⟩
    · simp only
      split
      · rename_i hc
        rw [List.nodup_append]
        refine ⟨d1, by simp, ?_⟩
        intro a ha b hb he
        simp only [List.mem_singleton] at hb
        exact hc.2.1 (hb ▸ he ▸ ha)
      · exact d1
    · simp only
      split
      · rename_i hc
        rw [List.nodup_append]
        refine ⟨d2, by simp, ?_⟩
        intro a ha b hb he
        simp only [List.mem_singleton] at hb
        exact hc.2.1 (hb ▸ he ▸ ha)
      · exact d2
    · simp only [List.mem_append, List.mem_singleton, List.cons.injEq, and_true]
      by_cases hc : n ∉ ON ∧ n ∉ s.1 ∧ n ∉ N ∧ (product [[n], L]).all (fun x => !lowerThan c.nls c.v x) = true
      · rw [if_pos hc, List.mem_append, List.mem_singleton, h1]
        constructor
        · rintro ((h | ⟨a1, a2, a3, l', a4, a5⟩) | rfl)
          · exact Or.inl h
          · exact Or.inr ⟨a1, a2, a3, l', Or.inl a4, a5⟩
          · exact Or.inr ⟨hc.1, hc.2.2.1, cl1.1 hc.2.2.2, l, Or.inr ⟨rfl, rfl⟩, hh'⟩
        · rintro (h | ⟨a1, a2, a3, l', a4 | ⟨rfl, rfl⟩, a5⟩)
          · exact Or.inl (Or.inl h)
          · exact Or.inl (Or.inr ⟨a1, a2, a3, l', a4, a5⟩)
          · exact Or.inr rfl
      · rw [if_neg hc]
        constructor
        · intro h
          rcases (h1 x).1 h with h | ⟨a1, a2, a3, l', a4, a5⟩
          · exact Or.inl h
          · exact Or.inr ⟨a1, a2, a3, l', Or.inl a4, a5⟩
        · rintro (h | ⟨a1, a2, a3, l', a4 | ⟨rfl, rfl⟩, a5⟩)
          · exact (h1 x).2 (Or.inl h)
          · exact (h1 x).2 (Or.inr ⟨a1, a2, a3, l', a4, a5⟩)
          · by_contra hns
            exact hc ⟨a1, hns, a2, cl1.2 a3⟩
    · simp only [List.mem_append, List.mem_singleton, List.cons.injEq, and_true]
      by_cases hc : l ∉ OL ∧ l ∉ s.2 ∧ l ∉ L ∧ (product [N, [l]]).all (fun x => !lowerThan c.nls c.v x) = true
      · rw [if_pos hc, List.mem_append, List.mem_singleton, h2]
        constructor
        · rintro ((h | ⟨a1, a2, a3, l', a4, a5⟩) | rfl)
          · exact Or.inl h
          · exact Or.inr ⟨a1, a2, a3, l', Or.inl a4, a5⟩
          · exact Or.inr ⟨hc.1, hc.2.2.1, cl2.1 hc.2.2.2, n, Or.inr ⟨rfl, rfl⟩, hh'⟩
        · rintro (h | ⟨a1, a2, a3, l', a4 | ⟨rfl, rfl⟩, a5⟩)
          · exact Or.inl (Or.inl h)
          · exact Or.inl (Or.inr ⟨a1, a2, a3, l', a4, a5⟩)
          · exact Or.inr rfl
      · rw [if_neg hc]
        constructor
        · intro h
          rcases (h2 x).1 h with h | ⟨a1, a2, a3, l', a4, a5⟩
          · exact Or.inl h
          · exact Or.inr ⟨a1, a2, a3, l', Or.inl a4, a5⟩
        · rintro (h | ⟨a1, a2, a3, l', a4 | ⟨rfl, rfl⟩, a5⟩)
          · exact (h2 x).2 (Or.inl h)
          · exact (h2 x).2 (Or.inr ⟨a1, a2, a3, l', a4, a5⟩)
          · by_contra hns
            exact hc ⟨a1, hns, a2, cl2.2 a3⟩

theorem startStep_eq (n0 l0 : α) : startStep c.nls c.v n0 l0 = extStep c.nls c.v [n0] [l0] [] [] := by
  funext s b
  unfold startStep extStep
  cases number c.nls b with
  | error e => rfl
  | ok k =>
    simp only
    split
    · split
      · congr 2
        · simp only [product, List.flatMap_cons, List.flatMap_nil, List.map_cons, List.map_nil, List.append_nil, List.all_cons,
            List.all_nil, Bool.and_true, List.not_mem_nil, not_false_eq_true, true_and, List.mem_singleton, Bool.not_eq_true']
          congr 1
          rw [eq_iff_iff]; tauto
        · simp only [product, List.flatMap_cons, List.flatMap_nil, List.map_cons, List.map_nil, List.append_nil, List.all_cons,
            List.all_nil, Bool.and_true, List.not_mem_nil, not_false_eq_true, true_and, List.mem_singleton, Bool.not_eq_true']
          congr 1
          rw [eq_iff_iff]; tauto
      · rfl
    · rfl

end Ctx

end Pymnet
