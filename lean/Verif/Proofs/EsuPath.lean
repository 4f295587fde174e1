import Verif.Proofs.EsuTree

/-! Every subgraph that can be reached from a node-layer has exactly one path in the search tree. -/

set_option linter.unusedSectionVars false
set_option linter.unusedSimpArgs false

namespace Pymnet

open Py

variable {α W : Type} [DecidableEq α] [DecidableEq W]

namespace Ctx

variable {c : Ctx α W} {v0 l0 : α} {PN PL : α → Prop} {n k : Nat} {G : List α → List α → Prop}

/-! ### The coins do not matter for the invariants -/

theorem Wf.coin (h : c.Wf) (co) : (c.withCoin co).Wf := ⟨h.len2, h.nb⟩

theorem Order.coin (h : c.Order v0 l0 PN PL) (co) : (c.withCoin co).Order v0 l0 PN PL :=
  ⟨h.v_eq, h.v_mem, h.pn0, h.pl0, h.ok, h.ofN, h.ofL⟩

theorem Inv.coin {N L VN VL : List α} (h : c.Inv v0 l0 PN PL N L VN VL) (co) : (c.withCoin co).Inv v0 l0 PN PL N L VN VL :=
  ⟨h.dN, h.dL, h.n0, h.l0, h.pN, h.pL, h.dVN, h.dVL, h.nbN, h.nbL⟩

theorem Inv.ofCoin {N L VN VL : List α} {co} (h : (c.withCoin co).Inv v0 l0 PN PL N L VN VL) : c.Inv v0 l0 PN PL N L VN VL :=
  ⟨h.dN, h.dL, h.n0, h.l0, h.pN, h.pL, h.dVN, h.dVL, h.nbN, h.nbL⟩

theorem Good.ofCoin {N L VN VL : List α} {co} {r : List α × List α} (h : (c.withCoin co).Good PN PL n k G N L VN VL r) :
    c.Good PN PL n k G N L VN VL r :=
  ⟨h.dN, h.dL, h.subN, h.subL, h.lenN, h.lenL, h.pN, h.pL, h.good, h.avoidN, h.avoidL⟩

theorem Good.toCoin {N L VN VL : List α} {co} {r : List α × List α} (h : c.Good PN PL n k G N L VN VL r) :
    (c.withCoin co).Good PN PL n k G N L VN VL r :=
  ⟨h.dN, h.dL, h.subN, h.subL, h.lenN, h.lenL, h.pN, h.pL, h.good, h.avoidN, h.avoidL⟩

theorem Finds.toCoin {N L VN VL : List α} {co} {o} (h : c.Finds PN PL n k G N L VN VL o) :
    (c.withCoin co).Finds PN PL n k G N L VN VL o := by
  obtain ⟨res, e, p, g⟩ := h
  exact ⟨res, e, p, fun r hr => (g r hr).toCoin⟩

theorem Finds.ofCoin {N L VN VL : List α} {co} {o} (h : (c.withCoin co).Finds PN PL n k G N L VN VL o) :
    c.Finds PN PL n k G N L VN VL o := by
  obtain ⟨res, e, p, g⟩ := h
  exact ⟨res, e, p, fun r hr => (g r hr).ofCoin⟩

/-! ### Targets -/

/-- A subgraph that can be reached from the first node-layer. -/
structure Target (c : Ctx α W) (v0 l0 : α) (n k : Nat) (A B : List α) : Prop where
  dN : A.Nodup
  dL : B.Nodup
  lenN : A.length = n
  lenL : B.length = k
  hn0 : v0 ∈ A
  hl0 : l0 ∈ B
  low : ∀ b, Spec.Inside A B b → c.NotLow b
  leaves : ∀ N L : List α, v0 ∈ N → l0 ∈ L → (∀ x ∈ N, x ∈ A) → (∀ x ∈ L, x ∈ B) → ¬ ((∀ x ∈ A, x ∈ N) ∧ ∀ x ∈ B, x ∈ L) →
    ∃ a b, Spec.Inside N L a ∧ a ∈ c.nls ∧ b ∈ c.m.iterTotal a none ∧ Spec.Inside A B b ∧ ¬ Spec.Inside N L b

/-- The extensions contain what is needed to reach the subgraph. -/
structure Comp (c : Ctx α W) (A B N L VN VL : List α) : Prop where
  subN : ∀ x ∈ N, x ∈ A
  subL : ∀ x ∈ L, x ∈ B
  needN : ∀ x ∈ A, c.NbN N L x → x ∈ VN
  needL : ∀ x ∈ B, c.NbL N L x → x ∈ VL

/-- The subgraph is among the results. -/
def Found (res : List (List α × List α)) (A B : List α) : Prop := ∃ r ∈ res, Spec.SameSubgraph r (A, B)

theorem found_append {r r' : List (List α × List α)} {A B : List α} : Found (r ++ r') A B ↔ Found r A B ∨ Found r' A B := by
  simp only [Found, List.mem_append, or_and_right, exists_or]

theorem high_of (ho : c.Order v0 l0 PN PL) {b : List α} (h : b ∈ c.nls) (hl : c.NotLow b) (hne : b ≠ [v0, l0]) : c.High b := by
  have h1 := hl h
  unfold High
  rcases Nat.lt_or_ge (c.nls.idxOf c.v) (c.nls.idxOf b) with h2 | h2
  · exact h2
  · exfalso
    have : c.nls.idxOf c.v = c.nls.idxOf b := by omega
    have := (List.idxOf_inj ho.v_mem).1 this
    exact hne (this ▸ ho.v_eq)

/-- As long as the subgraph is not complete, some extension belongs to the target. -/
theorem Comp.some (hw : c.Wf) (ho : c.Order v0 l0 PN PL) {A B N L VN VL : List α} (ht : c.Target v0 l0 n k A B)
    (hc : c.Comp A B N L VN VL) (hi : c.Inv v0 l0 PN PL N L VN VL) (hne : ¬ (N.length = n ∧ L.length = k)) :
    (∃ x ∈ VN, x ∈ A) ∨ ∃ x ∈ VL, x ∈ B := by
  have hnot : ¬ ((∀ x ∈ A, x ∈ N) ∧ ∀ x ∈ B, x ∈ L) := by
    rintro ⟨h1, h2⟩
    apply hne
    constructor
    · rw [← ht.lenN]
      exact Nat.le_antisymm (List.subperm_of_subset hi.dN hc.subN).length_le (List.subperm_of_subset ht.dN h1).length_le
    · rw [← ht.lenL]
      exact Nat.le_antisymm (List.subperm_of_subset hi.dL hc.subL).length_le (List.subperm_of_subset ht.dL h2).length_le
  obtain ⟨a, b, h1, h2, h3, h4, h5⟩ := ht.leaves N L hi.n0 hi.l0 hc.subN hc.subL hnot
  have hb := hw.nb a b h3
  have hh : c.High b := high_of ho hb (ht.low b h4) (by
    rintro rfl
    exact h5 (inside_pair.2 ⟨hi.n0, hi.l0⟩))
  obtain ⟨x, hx, l, hl, rfl⟩ := h4
  rw [inside_pair] at h5
  by_cases hxN : x ∈ N
  · have hlL : l ∉ L := fun h => h5 ⟨hxN, h⟩
    exact Or.inr ⟨l, hc.needL l hl ⟨hlL, x, a, h1, h2, h3, hh⟩, hl⟩
  · exact Or.inl ⟨x, hc.needN x hx ⟨hxN, l, a, h1, h2, h3, hh⟩, hx⟩

/-- Moving something of the target keeps what is needed. -/
theorem Comp.down (hw : c.Wf) (ho : c.Order v0 l0 PN PL) {A B N L VN VL N' L' VN' VL' aN aL : List α} (ht : c.Target v0 l0 n k A B)
    (hc : c.Comp A B N L VN VL) (hm : Move n N L VN VL N' L' VN' VL' aN aL)
    (h1 : ∀ x ∈ N', x ∈ A) (h2 : ∀ x ∈ L', x ∈ B) {s : List α × List α}
    (m1 : ∀ x, x ∈ s.1 ↔ x ∈ VN' ∨ (¬ c.NbN N L x ∧ c.NbN N' L' x ∧ PN x))
    (m2 : ∀ x, x ∈ s.2 ↔ x ∈ VL' ∨ (¬ c.NbL N L x ∧ c.NbL N' L' x ∧ PL x)) : c.Comp A B N' L' s.1 s.2 := by
  refine ⟨h1, h2, fun x hx hnb => ?_, fun x hx hnb => ?_⟩
  · rw [m1]
    by_cases h : c.NbN N L x
    · exact Or.inl ((hm.keepN x).2 ⟨hc.needN x hx h, hnb.1⟩)
    · obtain ⟨hxN, l, a, a1, a2, a3, a4⟩ := hnb
      refine Or.inr ⟨h, ⟨hxN, l, a, a1, a2, a3, a4⟩, ho.ofN x l (hw.nb a _ a3) a4 (ht.low _ (inside_pair.2 ⟨hx, ht.hl0⟩))⟩
  · rw [m2]
    by_cases h : c.NbL N L x
    · exact Or.inl ((hm.keepL x).2 ⟨hc.needL x hx h, hnb.1⟩)
    · obtain ⟨hxN, l, a, a1, a2, a3, a4⟩ := hnb
      refine Or.inr ⟨h, ⟨hxN, l, a, a1, a2, a3, a4⟩, ho.ofL l x (hw.nb a _ a3) a4 (ht.low _ (inside_pair.2 ⟨ht.hn0, hx⟩))⟩

/-- Moving something else as well. -/
theorem Comp.skip {A B N L VN VL N' L' VN' VL' aN aL : List α} (hc : c.Comp A B N L VN VL)
    (hm : Move n N L VN VL N' L' VN' VL' aN aL) (hnot : ¬ ((∀ x ∈ N', x ∈ A) ∧ ∀ x ∈ L', x ∈ B)) : c.Comp A B N L VN' VL' := by
  refine ⟨hc.subN, hc.subL, fun x hx hnb => ?_, fun x hx hnb => ?_⟩
  · refine (hm.keepN x).2 ⟨hc.needN x hx hnb, fun h => hnot ?_⟩
    exact hm.one A B hc.subN hc.subL (Or.inl ⟨x, h, hnb.1, hx⟩)
  · refine (hm.keepL x).2 ⟨hc.needL x hx hnb, fun h => hnot ?_⟩
    exact hm.one A B hc.subN hc.subL (Or.inr ⟨x, h, hnb.1, hx⟩)

/-- The path to a target below a state: a list of places in the search, one for each size, whose coins decide whether it is found. -/
def Path (c : Ctx α W) (n k : Nat) (G : List α → List α → Prop) (A B N L : List α) (tr : List Nat)
    (f : (List α → List Nat → Bool) → Except Err (List (List α × List α))) : Prop :=
  ∃ path : List (List Nat), path.map List.length = List.range' (tr.length + 1) (n + k - (N.length + L.length)) ∧
    ∀ co res, f co = .ok res → (Found res A B ↔ (∀ p ∈ path, co c.v p = true) ∧ G A B)

theorem loop_path (hw : c.Wf) (ho : c.Order v0 l0 PN PL) {N L ON OL A B : List α} (ht : c.Target v0 l0 n k A B)
    (hON : ∀ x, x ∈ ON ↔ c.NbN N L x) (hOL : ∀ x, x ∈ OL ↔ c.NbL N L x) (hNn : N.length ≤ n) (hlt : N.length + L.length < n + k)
    {rec : (List α → List Nat → Bool) → List Nat → List α → List α → List α → List α → Except Err (List (List α × List α))}
    (hrec : ∀ co tr N' L' s1 s2, N'.length ≤ n → N'.length + L'.length = N.length + L.length + 1 → c.Inv v0 l0 PN PL N' L' s1 s2 →
      c.Finds PN PL n k G N' L' s1 s2 (rec co tr N' L' s1 s2))
    (hpath : ∀ tr N' L' s1 s2, N'.length ≤ n → N'.length + L'.length = N.length + L.length + 1 → c.Inv v0 l0 PN PL N' L' s1 s2 →
      c.Comp A B N' L' s1 s2 → c.Path n k G A B N' L' tr fun co => rec co tr N' L' s1 s2) (tr : List Nat) :
    ∀ (j : Nat) (VN VL : List α), j = VN.length + VL.length → (N.length = n → VN = []) → c.Inv v0 l0 PN PL N L VN VL →
      c.Comp A B N L VN VL → ((∃ x ∈ VN, x ∈ A) ∨ ∃ x ∈ VL, x ∈ B) →
      c.Path n k G A B N L tr fun co => (c.withCoin co).loop (rec co) tr N L ON OL j VN VL := by
  intro j
  induction j with
  | zero =>
    intro VN VL hj _ _ _ hs
    exfalso
    have h1 : VN = [] := List.length_eq_zero_iff.1 (by omega)
    have h2 : VL = [] := List.length_eq_zero_iff.1 (by omega)
    subst h1 h2
    simp at hs
  | succ j ih =>
    intro VN VL hj hcap hi hc hs
    have hne : VN ≠ [] ∨ VL ≠ [] := by
      by_contra h
      simp only [not_or, not_not] at h
      rw [h.1, h.2] at hj; simp at hj
    obtain ⟨N', L', VN', VL', aN, aL, hm, heq⟩ := loop_move (n := n) hi ON OL tr (j := j) hne
    have hcap' : N.length = n → VN' = [] := by
      intro h
      have h0 := hcap h
      rw [List.eq_nil_iff_forall_not_mem]
      intro x hx
      have := ((hm.keepN x).1 hx).1
      rw [h0] at this; exact absurd this (by simp)
    have hj' : j = VN'.length + VL'.length := by have := hm.count; omega
    -- both parts return, whatever the coins
    have hchild : ∀ co, ∃ res, (c.withCoin co).child (rec co) (tr ++ [j]) ON OL N' L' VN' VL' aN aL = .ok res ∧
        ∀ r ∈ res, (∀ x ∈ N', x ∈ r.1) ∧ ∀ x ∈ L', x ∈ r.2 := by
      intro co
      obtain ⟨res, e, -, g⟩ := child_finds (hw.coin co) (ho.coin co) (hi.coin co) hm hON hOL (k := k) (G := G) (rec := rec co)
        (tr ++ [j]) (fun s1 s2 h => (hrec co _ N' L' s1 s2 (hm.cap hNn hcap) hm.size h.ofCoin).toCoin)
      exact ⟨res, e, fun r hr => (g r hr).2⟩
    have hrest : ∀ co, c.Finds PN PL n k G N L VN' VL' ((c.withCoin co).loop (rec co) tr N L ON OL j VN' VL') := by
      intro co
      exact (loop_finds (hw.coin co) (ho.coin co) (c := c.withCoin co) hON hOL hNn (k := k) (G := G) (rec := rec co)
        (fun tr' N' L' s1 s2 a1 a2 a3 => (hrec co tr' N' L' s1 s2 a1 a2 a3.ofCoin).toCoin) tr j VN' VL' hj' hcap' ((hi.rest hm).coin co)).ofCoin
    by_cases hit : (∀ x ∈ N', x ∈ A) ∧ ∀ x ∈ L', x ∈ B
    · -- the first extension that belongs to the target
      obtain ⟨s, e, hi', m1, m2⟩ := primes_ok hw ho hi hm hON hOL
      obtain ⟨path, p1, p3⟩ := hpath (tr ++ [j]) N' L' s.1 s.2 (hm.cap hNn hcap) hm.size hi' (hc.down hw ho ht hm hit.1 hit.2 m1 m2)
      refine ⟨(tr ++ [j]) :: path, ?_, ?_⟩
      · rw [List.map_cons, p1, hm.size, List.length_append, List.length_singleton]
        have : n + k - (N.length + L.length) = n + k - (N.length + L.length + 1) + 1 := by omega
        rw [this, List.range'_succ]
      · intro co res hres
        obtain ⟨r, e1, g1⟩ := hchild co
        obtain ⟨r', e2, -, g2⟩ := hrest co
        have := heq co (rec co) r r' e1 e2
        simp only [this, Except.ok.injEq] at hres
        subst hres
        rw [found_append]
        have hno : ¬ Found r' A B := by
          rintro ⟨q, hq, h⟩
          exact (g2 q hq).not_moved hi hm ⟨fun x hx => h.1.symm.subset (hit.1 x hx), fun x hx => h.2.symm.subset (hit.2 x hx)⟩
        simp only [hno, or_false, List.forall_mem_cons]
        unfold child at e1
        have e' : (c.withCoin co).primes N' L' ON OL VN' VL' aN aL = .ok s := e
        by_cases hco : co c.v (tr ++ [j]) = true
        · rw [if_pos hco, e'] at e1
          rw [p3 co r e1]
          simp [hco]
        · rw [if_neg hco] at e1
          simp only [Except.ok.injEq] at e1
          subst e1
          simp [hco, Found]
    · -- something else
      have hs' : (∃ x ∈ VN', x ∈ A) ∨ ∃ x ∈ VL', x ∈ B := by
        rcases hs with ⟨x, hx, hxA⟩ | ⟨x, hx, hxB⟩
        · refine Or.inl ⟨x, (hm.keepN x).2 ⟨hx, fun h => hit ?_⟩, hxA⟩
          exact hm.one A B hc.subN hc.subL (Or.inl ⟨x, h, (hi.nbN x hx).1.1, hxA⟩)
        · refine Or.inr ⟨x, (hm.keepL x).2 ⟨hx, fun h => hit ?_⟩, hxB⟩
          exact hm.one A B hc.subN hc.subL (Or.inr ⟨x, h, (hi.nbL x hx).1.1, hxB⟩)
      obtain ⟨path, p1, p3⟩ := ih VN' VL' hj' hcap' (hi.rest hm) (hc.skip hm hit) hs'
      refine ⟨path, p1, fun co res hres => ?_⟩
      obtain ⟨r, e1, g1⟩ := hchild co
      obtain ⟨r', e2, -, g2⟩ := hrest co
      have := heq co (rec co) r r' e1 e2
      simp only [this, Except.ok.injEq] at hres
      subst hres
      rw [found_append, p3 co r' e2]
      have hno : ¬ Found r A B := by
        rintro ⟨q, hq, h⟩
        exact hit ⟨fun x hx => h.1.subset ((g1 q hq).1 x hx), fun x hx => h.2.subset ((g1 q hq).2 x hx)⟩
      simp only [hno, false_or]

theorem extend_path (hw : c.Wf) (ho : c.Order v0 l0 PN PL) (hrn : c.rn = n) (hrl : c.rl = k) (hck : c.Checks n k G)
    (hG : ∀ N N' L L', N.Perm N' → L.Perm L' → G N L → G N' L') {A B : List α} (ht : c.Target v0 l0 n k A B) :
    ∀ (fuel : Nat) (tr : List Nat) (N L VN VL : List α), N.length ≤ n → N.length + L.length ≤ n + k →
      n + k + 1 ≤ fuel + (N.length + L.length) → c.Inv v0 l0 PN PL N L VN VL → c.Comp A B N L VN VL →
      c.Path n k G A B N L tr fun co => (c.withCoin co).extend fuel tr N L VN VL := by
  intro fuel
  induction fuel with
  | zero => intro tr N L VN VL _ h1 h2 _; omega
  | succ fuel ih =>
    intro tr N L VN VL hNn hs hf hi hc
    have hN1 : N.length ≤ n := hNn
    have hL1 : L.length ≤ k := ht.lenL ▸ (List.subperm_of_subset hi.dL hc.subL).length_le
    have h1 : ¬ ((N.length : Int) > n ∨ (L.length : Int) > k) := by omega
    by_cases h2 : N.length = n ∧ L.length = k
    · obtain ⟨b, e, hb⟩ := hck N L hi.dN hi.dL h2.1 h2.2
      have pA : N.Perm A := (List.subperm_of_subset hi.dN hc.subN).perm_of_length_le (by rw [ht.lenN, h2.1])
      have pB : L.Perm B := (List.subperm_of_subset hi.dL hc.subL).perm_of_length_le (by rw [ht.lenL, h2.2])
      refine ⟨[], by simp [h2.1, h2.2], fun co res hres => ?_⟩
      simp only [extend] at hres
      have hrn' : (c.withCoin co).rn = n := hrn
      have hrl' : (c.withCoin co).rl = k := hrl
      have e' : (c.withCoin co).check N L = .ok b := e
      rw [hrn', hrl', if_neg h1, if_pos (by omega), e'] at hres
      simp only [Except.ok.injEq] at hres
      subst hres
      have hGG : G A B ↔ b = true := ⟨fun h => hb.2 (hG _ _ _ _ pA.symm pB.symm h), fun h => hG _ _ _ _ pA pB (hb.1 h)⟩
      rw [hGG]
      cases b with
      | false => simp [Found]
      | true => simp [Found, Spec.SameSubgraph, pA, pB]
    · obtain ⟨o, e, m1, m2⟩ := orig_nb hw N L
      have hc' : c.Comp A B N L (if (N.length : Int) = n then [] else VN) VL := by
        refine ⟨hc.subN, hc.subL, fun x hx hnb => ?_, hc.needL⟩
        split
        · rename_i h
          exfalso
          have pA : N.Perm A := (List.subperm_of_subset hi.dN hc.subN).perm_of_length_le (by rw [ht.lenN]; omega)
          exact hnb.1 (pA.symm.subset hx)
        · exact hc.needN x hx hnb
      have hp := loop_path hw ho ht m1 m2 hNn (by omega) (G := G) (rec := fun co => (c.withCoin co).extend fuel)
        (fun co tr' N' L' s1 s2 a1 a2 a3 => (extend_finds (hw.coin co) (ho.coin co) (c := c.withCoin co) hrn hrl hck fuel tr' N' L' s1 s2 a1
          (by omega) (by omega) (a3.coin co)).ofCoin)
        (fun tr' N' L' s1 s2 a1 a2 a3 a4 => ih tr' N' L' s1 s2 a1 (by omega) (by omega) a3 a4) tr _
        (if (N.length : Int) = n then [] else VN) VL rfl (by intro h; rw [if_pos (by omega)]) (hi.cut _) hc'
        (hc'.some hw ho ht (hi.cut _) h2)
      obtain ⟨path, p1, p3⟩ := hp
      refine ⟨path, p1, fun co res hres => p3 co res ?_⟩
      rw [← hres]
      simp only [extend]
      have hrn' : (c.withCoin co).rn = n := hrn
      have hrl' : (c.withCoin co).rl = k := hrl
      have e' : forE (origStep (c.withCoin co).nls (c.withCoin co).v N L) (neighborsOf (c.withCoin co).m (c.withCoin co).nls N L) (([], []) : List α × List α) = .ok o := e
      have h3 : ¬ ((N.length : Int) = n ∧ (L.length : Int) = k) := by omega
      rw [hrn', hrl', if_neg h1, if_neg h3]
      simp only [e']

/-! ### The first call -/

theorem root_inv (hw : c.Wf) (ho : c.Order v0 l0 PN PL) :
    ∃ s, forE (startStep c.nls c.v v0 l0) (c.m.iterTotal c.v none) (([], []) : List α × List α) = .ok s ∧
      c.Inv v0 l0 PN PL [v0] [l0] s.1 s.2 ∧ (∀ x, c.NbN [v0] [l0] x → c.NotLow [x, l0] → x ∈ s.1) ∧
      ∀ x, c.NbL [v0] [l0] x → c.NotLow [v0, x] → x ∈ s.2 := by
  obtain ⟨s, e, d1, d2, m1, m2⟩ := ext_ok hw [v0] [l0] [] [] [] [] (by simp) (by simp) (c.m.iterTotal c.v none)
    (fun b hb => hw.nb c.v b hb)
  have hnb : ∀ b, c.NbOf [v0] [l0] b ↔ b ∈ c.m.iterTotal c.v none ∧ c.High b := by
    intro b
    unfold NbOf
    constructor
    · rintro ⟨a, ⟨x, hx, l, hl, rfl⟩, h2, h3, h4⟩
      simp only [List.mem_singleton] at hx hl
      subst hx hl
      rw [ho.v_eq]; exact ⟨h3, h4⟩
    · rintro ⟨h1, h2⟩
      exact ⟨c.v, by rw [ho.v_eq]; exact inside_pair.2 (by simp), ho.v_mem, h1, h2⟩
  simp only [List.not_mem_nil, not_false_eq_true, true_and, false_or, List.mem_singleton, forall_eq] at m1 m2
  refine ⟨s, by rw [startStep_eq]; exact e, ⟨by simp, by simp, by simp, by simp, by simpa using ho.pn0, by simpa using ho.pl0, d1, d2,
    fun x hx => ?_, fun x hx => ?_⟩, fun x hx hl => ?_, fun x hx hl => ?_⟩
  · obtain ⟨h1, h2, l, h3, h4⟩ := (m1 x).1 hx
    exact ⟨⟨by simpa using h1, l, (hnb _).2 ⟨h3, h4⟩⟩, ho.ofN x l (hw.nb _ _ h3) h4 h2⟩
  · obtain ⟨h1, h2, l, h3, h4⟩ := (m2 x).1 hx
    exact ⟨⟨by simpa using h1, l, (hnb _).2 ⟨h3, h4⟩⟩, ho.ofL l x (hw.nb _ _ h3) h4 h2⟩
  · obtain ⟨h1, l, h2⟩ := hx
    rw [hnb] at h2
    exact (m1 x).2 ⟨by simpa using h1, hl, l, h2⟩
  · obtain ⟨h1, l, h2⟩ := hx
    rw [hnb] at h2
    exact (m2 x).2 ⟨by simpa using h1, hl, l, h2⟩

/-- What the search from a node-layer finds. -/
theorem root_finds (hw : c.Wf) (ho : c.Order v0 l0 PN PL) (hrn : c.rn = n) (hrl : c.rl = k) (hn : 1 ≤ n) (hk : 1 ≤ k)
    (hck : c.Checks n k G) :
    ∃ res, c.root = .ok res ∧ res.Pairwise (fun a b => ¬ Spec.SameSubgraph a b) ∧
      ∀ r ∈ res, r.1.Nodup ∧ r.2.Nodup ∧ r.1.length = n ∧ r.2.length = k ∧ v0 ∈ r.1 ∧ l0 ∈ r.2 ∧
        (∀ b, Spec.Inside r.1 r.2 b → c.NotLow b) ∧ G r.1 r.2 ∧ (∀ x ∈ r.1, PN x) ∧ ∀ x ∈ r.2, PL x := by
  obtain ⟨s, e, hi, -, -⟩ := root_inv hw ho
  unfold root
  rw [ho.v_eq] at e ⊢
  simp only
  by_cases hc : c.coin [v0, l0] [] = true
  · rw [if_pos hc, e]
    obtain ⟨res, e1, p, g⟩ := extend_finds hw ho hrn hrl hck (c.rn + c.rl).toNat [] [v0] [l0] s.1 s.2 (by simpa using hn)
      (by simp; omega) (by simp; omega) hi
    refine ⟨res, e1, p, fun r hr => ?_⟩
    have := g r hr
    refine ⟨this.dN, this.dL, this.lenN, this.lenL, this.subN _ (by simp), this.subL _ (by simp), ?_, this.good, this.pN, this.pL⟩
    rintro b ⟨x, hx, l, hl, rfl⟩
    exact ho.ok x l (this.pN x hx) (this.pL l hl)
  · rw [if_neg hc]
    exact ⟨[], rfl, by simp, by simp⟩

/-- The path to a target. -/
theorem root_path (hw : c.Wf) (ho : c.Order v0 l0 PN PL) (hrn : c.rn = n) (hrl : c.rl = k) (hn : 1 ≤ n) (hk : 1 ≤ k)
    (hck : c.Checks n k G) (hG : ∀ N N' L L', N.Perm N' → L.Perm L' → G N L → G N' L') {A B : List α}
    (ht : c.Target v0 l0 n k A B) :
    ∃ path : List (List Nat), path.map List.length = List.range (n + k - 1) ∧
      ∀ co res, (c.withCoin co).root = .ok res → (Found res A B ↔ (∀ p ∈ path, co c.v p = true) ∧ G A B) := by
  obtain ⟨s, e, hi, m1, m2⟩ := root_inv hw ho
  have hc : c.Comp A B [v0] [l0] s.1 s.2 := by
    refine ⟨by simpa using ht.hn0, by simpa using ht.hl0, fun x hx hnb => m1 x hnb ?_, fun x hx hnb => m2 x hnb ?_⟩
    · exact ht.low _ (inside_pair.2 ⟨hx, ht.hl0⟩)
    · exact ht.low _ (inside_pair.2 ⟨ht.hn0, hx⟩)
  obtain ⟨path, p1, p3⟩ := extend_path hw ho hrn hrl hck hG ht (c.rn + c.rl).toNat [] [v0] [l0] s.1 s.2 (by simpa using hn)
      (by simp; omega) (by simp; omega) hi hc
  refine ⟨[] :: path, ?_, fun co res hres => ?_⟩
  · rw [List.map_cons, p1]
    simp only [List.length_singleton, List.length_nil]
    have : n + k - 1 = (n + k - (1 + 1)) + 1 := by omega
    rw [this, List.range_eq_range', List.range'_succ]
  · unfold root at hres
    have hv' : (c.withCoin co).v = [v0, l0] := ho.v_eq
    have e' : forE (startStep (c.withCoin co).nls (c.withCoin co).v v0 l0) ((c.withCoin co).m.iterTotal (c.withCoin co).v none) (([], []) : List α × List α) = .ok s := e
    rw [hv'] at hres e'
    simp only at hres
    rw [List.forall_mem_cons, ho.v_eq]
    have p3 := p3 co
    rw [ho.v_eq] at p3
    by_cases hco : co [v0, l0] [] = true
    · rw [if_pos hco, e'] at hres
      rw [p3 res hres]
      simp [hco]
    · rw [if_neg hco] at hres
      simp only [Except.ok.injEq] at hres
      subst hres
      simp [hco, Found]

end Ctx

end Pymnet
