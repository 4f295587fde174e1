import Verif.Proofs.Esu

/-! The search tree of `sample_multilayer_subgraphs_esu`: nothing is found twice, and every subgraph that can be
reached has exactly one path. -/

set_option linter.unusedSectionVars false
set_option linter.unusedSimpArgs false

namespace Pymnet

open Py

variable {α W : Type} [DecidableEq α] [DecidableEq W]

theorem popAt_nil (pick : List α → Nat) : popAt pick ([] : List α) = none := by simp [popAt]

theorem popAt_some (pick : List α → Nat) {V : List α} (h : V ≠ []) (hd : V.Nodup) :
    ∃ x V', popAt pick V = some (x, V') ∧ x ∈ V ∧ V'.Nodup ∧ V'.length + 1 = V.length ∧ ∀ y, y ∈ V' ↔ y ∈ V ∧ y ≠ x := by
  have hpos : 0 < V.length := List.length_pos_iff.2 h
  have hi : pick V % V.length < V.length := Nat.mod_lt _ hpos
  refine ⟨V[pick V % V.length], V.eraseIdx (pick V % V.length), ?_, List.getElem_mem _, hd.sublist (List.eraseIdx_sublist ..), ?_, ?_⟩
  · unfold popAt
    rw [List.getElem?_eq_getElem hi]
  · rw [List.length_eraseIdx_of_lt hi]; omega
  · intro y
    rw [List.mem_eraseIdx_iff_getElem]
    constructor
    · rintro ⟨j, hj, hne, rfl⟩
      refine ⟨List.getElem_mem _, fun he => hne ?_⟩
      exact (hd.getElem_inj_iff).1 he
    · rintro ⟨hy, hne⟩
      obtain ⟨j, hj, rfl⟩ := List.getElem_of_mem hy
      exact ⟨j, hj, fun he => hne (by subst he; rfl), rfl⟩

namespace Ctx

variable (c : Ctx α W)

/-- What the numbering provides: two predicates on nodes and layers that say, as long as only neighbours numbered higher
than the first node-layer are added, whether they are in conflict with node-layers numbered lower. -/
structure Order (v0 l0 : α) (PN PL : α → Prop) : Prop where
  v_eq : c.v = [v0, l0]
  v_mem : c.v ∈ c.nls
  pn0 : PN v0
  pl0 : PL l0
  ok : ∀ n l, PN n → PL l → c.NotLow [n, l]
  ofN : ∀ n l, [n, l] ∈ c.nls → c.High [n, l] → c.NotLow [n, l0] → PN n
  ofL : ∀ n l, [n, l] ∈ c.nls → c.High [n, l] → c.NotLow [v0, l] → PL l

/-- Invariant of the recursion. -/
structure Inv (v0 l0 : α) (PN PL : α → Prop) (N L VN VL : List α) : Prop where
  dN : N.Nodup
  dL : L.Nodup
  n0 : v0 ∈ N
  l0 : l0 ∈ L
  pN : ∀ x ∈ N, PN x
  pL : ∀ x ∈ L, PL x
  dVN : VN.Nodup
  dVL : VL.Nodup
  nbN : ∀ x ∈ VN, c.NbN N L x ∧ PN x
  nbL : ∀ x ∈ VL, c.NbL N L x ∧ PL x

/-- One step of the loop: a node or a layer is moved from the extensions to the subgraph. -/
structure Move (n : Nat) (N L VN VL N' L' VN' VL' aN aL : List α) : Prop where
  dN : N'.Nodup
  dL : L'.Nodup
  subN : ∀ x ∈ N, x ∈ N'
  subL : ∀ x ∈ L, x ∈ L'
  fromN : ∀ x ∈ N', x ∈ N ∨ x ∈ VN
  fromL : ∀ x ∈ L', x ∈ L ∨ x ∈ VL
  dVN : VN'.Nodup
  dVL : VL'.Nodup
  keepN : ∀ x, x ∈ VN' ↔ x ∈ VN ∧ x ∉ N'
  keepL : ∀ x, x ∈ VL' ↔ x ∈ VL ∧ x ∉ L'
  added : ∀ a, Spec.Inside N' L' a → Spec.Inside N L a ∨ Spec.Inside aN aL a
  into : ∀ a, Spec.Inside aN aL a → Spec.Inside N' L' a
  fresh : (∃ x ∈ N', x ∈ VN ∧ x ∉ N) ∨ ∃ x ∈ L', x ∈ VL ∧ x ∉ L
  one : ∀ A B : List α, (∀ x ∈ N, x ∈ A) → (∀ x ∈ L, x ∈ B) → ((∃ x ∈ N', x ∉ N ∧ x ∈ A) ∨ ∃ x ∈ L', x ∉ L ∧ x ∈ B) →
    (∀ x ∈ N', x ∈ A) ∧ ∀ x ∈ L', x ∈ B
  size : N'.length + L'.length = N.length + L.length + 1
  cap : N.length ≤ n → (N.length = n → VN = []) → N'.length ≤ n
  count : VN'.length + VL'.length + 1 = VN.length + VL.length

/-- What is true of a result of the search below a state. -/
structure Good (PN PL : α → Prop) (n k : Nat) (G : List α → List α → Prop) (N L VN VL : List α) (r : List α × List α) : Prop where
  dN : r.1.Nodup
  dL : r.2.Nodup
  subN : ∀ x ∈ N, x ∈ r.1
  subL : ∀ x ∈ L, x ∈ r.2
  lenN : r.1.length = n
  lenL : r.2.length = k
  pN : ∀ x ∈ r.1, PN x
  pL : ∀ x ∈ r.2, PL x
  good : G r.1 r.2
  avoidN : ∀ x, c.NbN N L x → x ∉ VN → x ∉ r.1
  avoidL : ∀ x, c.NbL N L x → x ∉ VL → x ∉ r.2

/-- The context with other coins. -/
abbrev withCoin (co : List α → List Nat → Bool) : Ctx α W := { c with coin := co }

variable {c} {v0 l0 : α} {PN PL : α → Prop} {n k : Nat} {G : List α → List α → Prop}

theorem NbN.mono {N N' L L' : List α} {x : α} (hN : ∀ x ∈ N, x ∈ N') (hL : ∀ x ∈ L, x ∈ L') (h : c.NbN N L x) (hx : x ∉ N') :
    c.NbN N' L' x := by
  obtain ⟨-, l, h⟩ := h
  exact ⟨hx, l, h.mono hN hL⟩

theorem NbL.mono {N N' L L' : List α} {x : α} (hN : ∀ x ∈ N, x ∈ N') (hL : ∀ x ∈ L, x ∈ L') (h : c.NbL N L x) (hx : x ∉ L') :
    c.NbL N' L' x := by
  obtain ⟨-, l, h⟩ := h
  exact ⟨hx, l, h.mono hN hL⟩

/-- The loop makes such steps. -/
theorem loop_move {N L VN VL : List α} (hi : c.Inv v0 l0 PN PL N L VN VL) (ON OL : List α) (tr : List Nat) {j : Nat} (hne : VN ≠ [] ∨ VL ≠ []) :
    ∃ N' L' VN' VL' aN aL, Move n N L VN VL N' L' VN' VL' aN aL ∧ ∀ (co : _) (rec : _) r r',
      (c.withCoin co).child rec (tr ++ [j]) ON OL N' L' VN' VL' aN aL = .ok r → (c.withCoin co).loop rec tr N L ON OL j VN' VL' = .ok r' →
        (c.withCoin co).loop rec tr N L ON OL (j + 1) VN VL = .ok (r ++ r') := by
  by_cases hVN : VN = []
  · have hVL : VL ≠ [] := by rcases hne with h | h; exact absurd hVN h; exact h
    subst hVN
    obtain ⟨y, VL', e, hy, hd, hl, hm⟩ := popAt_some c.pick hVL hi.dVL
    have hyL : y ∉ L := (hi.nbL y hy).1.1
    refine ⟨N, L ++ [y], [], VL', N, [y], ?_, ?_⟩
    · constructor
      · exact hi.dN
      · rw [List.nodup_append]
        refine ⟨hi.dL, by simp, ?_⟩
        intro a ha b hb he
        simp only [List.mem_singleton] at hb
        exact hyL (hb ▸ he ▸ ha)
      · exact fun x hx => hx
      · intro x hx; simp [hx]
      · exact fun x hx => Or.inl hx
      · intro x hx
        rcases List.mem_append.1 hx with h | h
        · exact Or.inl h
        · rw [List.mem_singleton] at h; subst h; exact Or.inr hy
      · simp
      · exact hd
      · simp
      · intro x
        rw [hm]
        simp only [List.mem_append, List.mem_singleton, not_or]
        constructor
        · rintro ⟨h1, h2⟩; exact ⟨h1, (hi.nbL x h1).1.1, h2⟩
        · rintro ⟨h1, -, h2⟩; exact ⟨h1, h2⟩
      · rintro a ⟨x, hx, l, hl, rfl⟩
        rcases List.mem_append.1 hl with h | h
        · exact Or.inl (inside_pair.2 ⟨hx, h⟩)
        · exact Or.inr (inside_pair.2 ⟨hx, h⟩)
      · rintro a ⟨x, hx, l, hl, rfl⟩
        exact inside_pair.2 ⟨hx, List.mem_append.2 (Or.inr hl)⟩
      · exact Or.inr ⟨y, by simp, hy, hyL⟩
      · intro A B hA hB h
        refine ⟨hA, ?_⟩
        intro x hx
        rcases List.mem_append.1 hx with h' | h'
        · exact hB x h'
        · rw [List.mem_singleton] at h'; subst h'
          rcases h with ⟨z, hz, hzN, -⟩ | ⟨z, hz, hzL, hzB⟩
          · exact absurd hz hzN
          · rcases List.mem_append.1 hz with h2 | h2
            · exact absurd h2 hzL
            · rw [List.mem_singleton] at h2; subst h2; exact hzB
      · simp; omega
      · intro h _; exact h
      · simp; omega
    · intro co rec r r' h1 h2
      have e' : popAt (c.withCoin co).pick VL = some (y, VL') := e
      simp only [loop, popAt_nil, e', h1, h2]
  · obtain ⟨x, VN', e, hx, hd, hl, hm⟩ := popAt_some c.pick hVN hi.dVN
    have hxN : x ∉ N := (hi.nbN x hx).1.1
    refine ⟨N ++ [x], L, VN', VL, [x], L, ?_, ?_⟩
    · constructor
      · rw [List.nodup_append]
        refine ⟨hi.dN, by simp, ?_⟩
        intro a ha b hb he
        simp only [List.mem_singleton] at hb
        exact hxN (hb ▸ he ▸ ha)
      · exact hi.dL
      · intro x hx; simp [hx]
      · exact fun x hx => hx
      · intro z hz
        rcases List.mem_append.1 hz with h | h
        · exact Or.inl h
        · rw [List.mem_singleton] at h; subst h; exact Or.inr hx
      · exact fun x hx => Or.inl hx
      · exact hd
      · exact hi.dVL
      · intro z
        rw [hm]
        simp only [List.mem_append, List.mem_singleton, not_or]
        constructor
        · rintro ⟨h1, h2⟩; exact ⟨h1, (hi.nbN z h1).1.1, h2⟩
        · rintro ⟨h1, -, h2⟩; exact ⟨h1, h2⟩
      · intro z
        exact ⟨fun h => ⟨h, (hi.nbL z h).1.1⟩, fun h => h.1⟩
      · rintro a ⟨z, hz, l, hl, rfl⟩
        rcases List.mem_append.1 hz with h | h
        · exact Or.inl (inside_pair.2 ⟨h, hl⟩)
        · exact Or.inr (inside_pair.2 ⟨h, hl⟩)
      · rintro a ⟨z, hz, l, hl, rfl⟩
        exact inside_pair.2 ⟨List.mem_append.2 (Or.inr hz), hl⟩
      · exact Or.inl ⟨x, by simp, hx, hxN⟩
      · intro A B hA hB h
        refine ⟨?_, hB⟩
        intro z hz
        rcases List.mem_append.1 hz with h' | h'
        · exact hA z h'
        · rw [List.mem_singleton] at h'; subst h'
          rcases h with ⟨w, hw, hwN, hwA⟩ | ⟨w, hw, hwL, -⟩
          · rcases List.mem_append.1 hw with h2 | h2
            · exact absurd h2 hwN
            · rw [List.mem_singleton] at h2; subst h2; exact hwA
          · exact absurd hw hwL
      · simp; omega
      · intro h1 h2
        rw [List.length_append, List.length_singleton]
        have : N.length ≠ n := fun he => hVN (h2 he)
        omega
      · omega
    · intro co rec r r' h1 h2
      have e' : popAt (c.withCoin co).pick VN = some (x, VN') := e
      simp only [loop, e', h1, h2]

/-- The new extensions. -/
theorem primes_ok (hw : c.Wf) (ho : c.Order v0 l0 PN PL) {N L VN VL N' L' VN' VL' aN aL ON OL : List α}
    (hi : c.Inv v0 l0 PN PL N L VN VL) (hm : Move n N L VN VL N' L' VN' VL' aN aL)
    (hON : ∀ x, x ∈ ON ↔ c.NbN N L x) (hOL : ∀ x, x ∈ OL ↔ c.NbL N L x) :
    ∃ s, c.primes N' L' ON OL VN' VL' aN aL = .ok s ∧ c.Inv v0 l0 PN PL N' L' s.1 s.2 ∧
      (∀ x, x ∈ s.1 ↔ x ∈ VN' ∨ (¬ c.NbN N L x ∧ c.NbN N' L' x ∧ PN x)) ∧
      ∀ x, x ∈ s.2 ↔ x ∈ VL' ∨ (¬ c.NbL N L x ∧ c.NbL N' L' x ∧ PL x) := by
  obtain ⟨s, e, d1, d2, m1, m2⟩ := ext_ok hw N' L' ON OL VN' VL' hm.dVN hm.dVL (neighborsOf c.m c.nls aN aL) (by
    intro b hb
    obtain ⟨a, -, -, h⟩ := mem_neighborsOf.1 hb
    exact hw.nb a b h)
  have pN : ∀ x ∈ N', PN x := fun x hx => (hm.fromN x hx).elim (hi.pN x) fun h => (hi.nbN x h).2
  have pL : ∀ x ∈ L', PL x := fun x hx => (hm.fromL x hx).elim (hi.pL x) fun h => (hi.nbL x h).2
  have n0 : v0 ∈ N' := hm.subN _ hi.n0
  have ll0 : l0 ∈ L' := hm.subL _ hi.l0
  have e1 : ∀ x, x ∈ s.1 ↔ x ∈ VN' ∨ (¬ c.NbN N L x ∧ c.NbN N' L' x ∧ PN x) := by
    intro x
    rw [m1, hON]
    refine or_congr_right (and_congr_right fun hx => ?_)
    constructor
    · rintro ⟨h1, h2, l, h3, h4⟩
      obtain ⟨a, a1, a2, a3⟩ := mem_neighborsOf.1 h3
      exact ⟨⟨h1, l, a, hm.into a a1, a2, a3, h4⟩, ho.ofN x l (hw.nb a _ a3) h4 (h2 l0 ll0)⟩
    · rintro ⟨⟨h1, l, a, a1, a2, a3, h4⟩, h5⟩
      refine ⟨h1, fun l' hl' => ho.ok x l' h5 (pL l' hl'), l, ?_, h4⟩
      rcases hm.added a a1 with h | h
      · exact absurd ⟨fun hxN => h1 (hm.subN x hxN), l, a, h, a2, a3, h4⟩ hx
      · exact mem_neighborsOf.2 ⟨a, h, a2, a3⟩
  have e2 : ∀ x, x ∈ s.2 ↔ x ∈ VL' ∨ (¬ c.NbL N L x ∧ c.NbL N' L' x ∧ PL x) := by
    intro x
    rw [m2, hOL]
    refine or_congr_right (and_congr_right fun hx => ?_)
    constructor
    · rintro ⟨h1, h2, l, h3, h4⟩
      obtain ⟨a, a1, a2, a3⟩ := mem_neighborsOf.1 h3
      exact ⟨⟨h1, l, a, hm.into a a1, a2, a3, h4⟩, ho.ofL l x (hw.nb a _ a3) h4 (h2 v0 n0)⟩
    · rintro ⟨⟨h1, l, a, a1, a2, a3, h4⟩, h5⟩
      refine ⟨h1, fun l' hl' => ho.ok l' x (pN l' hl') h5, l, ?_, h4⟩
      rcases hm.added a a1 with h | h
      · exact absurd ⟨fun hxN => h1 (hm.subL x hxN), l, a, h, a2, a3, h4⟩ hx
      · exact mem_neighborsOf.2 ⟨a, h, a2, a3⟩
  refine ⟨s, e, ⟨hm.dN, hm.dL, n0, ll0, pN, pL, d1, d2, fun x hx => ?_, fun x hx => ?_⟩, e1, e2⟩
  · rcases (e1 x).1 hx with h | h
    · have h' := (hm.keepN x).1 h
      exact ⟨(hi.nbN x h'.1).1.mono hm.subN hm.subL h'.2, (hi.nbN x h'.1).2⟩
    · exact h.2
  · rcases (e2 x).1 hx with h | h
    · have h' := (hm.keepL x).1 h
      exact ⟨(hi.nbL x h'.1).1.mono hm.subN hm.subL h'.2, (hi.nbL x h'.1).2⟩
    · exact h.2

theorem Inv.rest {N L VN VL N' L' VN' VL' aN aL : List α} (hi : c.Inv v0 l0 PN PL N L VN VL)
    (hm : Move n N L VN VL N' L' VN' VL' aN aL) : c.Inv v0 l0 PN PL N L VN' VL' :=
  ⟨hi.dN, hi.dL, hi.n0, hi.l0, hi.pN, hi.pL, hm.dVN, hm.dVL, fun x hx => hi.nbN x ((hm.keepN x).1 hx).1,
    fun x hx => hi.nbL x ((hm.keepL x).1 hx).1⟩

/-- A result below the enlarged subgraph is a result below the subgraph. -/
theorem Good.up {N L VN VL N' L' VN' VL' aN aL : List α} (hi : c.Inv v0 l0 PN PL N L VN VL)
    (hm : Move n N L VN VL N' L' VN' VL' aN aL) {s r : List α × List α}
    (m1 : ∀ x, x ∈ s.1 ↔ x ∈ VN' ∨ (¬ c.NbN N L x ∧ c.NbN N' L' x ∧ PN x))
    (m2 : ∀ x, x ∈ s.2 ↔ x ∈ VL' ∨ (¬ c.NbL N L x ∧ c.NbL N' L' x ∧ PL x))
    (hg : c.Good PN PL n k G N' L' s.1 s.2 r) : c.Good PN PL n k G N L VN VL r := by
  refine ⟨hg.dN, hg.dL, fun x hx => hg.subN x (hm.subN x hx), fun x hx => hg.subL x (hm.subL x hx), hg.lenN, hg.lenL, hg.pN, hg.pL, hg.good, ?_, ?_⟩
  · intro x hx hxV
    have hx' : x ∉ N' := fun h => (hm.fromN x h).elim hx.1 hxV
    refine hg.avoidN x (hx.mono hm.subN hm.subL hx') fun h => ?_
    rcases (m1 x).1 h with h | h
    · exact hxV ((hm.keepN x).1 h).1
    · exact h.1 hx
  · intro x hx hxV
    have hx' : x ∉ L' := fun h => (hm.fromL x h).elim hx.1 hxV
    refine hg.avoidL x (hx.mono hm.subN hm.subL hx') fun h => ?_
    rcases (m2 x).1 h with h | h
    · exact hxV ((hm.keepL x).1 h).1
    · exact h.1 hx

theorem Good.weaken {N L VN VL N' L' VN' VL' aN aL : List α} (hm : Move n N L VN VL N' L' VN' VL' aN aL) {r : List α × List α}
    (hg : c.Good PN PL n k G N L VN' VL' r) : c.Good PN PL n k G N L VN VL r :=
  ⟨hg.dN, hg.dL, hg.subN, hg.subL, hg.lenN, hg.lenL, hg.pN, hg.pL, hg.good,
    fun x hx hxV => hg.avoidN x hx fun h => hxV ((hm.keepN x).1 h).1,
    fun x hx hxV => hg.avoidL x hx fun h => hxV ((hm.keepL x).1 h).1⟩

/-- Results of later steps of the loop do not contain what was moved. -/
theorem Good.not_moved {N L VN VL N' L' VN' VL' aN aL : List α} (hi : c.Inv v0 l0 PN PL N L VN VL)
    (hm : Move n N L VN VL N' L' VN' VL' aN aL) {r : List α × List α} (hg : c.Good PN PL n k G N L VN' VL' r) :
    ¬ ((∀ x ∈ N', x ∈ r.1) ∧ ∀ x ∈ L', x ∈ r.2) := by
  rintro ⟨h1, h2⟩
  rcases hm.fresh with ⟨x, hx, hxV, -⟩ | ⟨x, hx, hxV, -⟩
  · exact hg.avoidN x (hi.nbN x hxV).1 (fun h => ((hm.keepN x).1 h).2 hx) (h1 x hx)
  · exact hg.avoidL x (hi.nbL x hxV).1 (fun h => ((hm.keepL x).1 h).2 hx) (h2 x hx)

/-! ### What is found -/

/-- The original neighbourhood. -/
theorem orig_nb (hw : c.Wf) (N L : List α) :
    ∃ o, forE (origStep c.nls c.v N L) (neighborsOf c.m c.nls N L) (([], []) : List α × List α) = .ok o ∧
      (∀ x, x ∈ o.1 ↔ c.NbN N L x) ∧ ∀ x, x ∈ o.2 ↔ c.NbL N L x := by
  obtain ⟨o, e, m1, m2⟩ := orig_ok hw N L (neighborsOf c.m c.nls N L) (by
    intro b hb
    obtain ⟨a, -, -, h⟩ := mem_neighborsOf.1 hb
    exact hw.nb a b h)
  refine ⟨o, e, fun x => (m1 x).trans ?_, fun x => (m2 x).trans ?_⟩
  · refine and_congr_right fun _ => exists_congr fun l => ?_
    rw [mem_neighborsOf]
    constructor
    · rintro ⟨⟨a, h1, h2, h3⟩, h4⟩; exact ⟨a, h1, h2, h3, h4⟩
    · rintro ⟨a, h1, h2, h3, h4⟩; exact ⟨⟨a, h1, h2, h3⟩, h4⟩
  · refine and_congr_right fun _ => exists_congr fun l => ?_
    rw [mem_neighborsOf]
    constructor
    · rintro ⟨⟨a, h1, h2, h3⟩, h4⟩; exact ⟨a, h1, h2, h3, h4⟩
    · rintro ⟨a, h1, h2, h3, h4⟩; exact ⟨⟨a, h1, h2, h3⟩, h4⟩

/-- What a (recursive) search does below a state. -/
def Finds (c : Ctx α W) (PN PL : α → Prop) (n k : Nat) (G : List α → List α → Prop) (N L VN VL : List α)
    (o : Except Err (List (List α × List α))) : Prop :=
  ∃ res, o = .ok res ∧ res.Pairwise (fun a b => ¬ Spec.SameSubgraph a b) ∧ ∀ r ∈ res, c.Good PN PL n k G N L VN VL r

theorem child_finds (hw : c.Wf) (ho : c.Order v0 l0 PN PL) {N L VN VL N' L' VN' VL' aN aL ON OL : List α}
    (hi : c.Inv v0 l0 PN PL N L VN VL) (hm : Move n N L VN VL N' L' VN' VL' aN aL)
    (hON : ∀ x, x ∈ ON ↔ c.NbN N L x) (hOL : ∀ x, x ∈ OL ↔ c.NbL N L x)
    {rec : List Nat → List α → List α → List α → List α → Except Err (List (List α × List α))}
    (tr : List Nat) (hrec : ∀ s1 s2, c.Inv v0 l0 PN PL N' L' s1 s2 → c.Finds PN PL n k G N' L' s1 s2 (rec tr N' L' s1 s2)) :
    ∃ res, c.child rec tr ON OL N' L' VN' VL' aN aL = .ok res ∧ res.Pairwise (fun a b => ¬ Spec.SameSubgraph a b) ∧
      ∀ r ∈ res, c.Good PN PL n k G N L VN VL r ∧ (∀ x ∈ N', x ∈ r.1) ∧ ∀ x ∈ L', x ∈ r.2 := by
  unfold child
  by_cases hc : c.coin c.v tr = true
  · rw [if_pos hc]
    obtain ⟨s, e, hi', m1, m2⟩ := primes_ok hw ho hi hm hON hOL
    obtain ⟨res, e2, hp, hg⟩ := hrec s.1 s.2 hi'
    rw [e]
    exact ⟨res, e2, hp, fun r hr => ⟨(hg r hr).up hi hm m1 m2, (hg r hr).subN, (hg r hr).subL⟩⟩
  · rw [if_neg hc]
    exact ⟨[], rfl, by simp, by simp⟩

theorem loop_finds (hw : c.Wf) (ho : c.Order v0 l0 PN PL) {N L ON OL : List α}
    (hON : ∀ x, x ∈ ON ↔ c.NbN N L x) (hOL : ∀ x, x ∈ OL ↔ c.NbL N L x) (hNn : N.length ≤ n)
    {rec : List Nat → List α → List α → List α → List α → Except Err (List (List α × List α))}
    (hrec : ∀ tr N' L' s1 s2, N'.length ≤ n → N'.length + L'.length = N.length + L.length + 1 → c.Inv v0 l0 PN PL N' L' s1 s2 →
      c.Finds PN PL n k G N' L' s1 s2 (rec tr N' L' s1 s2)) (tr : List Nat) :
    ∀ (j : Nat) (VN VL : List α), j = VN.length + VL.length → (N.length = n → VN = []) → c.Inv v0 l0 PN PL N L VN VL →
      c.Finds PN PL n k G N L VN VL (c.loop rec tr N L ON OL j VN VL) := by
  intro j
  induction j with
  | zero =>
    intro VN VL _ _ _
    exact ⟨[], rfl, by simp, by simp⟩
  | succ j ih =>
    intro VN VL hj hcap hi
    have hne : VN ≠ [] ∨ VL ≠ [] := by
      by_contra h
      simp only [not_or, not_not] at h
      rw [h.1, h.2] at hj; simp at hj
    obtain ⟨N', L', VN', VL', aN, aL, hm, heq⟩ := loop_move (n := n) hi ON OL tr (j := j) hne
    obtain ⟨r, e1, p1, g1⟩ := child_finds hw ho hi hm hON hOL (k := k) (G := G) (rec := rec)
      (tr ++ [j]) (hrec _ N' L' · · (hm.cap hNn hcap) hm.size)
    have hcap' : N.length = n → VN' = [] := by
      intro h
      have h0 := hcap h
      rw [List.eq_nil_iff_forall_not_mem]
      intro x hx
      have := ((hm.keepN x).1 hx).1
      rw [h0] at this; exact absurd this (by simp)
    obtain ⟨r', e2, p2, g2⟩ := ih VN' VL' (by have := hm.count; omega) hcap' (hi.rest hm)
    refine ⟨r ++ r', heq c.coin rec r r' e1 e2, ?_, ?_⟩
    · rw [List.pairwise_append]
      refine ⟨p1, p2, fun a ha b hb hs => ?_⟩
      refine (g2 b hb).not_moved hi hm ⟨fun x hx => ?_, fun x hx => ?_⟩
      · exact hs.1.subset ((g1 a ha).2.1 x hx)
      · exact hs.2.subset ((g1 a ha).2.2 x hx)
    · intro q hq
      rcases List.mem_append.1 hq with h | h
      · exact (g1 q h).1
      · exact (g2 q h).weaken hm

/-- The check decides `G`. -/
def Checks (c : Ctx α W) (n k : Nat) (G : List α → List α → Prop) : Prop :=
  ∀ N L, N.Nodup → L.Nodup → N.length = n → L.length = k → ∃ b, c.check N L = .ok b ∧ (b = true ↔ G N L)

theorem Inv.cut {N L VN VL : List α} (hi : c.Inv v0 l0 PN PL N L VN VL) (p : Prop) [Decidable p] :
    c.Inv v0 l0 PN PL N L (if p then [] else VN) VL := by
  by_cases h : p
  · rw [if_pos h]
    exact ⟨hi.dN, hi.dL, hi.n0, hi.l0, hi.pN, hi.pL, by simp, hi.dVL, by simp, hi.nbL⟩
  · rw [if_neg h]; exact hi

theorem extend_finds (hw : c.Wf) (ho : c.Order v0 l0 PN PL) (hrn : c.rn = n) (hrl : c.rl = k) (hck : c.Checks n k G) :
    ∀ (fuel : Nat) (tr : List Nat) (N L VN VL : List α), N.length ≤ n → N.length + L.length ≤ n + k →
      n + k + 1 ≤ fuel + (N.length + L.length) → c.Inv v0 l0 PN PL N L VN VL →
      c.Finds PN PL n k G N L VN VL (c.extend fuel tr N L VN VL) := by
  intro fuel
  induction fuel with
  | zero => intro tr N L VN VL _ h1 h2 _; omega
  | succ fuel ih =>
    intro tr N L VN VL hNn hs hf hi
    unfold extend
    rw [hrn, hrl]
    by_cases h1 : (N.length : Int) > n ∨ (L.length : Int) > k
    · rw [if_pos h1]
      exact ⟨[], rfl, by simp, by simp⟩
    rw [if_neg h1]
    by_cases h2 : (N.length : Int) = n ∧ (L.length : Int) = k
    · rw [if_pos h2]
      obtain ⟨b, e, hb⟩ := hck N L hi.dN hi.dL (by omega) (by omega)
      rw [e]
      refine ⟨_, rfl, ?_, ?_⟩
      · split <;> simp
      · intro r hr
        cases b with
        | false => simp at hr
        | true =>
          simp only [if_true, List.mem_singleton] at hr
          subst hr
          exact ⟨hi.dN, hi.dL, fun _ h => h, fun _ h => h, by simp only; omega, by simp only; omega, hi.pN, hi.pL, hb.1 rfl, fun x hx _ => hx.1, fun x hx _ => hx.1⟩
    · rw [if_neg h2]
      obtain ⟨o, e, m1, m2⟩ := orig_nb hw N L
      simp only [e]
      have := loop_finds hw ho m1 m2 hNn (k := k) (G := G) (rec := c.extend fuel) (fun tr' N' L' s1 s2 a1 a2 a3 =>
        ih tr' N' L' s1 s2 a1 (by omega) (by omega) a3) tr _ (if (N.length : Int) = n then [] else VN) VL rfl (by
          intro h; rw [if_pos (by omega)]) (hi.cut _)
      obtain ⟨res, e1, p1, g1⟩ := this
      refine ⟨res, e1, p1, fun r hr => ?_⟩
      have g := g1 r hr
      refine ⟨g.dN, g.dL, g.subN, g.subL, g.lenN, g.lenL, g.pN, g.pL, g.good, fun x hx hxV => g.avoidN x hx ?_, g.avoidL⟩
      split
      · simp
      · exact hxV

end Ctx

end Pymnet
