import Verif.Proofs.GenIso
import Verif.Proofs.Overlay
import Verif.Proofs.Comb
import Verif.Proofs.Partitions
import Verif.Proofs.RelabelP
import Verif.Props.PlexSubnet
import Verif.Props.TransformsPlex

/-! The networks made by `graphlets`, and connectedness. -/

set_option linter.unusedSectionVars false
set_option linter.unusedSimpArgs false
set_option linter.unusedVariables false

namespace Pymnet

open Py MPlex

namespace Spec.LinkConnected

variable {α : Type} {N N' : α → Prop} {E E' : α → α → Prop}

theorem mono (h : LinkConnected N E) (hN : ∀ x, N x ↔ N' x) (hE : ∀ a b, N a → N b → E a b → E' a b) : LinkConnected N' E' := by
  intro i j hi hj
  exact Relation.ReflTransGen.mono (fun a b ⟨h1, h2, h3⟩ => ⟨(hN a).1 h1, (hN b).1 h2, hE a b h1 h2 h3⟩) _ _
    (h i j ((hN i).2 hi) ((hN j).2 hj))

theorem add (h : LinkConnected N E) (hs : ∀ a b, E a b → E b a) {a b : α} (ha : N a) (hab : E a b)
    (hN : ∀ x, N' x ↔ N x ∨ x = b) : LinkConnected N' E := by
  have hb : N' b := (hN b).2 (Or.inr rfl)
  have hin : ∀ x, N x → N' x := fun x hx => (hN x).2 (Or.inl hx)
  have lift : ∀ i j, N i → N j → Relation.ReflTransGen (fun a b => N' a ∧ N' b ∧ E a b) i j := fun i j hi hj =>
    Relation.ReflTransGen.mono (fun a b ⟨h1, h2, h3⟩ => ⟨hin a h1, hin b h2, h3⟩) _ _ (h i j hi hj)
  intro i j hi hj
  rcases (hN i).1 hi with h1 | rfl <;> rcases (hN j).1 hj with h2 | rfl
  · exact lift i j h1 h2
  · exact (lift i a h1 ha).tail ⟨hin a ha, hb, hab⟩
  · exact Relation.ReflTransGen.head ⟨hb, hin a ha, hs a _ hab⟩ (lift a j ha h2)
  · exact Relation.ReflTransGen.refl

/-- a path that leaves a set has a link that leaves it -/
theorem cross {r : α → α → Prop} {s : α → Prop} {i j : α} (h : Relation.ReflTransGen r i j) (hi : s i) (hj : ¬ s j) :
    ∃ a b, r a b ∧ s a ∧ ¬ s b := by
  induction h with
  | refl => exact absurd hi hj
  | @tail b c h1 h2 ih =>
    by_cases hb : s b
    · exact ⟨b, c, h2, hb, hj⟩
    · exact ih hb

/-- Some node can be removed. -/
theorem remove [DecidableEq α] {l : List α} (hl : l.Nodup) (h2 : 2 ≤ l.length) (hs : ∀ a b, E a b → E b a)
    (h : LinkConnected (· ∈ l) E) : ∃ v ∈ l, LinkConnected (fun x => x ∈ l ∧ x ≠ v) E := by
  have grow : ∀ k, 1 ≤ k → k ≤ l.length → ∃ s : List α, s.Nodup ∧ s.length = k ∧ s ⊆ l ∧ LinkConnected (· ∈ s) E := by
    intro k h1
    induction k, h1 using Nat.le_induction with
    | base =>
      intro _
      match l, h2 with
      | a :: t, _ =>
        refine ⟨[a], by simp, rfl, by simp, fun i j hi hj => ?_⟩
        simp at hi hj
        subst hi; subst hj
        exact Relation.ReflTransGen.refl
    | succ k hk ih =>
      intro hle
      obtain ⟨s, s1, s2, s3, s4⟩ := ih (by omega)
      obtain ⟨i, hi⟩ : ∃ i, i ∈ s := List.exists_mem_of_length_pos (by omega)
      obtain ⟨j, hj, hj'⟩ : ∃ j ∈ l, j ∉ s := by
        by_contra hc
        simp only [not_exists, not_and, not_not] at hc
        have := (hl.subperm hc).length_le
        omega
      obtain ⟨a, b, ⟨ha, hb, hab⟩, has, hbs⟩ := cross (s := (· ∈ s)) (h i j (s3 hi) hj) hi hj'
      refine ⟨b :: s, by simp [hbs, s1], by simp [s2], ?_, s4.add hs has hab fun x => ?_⟩
      · intro x hx
        rcases List.mem_cons.1 hx with rfl | hx
        · exact hb
        · exact s3 hx
      · simp [or_comm]
  obtain ⟨s, s1, s2, s3, s4⟩ := grow (l.length - 1) (by omega) (by omega)
  obtain ⟨v, hv, hv'⟩ : ∃ j ∈ l, j ∉ s := by
    by_contra hc
    simp only [not_exists, not_and, not_not] at hc
    have := (hl.subperm hc).length_le
    omega
  refine ⟨v, hv, s4.mono (fun x => ?_) fun _ _ _ _ h => h⟩
  constructor
  · intro hx; exact ⟨s3 hx, by rintro rfl; exact hv' hx⟩
  · rintro ⟨hx, hxv⟩
    by_contra hxs
    have hnd : (v :: x :: s).Nodup := by
      simp [hv', hxs, s1, hxv.symm]
    have := (hnd.subperm (l₂ := l) (by
      intro y hy
      rcases List.mem_cons.1 hy with rfl | hy
      · exact hv
      · rcases List.mem_cons.1 hy with rfl | hy
        · exact hx
        · exact s3 hy)).length_le
    simp only [List.length_cons] at this
    omega

end Spec.LinkConnected

variable {α W : Type} [DecidableEq α] [DecidableEq W] [Zero W] [One W] [IntNames α] [LinearOrder α]

section build

variable {p : MPlex α W} {c : Coupling α W} {ns : Prop} {S : α → Prop} {LY : Nat → α → Prop} {NL : α → List α → Prop}
  {R : List α → α → α → W}

omit [IntNames α] [LinearOrder α] in
open Classical in
theorem setLoop {β : Type} (A B X : β → α) (l : List β) (hne : ∀ t ∈ l, A t ≠ B t)
    (h : BuiltX p [c] false 0 true ns S LY NL R) :
    ∃ p', forE (fun (p : MPlex α W) t => (p.setItem [A t, B t, X t] 1).toExcept) l p = .ok p' ∧
      BuiltX p' [c] false 0 true ns (fun x => S x ∨ ∃ t ∈ l, x = A t ∨ x = B t) (fun a x => LY a x ∨ ∃ t ∈ l, x = X t) NL
        (fun s i j => if ∃ t ∈ l, s = [X t] ∧ Spec.SameLink false (A t) (B t) i j then 1 else R s i j) := by
  refine forE_ok (P := fun pre q => BuiltX q [c] false 0 true ns (fun x => S x ∨ ∃ t ∈ pre, x = A t ∨ x = B t)
    (fun a x => LY a x ∨ ∃ t ∈ pre, x = X t) NL
    (fun s i j => if ∃ t ∈ pre, s = [X t] ∧ Spec.SameLink false (A t) (B t) i j then 1 else R s i j)) l
    (h.congr (by simp) (by simp) (by simp) (by simp)) ?_
  intro pre b post q hl hq
  obtain ⟨q', e, hq'⟩ := hq.setItem (by simp) (item := [A b, B b, X b]) (s := [X b]) (hne b (by simp [hl]))
    ⟨rfl, rfl, Or.inr ⟨A b, B b, [X b], rfl, rfl, rfl⟩⟩ 1
  refine ⟨q', e, hq'.congr (fun x => ?_) (fun a x h1 h2 => ?_) (fun h => by cases h) (fun s i j _ => ?_)⟩
  · simp [or_and_right, exists_or, or_assoc]
  · obtain rfl : a = 1 := by simp at h2; omega
    simp [or_and_right, exists_or, or_assoc, eq_comm (a := X b)]
  · by_cases h1 : s = [X b] ∧ Spec.SameLink false (A b) (B b) i j
    · rw [if_pos h1, if_pos ⟨b, by simp, h1⟩]
    · rw [if_neg h1]
      by_cases h2 : ∃ t ∈ pre, s = [X t] ∧ Spec.SameLink false (A t) (B t) i j
      · rw [if_pos h2, if_pos]
        obtain ⟨t, h3, h4⟩ := h2
        exact ⟨t, by simp [h3], h4⟩
      · rw [if_neg h2, if_neg]
        rintro ⟨t, h3, h4⟩
        rcases List.mem_append.1 h3 with h3 | h3
        · exact h2 ⟨t, h3, h4⟩
        · simp at h3; subst h3; exact h1 h4

/-- what a built network shows -/
theorem BuiltX.shown {p : MPlex α W} (h : BuiltX p [c] false 0 true ns S LY NL R) (hns : ns) :
    ∃ ops, p = afterP [c] false 0 true ops ∧ Spec.NoIntraSelf ops ∧ (∀ x, (Spec.shown ops).node x ↔ S x) ∧
      (∀ x, (Spec.shown ops).layer x ↔ LY 1 x) ∧ ∀ x i j, Spec.readP 1 false true ops [x] i j = R [x] i j := by
  obtain ⟨ops, h0, h1, h2, h3, -, h5⟩ := h
  exact ⟨ops, h0, h1 hns, h2, fun x => h3 1 x (by omega) (by simp), fun x i j => h5 [x] i j rfl⟩

end build

omit [One W] [IntNames α] [LinearOrder α] in
theorem link_symm {ops : List (POp α W)} {x i j : α} (h : (Spec.shown ops).link x i j) : (Spec.shown ops).link x j i :=
  ⟨h.1.symm, by rw [readP_symm]; exact h.2⟩

variable {c : Coupling α W} {idx : Nat → α} {layers : List α} {nl : Nat}

/-- the two-node networks -/
theorem pairNet_spec (hidx : Function.Injective idx) (h10 : (1 : W) ≠ 0) {L lc : List α}
    (hL : L.Sublist layers) (hLn : L.length = nl) (hlc : lc ⊆ L) (hne : lc ≠ []) :
    ∃ ops, pairNet [c] idx L lc = .ok (afterP [c] false 0 true ops) ∧ Spec.Generated idx 2 nl layers ops ∧
      (∀ x, (Spec.shown ops).layer x ↔ x ∈ L) ∧
      ∀ x, (Spec.shown ops).link x (idx 0) (idx 1) ↔ x ∈ lc := by
  classical
  have hi01 : idx 0 ≠ idx 1 := fun e => absurd (hidx e) (by omega)
  obtain ⟨p, e1, h1⟩ := setLoop (fun _ => idx 0) (fun _ => idx 1) id lc (fun _ _ => hi01)
    (BuiltX.init [c] false (0 : W) true True)
  obtain ⟨q, e2, h2⟩ := h1.addLayers (by simp) (a := 1) (by omega) (by simp) id L
  obtain ⟨ops, rfl, hns, hS, hLY, hR⟩ := h2.shown trivial
  have hcall : pairNet [c] idx L lc = .ok (afterP [c] false 0 true ops) := by
    unfold pairNet
    rw [show forE (fun (p : MPlex α W) x => (p.setItem [idx 0, idx 1, x] 1).toExcept) lc (MPlex.init [c] false 0 true) = .ok p from e1]
    exact e2
  obtain ⟨x0, hx0⟩ : ∃ x, x ∈ lc := List.exists_mem_of_ne_nil _ hne
  have hnode : ∀ x, (Spec.shown ops).node x ↔ ∃ k < 2, x = idx k := by
    intro x
    rw [hS]
    constructor
    · rintro (h | ⟨t, -, h | h⟩)
      · exact h.elim
      · exact ⟨0, by omega, h⟩
      · exact ⟨1, by omega, h⟩
    · rintro ⟨k, hk, rfl⟩
      refine Or.inr ⟨x0, hx0, ?_⟩
      rcases (by omega : k = 0 ∨ k = 1) with rfl | rfl <;> simp
  have hlayer : ∀ x, (Spec.shown ops).layer x ↔ x ∈ L := by
    intro x
    rw [hLY]
    constructor
    · rintro ((h | ⟨t, h1, h2⟩) | ⟨-, t, h1, h2⟩)
      · exact h.elim
      · rw [h2]; exact hlc h1
      · rw [h2]; exact h1
    · intro hx; exact Or.inr ⟨rfl, x, hx, rfl⟩
  have hlink : ∀ x i j, (Spec.shown ops).link x i j ↔ x ∈ lc ∧ ((i = idx 0 ∧ j = idx 1) ∨ (i = idx 1 ∧ j = idx 0)) := by
    intro x i j
    simp only [Spec.shown, hR]
    constructor
    · rintro ⟨h1, h2⟩
      by_cases h3 : ∃ t ∈ lc, [x] = [id t] ∧ Spec.SameLink false (idx 0) (idx 1) i j
      · obtain ⟨t, h4, h5, h6⟩ := h3
        cases h5
        refine ⟨h4, ?_⟩
        rcases h6 with h | ⟨-, h⟩
        · exact Or.inl h
        · exact Or.inr h
      · rw [if_neg h3] at h2; exact absurd rfl h2
    · rintro ⟨h1, h2⟩
      refine ⟨by rcases h2 with ⟨rfl, rfl⟩ | ⟨rfl, rfl⟩; exacts [hi01, hi01.symm], ?_⟩
      rw [if_pos]
      · exact h10
      · exact ⟨x, h1, rfl, h2.imp id fun h => ⟨rfl, h⟩⟩
  refine ⟨ops, hcall, ⟨hnode, ⟨L, hL, hLn, hlayer⟩, ?_, ?_, hns⟩, hlayer, fun x => ?_⟩
  · have base : Spec.LinkConnected (fun x => x = idx 0) fun a b => ∃ x, (Spec.shown ops).layer x ∧ (Spec.shown ops).link x a b := by
      rintro i j rfl rfl; exact Relation.ReflTransGen.refl
    refine base.add (fun a b ⟨x, h1, h2⟩ => ⟨x, h1, link_symm h2⟩) (a := idx 0) (b := idx 1) rfl
      ⟨x0, (hlayer x0).2 (hlc hx0), (hlink _ _ _).2 ⟨hx0, Or.inl ⟨rfl, rfl⟩⟩⟩ fun x => ?_
    rw [hnode]
    constructor
    · rintro ⟨k, hk, rfl⟩
      rcases (by omega : k = 0 ∨ k = 1) with rfl | rfl <;> simp
    · rintro (rfl | rfl)
      exacts [⟨0, by omega, rfl⟩, ⟨1, by omega, rfl⟩]
  · intro x i j
    rw [hR]
    split
    · exact Or.inr rfl
    · exact Or.inl rfl
  · rw [hlink]; simp

/-- a network extended by one node -/
theorem extendNet_spec (hidx : Function.Injective idx) (h10 : (1 : W) ≠ 0) (hc : ∀ m, c ≠ .net m) {i : Nat} {ops : List (POp α W)}
    (hg : Spec.Generated idx i nl layers ops) {L : List α} (hL : ∀ x, (Spec.shown ops).layer x ↔ x ∈ L) {nc : List Nat}
    {lcs : List (List α)} (hnc : ∀ k ∈ nc, k < i) (hne : nc ≠ []) (hlen : lcs.length = nc.length)
    (hlcs : ∀ l ∈ lcs, l ⊆ L ∧ l ≠ []) :
    ∃ ops', extendNet idx i (afterP [c] false 0 true ops) L nc lcs = .ok (afterP [c] false 0 true ops') ∧
      Spec.Generated idx (i + 1) nl layers ops' ∧
      (∀ x, (Spec.shown ops').layer x ↔ (Spec.shown ops).layer x) ∧
      (∀ x a b, (∃ k < i, a = idx k) → (∃ k < i, b = idx k) →
        ((Spec.shown ops').link x a b ↔ (Spec.shown ops).link x a b)) ∧
      ∀ x k, k < i → ((Spec.shown ops').link x (idx k) (idx i) ↔ ∃ u ∈ nc.zip lcs, u.1 = k ∧ x ∈ u.2) := by
  classical
  have hcs : [c] ≠ [] := by simp
  set p := afterP [c] false 0 true ops with hp
  have hb := builtX_after [c] false 0 true ops
  have hs0 : ∀ x, x ∈ p.slices.headD [] ↔ (Spec.shown ops).node x := by
    intro x
    have := hb.mem_slices hcs (a := 0) (by omega) x
    rw [if_pos rfl] at this
    refine Iff.trans ?_ this
    rw [← hp]
    cases p.slices <;> simp
  have hi : ∀ k ∈ nc, idx k ≠ idx i := fun k hk e => by have := hidx e; have := hnc k hk; omega
  -- the copy
  obtain ⟨ops1, e1, P⟩ := C84_subnet (dir := false) (z := 0) (al := true) (ops := ops) hcs
    (by intro m hm; simp at hm; exact hc m hm.symm) (sel := [some (p.slices.headD []), some L]) rfl false
    (Or.inr (by
      rintro s ⟨h1, h2⟩
      obtain ⟨x, rfl⟩ := List.length_eq_one_iff.1 h1
      refine hasLayer_shown.2 ((hL x).2 ?_)
      rcases h2 0 x rfl with ⟨l, h3, h4⟩ | ⟨h3, -⟩
      · cases h3; exact h4
      · cases h3))
  have n1 : ∀ x, (Spec.shown ops1).node x ↔ ∃ k < i, x = idx k := by
    intro x
    have := P.nodes x
    rw [if_pos rfl] at this
    rw [← hg.nodes]
    refine this.trans (and_iff_left_of_imp fun h => ⟨_, rfl, fun l hl => ?_⟩)
    cases hl; exact (hs0 x).2 h
  have l1 : ∀ x, (Spec.shown ops1).layer x ↔ (Spec.shown ops).layer x := by
    intro x
    refine (P.layers 1 x (by omega) (by simp)).trans (and_iff_left_of_imp fun h => ⟨_, rfl, fun l hl => ?_⟩)
    cases hl; exact (hL x).1 h
  have r1 : ∀ x a b, Spec.readP 1 false true ops1 [x] a b = Spec.readP 1 false true ops [x] a b := by
    intro x a b
    refine (P.link [x] a b rfl).trans ?_
    by_cases h0 : Spec.readP 1 false true ops [x] a b = 0
    · rw [show Spec.readP [c].length false true ops [x] a b = 0 from h0]; simp [h0]
    · obtain ⟨g1, g2, g3⟩ := readP_ne (cs := [c]) hcs (dir := false) (al := true) (ops := ops) (s := [x]) rfl h0
      rw [if_pos]
      · rfl
      · refine ⟨rfl, fun k y hy => ?_, ⟨_, rfl, fun l hl => ?_⟩, ⟨_, rfl, fun l hl => ?_⟩⟩
        · match k, hy with
          | 0, hy =>
            cases hy
            refine ⟨_, rfl, fun l hl => ?_⟩
            cases hl; exact (hL x).1 (hasLayer_shown.1 g1)
        · cases hl; exact (hs0 a).2 g2
        · cases hl; exact (hs0 b).2 g3
  -- the new links
  set pairs := (nc.zip lcs).flatMap fun u => u.2.map (Prod.mk u) with hpairs
  have hmem : ∀ t, t ∈ pairs ↔ t.1 ∈ nc.zip lcs ∧ t.2 ∈ t.1.2 := by
    rintro ⟨u, x⟩
    simp only [hpairs, List.mem_flatMap, List.mem_map, Prod.mk.injEq]
    constructor
    · rintro ⟨u', h1, x', h2, rfl, rfl⟩; exact ⟨h1, h2⟩
    · rintro ⟨h1, h2⟩; exact ⟨u, h1, x, h2, rfl, rfl⟩
  have hz1 : ∀ u ∈ nc.zip lcs, u.1 ∈ nc := fun u hu => (List.of_mem_zip hu).1
  have hz2 : ∀ u ∈ nc.zip lcs, u.2 ∈ lcs := fun u hu => (List.of_mem_zip hu).2
  obtain ⟨p2, e2, h2⟩ := setLoop (fun t : (Nat × List α) × α => idx t.1.1) (fun _ => idx i) (fun t => t.2) pairs
    (fun t ht => hi _ (hz1 _ ((hmem t).1 ht).1)) (builtX_after [c] false 0 true ops1)
  obtain ⟨q, e3, h3⟩ := h2.addLayers hcs (a := 1) (by omega) (by simp) id L
  obtain ⟨ops2, rfl, hns, hS, hLY, hR⟩ := h3.shown (P.noself hg.noself)
  have hcall : extendNet idx i p L nc lcs = .ok (afterP [c] false 0 true ops2) := by
    unfold extendNet
    rw [e1]
    dsimp only
    rw [forE_nested (fun (u : Nat × List α) (p : MPlex α W) x => (p.setItem [idx u.1, idx i, x] 1).toExcept) (fun u => u.2), e2]
    exact e3
  obtain ⟨u0, hu0, x0, hx0⟩ : ∃ u ∈ nc.zip lcs, ∃ x, x ∈ u.2 := by
    match nc, lcs, hne, hlen with
    | k :: nc, l :: lcs, _, _ =>
      exact ⟨(k, l), by simp, List.exists_mem_of_ne_nil _ (hlcs l (by simp)).2⟩
  have hnode : ∀ x, (Spec.shown ops2).node x ↔ ∃ k < i + 1, x = idx k := by
    intro x
    rw [hS]
    constructor
    · rintro (h | ⟨t, ht, h | h⟩)
      · obtain ⟨k, hk, rfl⟩ := (n1 x).1 h
        exact ⟨k, by omega, rfl⟩
      · exact ⟨_, by have := hnc _ (hz1 _ ((hmem t).1 ht).1); omega, h⟩
      · exact ⟨i, by omega, h⟩
    · rintro ⟨k, hk, rfl⟩
      by_cases hki : k < i
      · exact Or.inl ((n1 _).2 ⟨k, hki, rfl⟩)
      · obtain rfl : k = i := by omega
        exact Or.inr ⟨(u0, x0), (hmem _).2 ⟨hu0, hx0⟩, Or.inr rfl⟩
  have hlayer : ∀ x, (Spec.shown ops2).layer x ↔ (Spec.shown ops).layer x := by
    intro x
    rw [hLY, hL]
    constructor
    · rintro ((h | ⟨t, ht, rfl⟩) | ⟨-, t, h1, rfl⟩)
      · exact (hL x).1 ((l1 x).1 h)
      · exact (hlcs _ (hz2 _ ((hmem t).1 ht).1)).1 ((hmem t).1 ht).2
      · exact h1
    · intro hx; exact Or.inr ⟨rfl, x, hx, rfl⟩
  have hnew : ∀ x a b, (∃ t ∈ pairs, [x] = [t.2] ∧ Spec.SameLink false (idx t.1.1) (idx i) a b) ↔
      ∃ u ∈ nc.zip lcs, x ∈ u.2 ∧ ((a = idx u.1 ∧ b = idx i) ∨ (a = idx i ∧ b = idx u.1)) := by
    intro x a b
    constructor
    · rintro ⟨t, ht, h1, h2⟩
      cases h1
      refine ⟨t.1, ((hmem t).1 ht).1, ((hmem t).1 ht).2, ?_⟩
      rcases h2 with h | ⟨-, h⟩
      · exact Or.inl h
      · exact Or.inr h
    · rintro ⟨u, hu, hx, h⟩
      exact ⟨(u, x), (hmem _).2 ⟨hu, hx⟩, rfl, h.imp id fun h => ⟨rfl, h⟩⟩
  have hold : ∀ x a b, (∃ k < i, a = idx k) → (∃ k < i, b = idx k) →
      Spec.readP 1 false true ops2 [x] a b = Spec.readP 1 false true ops [x] a b := by
    rintro x a b ⟨k, hk, rfl⟩ ⟨k', hk', rfl⟩
    rw [hR, if_neg]
    · exact r1 _ _ _
    · rw [hnew]
      rintro ⟨u, -, -, (⟨-, h⟩ | ⟨h, -⟩)⟩
      · have := hidx h; omega
      · have := hidx h; omega
  have hlk : ∀ x k, k < i → ((Spec.shown ops2).link x (idx k) (idx i) ↔ ∃ u ∈ nc.zip lcs, u.1 = k ∧ x ∈ u.2) := by
    intro x k hk
    have hki : idx k ≠ idx i := fun e => by have := hidx e; omega
    simp only [Spec.shown, hR]
    by_cases h : ∃ t ∈ pairs, [x] = [t.2] ∧ Spec.SameLink false (idx t.1.1) (idx i) (idx k) (idx i)
    · rw [if_pos h]
      obtain ⟨u, h1, h2, (⟨h3, -⟩ | ⟨h3, -⟩)⟩ := (hnew _ _ _).1 h
      · exact iff_of_true ⟨hki, h10⟩ ⟨u, h1, (hidx h3).symm, h2⟩
      · exact absurd h3 hki
    · rw [if_neg h]
      refine iff_of_false ?_ ?_
      · rintro ⟨-, h4⟩
        have h5 : Spec.readP 1 false true ops1 [x] (idx k) (idx i) ≠ 0 := h4
        obtain ⟨-, -, g3⟩ := readP_ne (cs := [c]) hcs (dir := false) (al := true) (ops := ops1) (s := [x]) rfl h5
        obtain ⟨k', hk', e⟩ := (n1 _).1 g3
        have := hidx e; omega
      · rintro ⟨u, h1, rfl, h2⟩
        exact h ((hnew _ _ _).2 ⟨u, h1, h2, Or.inl ⟨rfl, rfl⟩⟩)
  refine ⟨ops2, hcall, ⟨hnode, ?_, ?_, ?_, hns⟩, hlayer, ?_, hlk⟩
  · obtain ⟨l, h1, h2, h3⟩ := hg.layer
    exact ⟨l, h1, h2, fun x => (hlayer x).trans (h3 x)⟩
  · have hconn : Spec.LinkConnected (Spec.shown ops).node
        fun a b => ∃ x, (Spec.shown ops2).layer x ∧ (Spec.shown ops2).link x a b := by
      refine hg.connected.mono (fun _ => Iff.rfl) ?_
      rintro a b ha hb ⟨x, h1, h2⟩
      exact ⟨x, (hlayer x).2 h1, h2.1, by rw [hold x a b ((hg.nodes a).1 ha) ((hg.nodes b).1 hb)]; exact h2.2⟩
    have hk0 := hnc _ (hz1 _ hu0)
    refine hconn.add (fun a b ⟨x, h1, h2⟩ => ⟨x, h1, link_symm h2⟩) (a := idx u0.1) (b := idx i)
      ((hg.nodes _).2 ⟨_, hk0, rfl⟩)
      ⟨x0, (hlayer x0).2 ((hL x0).2 ((hlcs _ (hz2 _ hu0)).1 hx0)), (hlk _ _ hk0).2 ⟨u0, hu0, rfl, hx0⟩⟩ fun x => ?_
    rw [hnode, hg.nodes]
    constructor
    · rintro ⟨k, hk, rfl⟩
      by_cases hki : k < i
      · exact Or.inl ⟨k, hki, rfl⟩
      · exact Or.inr (by rw [show k = i by omega])
    · rintro (⟨k, hk, rfl⟩ | rfl)
      exacts [⟨k, by omega, rfl⟩, ⟨i, by omega, rfl⟩]
  · intro x a b
    rw [hR]
    split
    · exact Or.inr rfl
    · have := hg.weights x a b
      rw [← r1] at this
      exact this
  · intro x a b ha hb
    simp only [Spec.shown, hold x a b ha hb]

end Pymnet
