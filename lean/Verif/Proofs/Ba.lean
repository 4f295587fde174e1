import Verif.Proofs.Ends
import Mathlib.Algebra.BigOperators.Group.Finset.Basic
import Mathlib.Algebra.Order.BigOperators.Group.Finset
import Verif.Proofs.Orbits

/-! `ba_total_degree`. -/

set_option linter.unusedSectionVars false

namespace Pymnet

open Py Models

variable {α W : Type} [DecidableEq α] [DecidableEq W] [Zero W] [One W]

theorem nodup_foldl_sadd {κ : Type} [DecidableEq κ] (t : List κ) : ∀ {s : List κ}, s.Nodup → (t.foldl sadd s).Nodup := by
  induction t with
  | nil => intro s h; exact h
  | cons a t ih => intro s h; exact ih (nodup_sadd h a)

theorem length_foldl_sadd {κ : Type} [DecidableEq κ] (t : List κ) : ∀ {s : List κ},
    (t.foldl sadd s).length ≤ s.length + t.length := by
  induction t with
  | nil => intro s; simp
  | cons a t ih =>
    intro s
    refine (ih (s := sadd s a)).trans ?_
    unfold sadd
    split <;> simp <;> omega

/-- what the targets of node `k` on a layer with parameter `m` are -/
def BaGood (m k : Nat) (T : List Nat) : Prop := T.Nodup ∧ (∀ j ∈ T, j < k) ∧ T.length = if m ≤ k then m else 0

theorem baDraw_ends {links : List Nat} {m i : Nat} (hl : m ≤ links.length) (hlt : ∀ j ∈ links, j < i) :
    ∀ (draws : List (List Nat)) (ls : List Nat), ls.Nodup → ls.length ≤ m → (∀ j ∈ ls, j < i) →
      Ends (fun _ => False) (baDraw links m draws ls) (fun r => r.1.Nodup ∧ (∀ j ∈ r.1, j < i) ∧ r.1.length = m) := by
  intro draws
  induction draws with
  | nil =>
    intro ls h1 h2 h3
    unfold baDraw
    by_cases h : ls.length < m
    · rw [if_pos h, if_neg (by omega)]; trivial
    · rw [if_neg h]; exact ⟨h1, h3, by dsimp only; omega⟩
  | cons d draws ih =>
    intro ls h1 h2 h3
    unfold baDraw
    by_cases h : ls.length < m
    · rw [if_pos h, if_neg (by omega)]
      simp only
      by_cases hd : d.Nodup ∧ d.length = m - ls.length ∧ ∀ i ∈ d, i < links.length
      · rw [if_neg (not_not.2 hd)]
        refine ih _ (nodup_foldl_sadd _ h1) ?_ ?_
        · refine length_foldl_sadd _ |>.trans ?_
          have := List.length_filterMap_le (links[·]?) d
          omega
        · intro j hj
          rw [mem_foldl_sadd] at hj
          rcases hj with hj | hj
          · exact h3 j hj
          · obtain ⟨q, hq, e⟩ := List.mem_filterMap.1 hj
            exact hlt j (List.mem_of_getElem? e)
      · rw [if_pos hd]; trivial
    · rw [if_neg h]; exact ⟨h1, h3, by dsimp only; omega⟩

theorem baLinkSet_ends {links : List Nat} {m i : Nat} (hl : m < i → m ≤ links.length) (hlt : ∀ j ∈ links, j < i)
    (draws : List (List Nat)) :
    Ends (fun _ => False) (baLinkSet links i m draws) (fun r => BaGood m i r.1) := by
  unfold baLinkSet
  by_cases h1 : i = m
  · rw [if_pos h1]
    exact ⟨List.nodup_range, by simp, by simp [h1]⟩
  rw [if_neg h1]
  by_cases h2 : m < i
  · rw [if_pos h2]
    refine (baDraw_ends (hl h2) hlt draws [] (by simp) (by simp) (by simp)).mono ?_
    rintro r ⟨e1, e2, e3⟩
    exact ⟨e1, e2, by rw [e3, if_pos (by omega)]⟩
  · rw [if_neg h2]
    exact ⟨by simp, by simp, by rw [if_neg (by omega)]; rfl⟩

open Classical in
/-- the network with the targets `T` -/
def BaNet (ix : Nat → α) (c : Coupling α W) (net : MPlex α W) (i : Nat) (T : Nat → Nat → List Nat) : Prop :=
  BuiltP net c true (fun x => ∃ k < i, x = ix k) (fun s => ∃ l k j, j ∈ T l k ∧ s = ix l) (fun _ _ => False)
    (fun s a b => if ∃ l k j, j ∈ T l k ∧ s = ix l ∧ ((a = ix k ∧ b = ix j) ∨ (a = ix j ∧ b = ix k)) then 1 else 0)

theorem BaNet.addLinks {ix : Nat → α} (hix : Function.Injective ix) {c : Coupling α W} {net : MPlex α W} {i l : Nat}
    {T : Nat → Nat → List Nat} (h : BaNet ix c net (i + 1) T) (hT : T l i = []) {t : List Nat} (ht : ∀ j ∈ t, j < i) :
    ∃ net', forE (fun (net : MPlex α W) j => (net.setItem [ix i, ix j, ix l] 1).toExcept) t net = .ok net' ∧
      BaNet ix c net' (i + 1) (fun l' k => if l' = l ∧ k = i then t else T l' k) := by
  obtain ⟨net', h1, h2⟩ := BuiltP.writes h t (fun _ => True) (fun _ => ix i) (fun j => ix j) (fun _ => ix l)
    (fun j hj _ e => by have := hix e; have := ht j hj; omega)
    (g := fun net j => (net.setItem [ix i, ix j, ix l] 1).toExcept)
    (fun m j _ _ => ⟨_, addresses_one, rfl⟩) (fun m j _ hq => absurd trivial hq)
  refine ⟨net', h1, BuiltP.congr h2.anyNL ?_ ?_ (fun _ _ => Iff.rfl) ?_⟩
  · intro x
    constructor
    · rintro (⟨k, hk, rfl⟩ | ⟨j, hj, -, rfl | rfl⟩)
      · exact ⟨k, hk, rfl⟩
      · exact ⟨i, by omega, rfl⟩
      · exact ⟨j, by have := ht j hj; omega, rfl⟩
    · exact .inl
  · intro s
    constructor
    · rintro (⟨l', k, j, hj, rfl⟩ | ⟨j, hj, -, rfl⟩)
      · refine ⟨l', k, j, ?_, rfl⟩
        have : ¬ (l' = l ∧ k = i) := by rintro ⟨rfl, rfl⟩; rw [hT] at hj; cases hj
        simp only [this, if_false]; exact hj
      · exact ⟨l, i, j, by simp only [and_self, if_true]; exact hj, rfl⟩
    · rintro ⟨l', k, j, hj, rfl⟩
      dsimp only at hj
      split at hj
      · rename_i hc; obtain ⟨rfl, rfl⟩ := hc
        exact .inr ⟨j, hj, trivial, rfl⟩
      · exact .inl ⟨l', k, j, hj, rfl⟩
  · intro s a b
    refine ite_or_iff ⟨?_, ?_⟩
    · rintro (⟨l', k, j, hj, rfl, hab⟩ | ⟨j, hj, -, rfl, hab⟩)
      · refine ⟨l', k, j, ?_, rfl, hab⟩
        have : ¬ (l' = l ∧ k = i) := by rintro ⟨rfl, rfl⟩; rw [hT] at hj; cases hj
        simp only [this, if_false]; exact hj
      · exact ⟨l, i, j, by simp only [and_self, if_true]; exact hj, rfl, hab⟩
    · rintro ⟨l', k, j, hj, rfl, hab⟩
      dsimp only at hj
      split at hj
      · rename_i hc; obtain ⟨rfl, rfl⟩ := hc
        exact .inr ⟨j, hj, trivial, rfl, hab⟩
      · exact .inl ⟨l', k, j, hj, rfl, hab⟩

theorem zip_range_split {β : Type} {ms : List β} {pre post : List (Nat × β)} {b : Nat × β}
    (h : (List.range ms.length).zip ms = pre ++ b :: post) : b.1 = pre.length ∧ ms[pre.length]? = some b.2 := by
  have h1 : ((List.range ms.length).zip ms)[pre.length]? = some b := by rw [h]; simp
  rw [List.getElem?_zip_eq_some, List.getElem?_range] at h1
  · exact ⟨by simpa using h1.1.symm, h1.2⟩
  · have := congrArg List.length h
    simp at this
    omega

/-- the state before node `i`: the targets `T`, and the list of link ends -/
structure BaInv (ix : Nat → α) (c : Coupling α W) (ms : List Nat) (i : Nat) (net : MPlex α W) (links : List Nat)
    (T : Nat → Nat → List Nat) : Prop where
  net : BaNet ix c net i T
  off : ∀ l k, i ≤ k ∨ ms.length ≤ l → T l k = []
  good : ∀ l m, ms[l]? = some m → ∀ k < i, BaGood m k (T l k)
  count : ∀ j, links.count j = ∑ l ∈ Finset.range ms.length, (∑ k ∈ Finset.range i, (T l k).count j + (T l j).length)

theorem BaInv.mem {ix : Nat → α} {c : Coupling α W} {ms : List Nat} {i : Nat} {net : MPlex α W} {links : List Nat}
    {T : Nat → Nat → List Nat} (h : BaInv ix c ms i net links T) {j : Nat} (hj : j ∈ links) : j < i := by
  by_contra hc
  have hpos : 0 < links.count j := List.count_pos_iff.2 hj
  rw [h.count] at hpos
  refine absurd (Finset.sum_eq_zero fun l hl => ?_) hpos.ne'
  rw [h.off l j (.inl (by omega)), List.length_nil, Nat.add_zero]
  refine Finset.sum_eq_zero fun k hk => List.count_eq_zero.2 fun hm => ?_
  have hl' := Finset.mem_range.1 hl
  have := (h.good l _ (List.getElem?_eq_getElem hl') k (Finset.mem_range.1 hk)).2.1 j hm
  have := Finset.mem_range.1 hk
  omega

theorem BaInv.length {ix : Nat → α} {c : Coupling α W} {ms : List Nat} {i : Nat} {net : MPlex α W} {links : List Nat}
    {T : Nat → Nat → List Nat} (h : BaInv ix c ms i net links T) {l m : Nat} (hm : ms[l]? = some m) (hi : m < i) :
    m ≤ links.length := by
  obtain ⟨h1, -, h3⟩ := h.good l m hm m hi
  rw [if_pos (le_refl m)] at h3
  rw [← h3]
  refine (List.subperm_of_subset h1 fun j hj => List.count_pos_iff.1 ?_).length_le
  rw [h.count]
  have hl : l < ms.length := (List.getElem?_eq_some_iff.1 hm).1
  refine lt_of_lt_of_le ?_ (Finset.single_le_sum (fun _ _ => Nat.zero_le _) (Finset.mem_range.2 hl))
  refine lt_of_lt_of_le ?_ (Nat.le_add_right _ _)
  refine lt_of_lt_of_le ?_ (Finset.single_le_sum (fun _ _ => Nat.zero_le _) (Finset.mem_range.2 hi))
  exact List.count_pos_iff.2 hj

theorem count_baLinks (links : List Nat) (i j : Nat) (sets : List (List Nat)) :
    (sets.foldl (fun links s => links ++ s ++ List.replicate s.length i) links).count j =
      links.count j + (sets.map fun s => s.count j + if i = j then s.length else 0).sum := by
  induction sets generalizing links with
  | nil => simp
  | cons s sets ih =>
    rw [List.foldl_cons, ih, List.count_append, List.count_append, List.map_cons, List.sum_cons]
    rw [List.count_replicate]
    simp only [beq_iff_eq]
    omega

theorem baNode_ends {ix : Nat → α} (hix : Function.Injective ix) {c : Coupling α W} {ms : List Nat} {i : Nat}
    {net : MPlex α W} {links : List Nat} {draws : List (List Nat)} {T : Nat → Nat → List Nat}
    (h : BaInv ix c ms i net links T) :
    Ends (fun _ => False) (baNode ix ms ((net, links), draws) i)
      (fun st => ∃ T', BaInv ix c ms (i + 1) st.1.1 st.1.2 T' ∧ ∀ l, ∀ k ≠ i, T' l k = T l k) := by
  obtain ⟨net1, e1, e2⟩ := BuiltP.addNode h.net (ix i)
  have hN : BaNet ix c net1 (i + 1) T := e2.congr (fun x => by
      constructor
      · rintro (⟨k, hk, rfl⟩ | rfl)
        · exact ⟨k, by omega, rfl⟩
        · exact ⟨i, by omega, rfl⟩
      · rintro ⟨k, hk, rfl⟩
        rcases Nat.lt_succ_iff_lt_or_eq.1 hk with hk | rfl
        · exact .inl ⟨k, hk, rfl⟩
        · exact .inr rfl) (fun _ => Iff.rfl) (fun _ _ => Iff.rfl) (fun _ _ _ => rfl)
  unfold baNode
  simp only [e1]
  have key := forS_ends (B := fun _ => False) (f := baLayer ix links i)
    (P := fun pre (b : BaState α W) => ∃ T' : Nat → Nat → List Nat, BaNet ix c b.net (i + 1) T' ∧
      (∀ l, ∀ k ≠ i, T' l k = T l k) ∧ (∀ l, pre.length ≤ l → T' l i = []) ∧
      (∀ l m, l < pre.length → ms[l]? = some m → BaGood m i (T' l i)) ∧
      b.linkSets = (List.range pre.length).map (T' · i))
    ((List.range ms.length).zip ms) (s := ⟨net1, [], draws⟩)
    ⟨T, hN, fun _ _ _ => rfl, fun l _ => h.off l i (.inl le_rfl), fun l m hl => absurd hl (by simp), by simp⟩ ?_
  · match hx : forS (baLayer ix links i) ((List.range ms.length).zip ms) ⟨net1, [], draws⟩ with
    | .error .more => trivial
    | .error (.raised e) => rw [hx] at key; exact key
    | .ok b =>
      rw [hx] at key
      obtain ⟨T', k1, k2, k3, k4, k5⟩ := key
      have hlen : ((List.range ms.length).zip ms).length = ms.length := by simp
      rw [hlen] at k3 k4 k5
      refine ⟨T', ⟨k1, ?_, ?_, ?_⟩, k2⟩
      · rintro l k (hk | hl)
        · rw [k2 l k (by omega)]; exact h.off l k (.inl (by omega))
        · by_cases hk : k = i
          · subst hk; exact k3 l hl
          · rw [k2 l k hk]; exact h.off l k (.inr hl)
      · intro l m hm k hk
        by_cases hki : k = i
        · subst hki; exact k4 l m (List.getElem?_eq_some_iff.1 hm).1 hm
        · rw [k2 l k hki]; exact h.good l m hm k (by omega)
      · intro j
        rw [count_baLinks, h.count, k5, List.map_map]
        have : ((List.range ms.length).map ((fun s => List.count j s + if i = j then s.length else 0) ∘ (T' · i))).sum =
            ∑ l ∈ Finset.range ms.length, ((T' l i).count j + if i = j then (T' l i).length else 0) := by
          rw [← List.sum_toFinset _ List.nodup_range, List.toFinset_range]
          rfl
        rw [this, ← Finset.sum_add_distrib]
        refine Finset.sum_congr rfl fun l _ => ?_
        rw [Finset.sum_range_succ]
        have e3 : ∑ k ∈ Finset.range i, (T' l k).count j = ∑ k ∈ Finset.range i, (T l k).count j :=
          Finset.sum_congr rfl fun k hk => by rw [k2 l k (by have := Finset.mem_range.1 hk; omega)]
        rw [e3]
        by_cases hij : i = j
        · subst hij
          rw [if_pos rfl, h.off l i (.inl le_rfl)]
          simp only [List.length_nil]
          omega
        · rw [if_neg hij, k2 l j (fun h => hij h.symm)]
          omega
  · rintro pre ⟨l, m⟩ post ⟨net2, sets, draws2⟩ hsplit ⟨T', k1, k2, k3, k4, k5⟩
    obtain ⟨hl, hm⟩ := zip_range_split hsplit
    simp only at hl hm k5
    subst hl
    have hset := baLinkSet_ends (fun hi => h.length hm hi) (fun j hj => h.mem hj) draws2
    unfold baLayer
    simp only
    match hx : baLinkSet links i m draws2 with
    | .error .more => trivial
    | .error (.raised e) => rw [hx] at hset; exact hset
    | .ok (t, draws3) =>
      rw [hx] at hset
      obtain ⟨net3, f1, f2⟩ := BaNet.addLinks hix k1 (k3 _ le_rfl) hset.2.1
      simp only [f1]
      refine ⟨_, f2, ?_, ?_, ?_, ?_⟩
      · intro l k hk; rw [if_neg (fun hc => hk hc.2)]; exact k2 l k hk
      · intro l hl
        rw [List.length_append, List.length_singleton] at hl
        rw [if_neg (by omega)]
        exact k3 l (by omega)
      · intro l m' hl hm'
        rw [List.length_append, List.length_singleton] at hl
        by_cases hc : l = pre.length
        · subst hc
          rw [hm] at hm'; cases hm'
          rw [if_pos ⟨rfl, rfl⟩]; exact hset
        · rw [if_neg (fun h => hc h.1)]
          exact k4 l m' (by omega) hm'
      · simp only [List.length_append, List.length_singleton]
        rw [List.range_succ, List.map_append]
        rw [k5]
        congr 1
        · refine List.map_congr_left fun x hx => ?_
          rw [if_neg (by have := List.mem_range.1 hx; omega)]
        · simp

theorem ba_ends {ix : Nat → α} (hix : Function.Injective ix) (n : Nat) (ms : List Nat) (c : Coupling α W)
    (draws : List (List Nat)) :
    Ends (fun _ => False) (forS (baNode ix ms) (List.range n) ((MPlex.init [c] false 0 true, []), draws))
      (fun st => ∃ T, BaInv ix c ms n st.1.1 st.1.2 T) := by
  refine (forS_ends (P := fun pre (st : (MPlex α W × List Nat) × List (List Nat)) =>
    ∃ T, BaInv ix c ms pre.length st.1.1 st.1.2 T) (List.range n) ?_ ?_).mono ?_
  · refine ⟨fun _ _ => [], ?_, fun _ _ _ => rfl, fun _ _ _ k hk => absurd hk (by simp), by simp⟩
    exact (BuiltP.init c true).anyNL.congr (by simp) (by simp) (fun _ _ => Iff.rfl) (by simp)
  · rintro pre i post ⟨⟨net, links⟩, draws⟩ hl ⟨T, hT⟩
    have hi : i = pre.length := by
      have h1 : (List.range n)[pre.length]? = some i := by rw [hl]; simp
      rw [List.getElem?_range] at h1
      · simpa using h1.symm
      · have := congrArg List.length hl; simp at this; omega
    subst hi
    refine (baNode_ends hix hT).mono ?_
    rintro st ⟨T', h1, -⟩
    exact ⟨T', by simpa using h1⟩
  · rintro st ⟨T, hT⟩; exact ⟨T, by simpa using hT⟩

end Pymnet
