import Verif.Proofs.Search

/-! What the documented combinations of arguments of the two enumerations search for. -/

set_option linter.unusedSectionVars false
set_option linter.unusedSimpArgs false

namespace Pymnet

open Py

variable {α W β : Type} [DecidableEq α] [DecidableEq W] [DecidableEq β]

/-- The search `s` is for subgraphs of `n` nodes and `k` layers, and its check decides `G` for every undirected
one-aspect network; `G` does not depend on the order of the nodes and layers, nor on links outside the
subgraph. -/
structure Decides (s : Search α W) (z : W) (n k : Nat)
    (G : (List α → Prop) → (List α → List α → W) → List α → List α → Prop) : Prop where
  rn : s.rn = n
  rl : s.rl = k
  check : ∀ {m : MNet α W} {al S NL R}, Spec.Looks m 1 z false al S NL R → ∀ N L, N.Nodup → L.Nodup → N.length = n → L.length = k →
    ∃ b, s.check m N L = .ok b ∧ (b = true ↔ G NL R N L)
  perm : ∀ NL R N N' L L', N.Perm N' → L.Perm L' → G NL R N L → G NL R N' L'
  near : ∀ NL R R' N L, (∀ u v, NL u → NL v → Spec.Inside N L u → Spec.Inside N L v → R u v = R' u v) → G NL R N L → G NL R' N L

theorem decides_check {conn : MNet β W → Bool} (hc : Spec.TestsConnected conn) {name : List α → β} (hn : Function.Injective name)
    (z : W) {sizes : List Int} {isects : List (Option Int)} {it : IType} (hit : it ≠ .other) (n : Nat)
    (hs1 : ∀ i ∈ sizes, i ≥ 1) (hi : isects.length = 2 ^ sizes.length - sizes.length - 1) :
    Decides ⟨n, sizes.length, defaultCheck conn name sizes isects (some (n : Int)) (some (sizes.length : Int)) it⟩ z n sizes.length
      fun NL R N L => Spec.Proper NL (fun u v => R u v ≠ z) N L ∧ Spec.Fits NL sizes isects it N L where
  rn := rfl
  rl := rfl
  check := by
    intro m al S NL R h N L hN hL hNn hLk
    have := defaultCheck_spec h hc hn (N := N) hit hL hLk.symm hs1 (by rw [hLk]; exact hi)
    rw [hNn, hLk] at this
    exact this
  perm := fun NL R N N' L L' h1 h2 h => ⟨proper_perm h1 h2 h.1, fits_perm h1 h2 h.2⟩
  near := fun NL R R' N L h hG =>
    ⟨(proper_local fun u v hu hv h1 h2 => by rw [h u v hu hv h1 h2]).1 hG.1, hG.2⟩

/-- `nnodes` and `nlayers`. -/
theorem search_relaxed {conn : MNet β W → Bool} (hc : Spec.TestsConnected conn) {name : List α → β} (hn : Function.Injective name)
    (z : W) {n k : Nat} (hn1 : 1 ≤ n) (hk1 : 1 ≤ k) (it : IType) :
    ∃ s, Wanted.search conn name (⟨none, none, some n, some k, it, none⟩ : Wanted α W) = .ok s ∧
      Decides s z n k fun NL R N L => Spec.Proper NL (fun u v => R u v ≠ z) N L := by
  refine ⟨⟨n, k, relaxedCheck conn name⟩, ?_, rfl, rfl, ?_, ?_, ?_⟩
  · simp only [Wanted.search]
    rw [if_neg (by simp), if_pos (by omega)]
  · intro m al S NL R h N L _ _ _ _
    exact relaxedCheck_spec h hc hn N L
  · exact fun NL R N N' L L' h1 h2 h => proper_perm h1 h2 h
  · exact fun NL R R' N L h hG => (proper_local fun u v hu hv h1 h2 => by rw [h u v hu hv h1 h2]).1 hG

/-- `sizes` and a list `intersections` without `None`, strictly. -/
theorem search_strict {conn : MNet β W → Bool} (hc : Spec.TestsConnected conn) {name : List α → β} (hn : Function.Injective name)
    (z : W) {sizes isects : List Int} {n : Nat} {k : Int} (hr : requiredLengths sizes isects = .ok ((n : Int), k)) :
    ∃ s, Wanted.search conn name (⟨some sizes, some (.list (isects.map some)), none, none, .strict, none⟩ : Wanted α W) = .ok s ∧
      Decides s z n sizes.length
        fun NL R N L => Spec.Proper NL (fun u v => R u v ≠ z) N L ∧ Spec.Fits NL sizes (isects.map some) .strict N L := by
  obtain ⟨h1, h2, h3, h4⟩ := requiredLengths_pre hr
  have hd := decides_check hc hn z (it := .strict) (isects := isects.map some) (by simp) n h3 (by simpa using h2)
  simp only at h4
  subst h4
  refine ⟨_, ?_, hd⟩
  have hf : (isects.map some).filterMap id = isects := by simp [List.filterMap_map]
  simp only [Wanted.search]
  rw [if_neg (by simp)]
  unfold wantedList
  rw [if_neg (by simp), hf, hr]
  simp
  rfl

/-- `sizes`, a list `intersections` and `nnodes`, where the list contains `None` or the intersections are bounded. -/
theorem search_nnodes {conn : MNet β W → Bool} (hc : Spec.TestsConnected conn) {name : List α → β} (hn : Function.Injective name)
    (z : W) {sizes : List Int} {isects : List (Option Int)} {it : IType} {n : Nat}
    (hs1 : ∀ i ∈ sizes, i ≥ 1) (hi : isects.length = 2 ^ sizes.length - sizes.length - 1)
    (hu : (none ∈ isects ∧ it ≠ .other) ∨ it = .lessOrEqual) :
    ∃ s, Wanted.search conn name (⟨some sizes, some (.list isects), some n, none, it, none⟩ : Wanted α W) = .ok s ∧
      Decides s z n sizes.length
        fun NL R N L => Spec.Proper NL (fun u v => R u v ≠ z) N L ∧ Spec.Fits NL sizes isects it N L := by
  have hit : it ≠ .other := by rcases hu with h | h; exact h.2; rw [h]; simp
  refine ⟨_, ?_, decides_check hc hn z hit n hs1 hi⟩
  simp only [Wanted.search]
  rw [if_neg (by simp)]
  unfold wantedList
  by_cases h0 : none ∈ isects
  · rw [if_pos h0]; rfl
  · rw [if_neg h0]
    have : it = .lessOrEqual := by rcases hu with h | h; exact absurd h.1 h0; exact h
    rw [this]; rfl

/-- `sizes`, `nnodes` and the size of the intersection of all layers. -/
theorem search_common {conn : MNet β W → Bool} (hc : Spec.TestsConnected conn) {name : List α → β} (hn : Function.Injective name)
    (z : W) {sizes : List Int} {c n : Nat} {it : IType} (hit : it ≠ .other) (hs1 : ∀ i ∈ sizes, i ≥ 1) (hs2 : 2 ≤ sizes.length) :
    ∃ s, Wanted.search conn name (⟨some sizes, some (.common c), some n, none, it, none⟩ : Wanted α W) = .ok s ∧
      Decides s z n sizes.length
        fun NL R N L => L.length = sizes.length ∧ Spec.Proper NL (fun u v => R u v ≠ z) N L ∧ Spec.FitsCommon NL sizes c it N L := by
  obtain ⟨l, hl, hlen, hi⟩ := commonList_spec hs2 (c : Int)
  have hd := decides_check hc hn z hit n hs1 hlen
  refine ⟨_, ?_, hd.rn, hd.rl, ?_, ?_, ?_⟩
  · simp only [Wanted.search]
    rw [if_neg (by simp), if_neg (by omega), hl]
  · intro m al S NL R h N L hN hL hNn hLk
    obtain ⟨b, e, hb⟩ := hd.check h N L hN hL hNn hLk
    refine ⟨b, e, hb.trans ?_⟩
    rw [fits_common hs2 hLk hlen hi]
    simp [hLk]
  · intro NL R N N' L L' h1 h2 ⟨g1, g2⟩
    refine ⟨by rw [← h2.length_eq, g1], ?_⟩
    rw [← fits_common hs2 g1 hlen hi] at g2
    rw [← fits_common hs2 (h2.length_eq ▸ g1) hlen hi]
    exact hd.perm NL R N N' L L' h1 h2 g2
  · intro NL R R' N L h ⟨g1, g2⟩
    refine ⟨g1, ?_⟩
    rw [← fits_common hs2 g1 hlen hi] at g2 ⊢
    exact hd.near NL R R' N L h g2

/-- A check of one's own. -/
theorem search_custom (conn : MNet β W → Bool) (name : List α → β) (sizes : Option (List Int)) (isects : Option Isects) (n k : Int)
    (it : IType) (f : MNet α W → List α → List α → Except Err Bool) :
    Wanted.search conn name (⟨sizes, isects, some n, some k, it, some f⟩ : Wanted α W) = .ok ⟨n, k, f⟩ := by
  simp only [Wanted.search]
  rw [if_neg (by simp)]

end Pymnet
