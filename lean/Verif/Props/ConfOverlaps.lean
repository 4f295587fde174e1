import Verif.Proofs.OvReach

/-! Properties C77 and C78: the configuration model with given overlap degrees. -/

set_option linter.unusedSectionVars false

namespace Pymnet

open Py Models MPlex

variable {α W : Type} [DecidableEq α] [DecidableEq W] [LinearOrder α] [Zero W] [One W]

/-- a node has a neighbour exactly if its degree is not 0 -/
theorem Spec.HasDegrees.pos {R : α → α → W} {deg : α → Nat} (h : Spec.HasDegrees R deg) (a : α) :
    (∃ b, R a b = 1) ↔ 0 < deg a := by
  obtain ⟨L, -, l2, l3⟩ := h.degree a
  rw [← l3, List.length_pos_iff_exists_mem]
  exact exists_congr fun b => (l2 b).symm

open Classical in
/-- the nodes and layers of the result -/
theorem OvBuilt.looks [IntNames α] {coupling : Coupling α W} {degs : Dict (List α) (Dict α Nat)} {R : List α → α → α → W}
    {p : MPlex α W} (h : OvBuilt coupling (degs.map Prod.fst) R p)
    (hR : ∀ c ∈ degs, Spec.HasDegrees (R c.1) (Spec.overlapDegree c.2)) :
    Spec.LooksPlex p coupling true (fun x => ∃ c ∈ degs, c.1 ≠ [] ∧ 0 < Spec.overlapDegree c.2 x)
      (fun s => ∃ c ∈ degs, s ∈ c.1 ∧ ∃ x, 0 < Spec.overlapDegree c.2 x)
      (fun x _ => ∃ c ∈ degs, c.1 ≠ [] ∧ 0 < Spec.overlapDegree c.2 x)
      (fun s a b => if ∃ c ∈ degs, s ∈ c.1 ∧ R c.1 a b = 1 then 1 else 0) := by
  have hS : ∀ x, (∃ c ∈ degs.map Prod.fst, c ≠ [] ∧ ∃ b, R c x b = 1) ↔
      ∃ c ∈ degs, c.1 ≠ [] ∧ 0 < Spec.overlapDegree c.2 x := by
    intro x
    simp only [List.mem_map, exists_exists_and_eq_and]
    exact exists_congr fun c => and_congr_right fun hc => and_congr_right fun _ => (hR c hc).pos x
  have hL : ∀ s, (∃ c ∈ degs.map Prod.fst, s ∈ c ∧ ∃ a b, R c a b = 1) ↔
      ∃ c ∈ degs, s ∈ c.1 ∧ ∃ x, 0 < Spec.overlapDegree c.2 x := by
    intro x
    simp only [List.mem_map, exists_exists_and_eq_and]
    exact exists_congr fun c => and_congr_right fun hc => and_congr_right fun _ => exists_congr fun x => (hR c hc).pos x
  have := (BuiltP.congr h hS hL (fun _ _ => Iff.rfl) (R' := fun s a b => if ∃ c ∈ degs, s ∈ c.1 ∧ R c.1 a b = 1 then 1 else 0)
    (fun s a b => ite_iff (by simp only [List.mem_map, exists_exists_and_eq_and]))).looks
  simpa using this

/-- **C77.** Whatever the random outcomes: if `conf_overlaps` returns, every layer combination `c` has its own simple
network `R c`, in which each node has exactly the degree given for `c`; no link is in the networks of two combinations.
The result has on each layer exactly the links of the combinations with this layer. Its nodes and layers are those of
the combinations with a positive degree. -/
theorem C77_links [NeZero (1 : W)] [IntNames α] {degs : Dict (List α) (Dict α Nat)} (hk : (degs.map Prod.fst).Nodup)
    (hkd : ∀ c ∈ degs, (c.2.map Prod.fst).Nodup) (coupling : Coupling α W) (rnd : List α → ConfRandom α) {p : MPlex α W}
    (h : confOverlaps degs coupling rnd = .ok p) :
    ∃ (R : List α → α → α → W) (R' : α → α → α → W),
      (∀ c ∈ degs, Spec.HasDegrees (R c.1) (Spec.overlapDegree c.2)) ∧
      (∀ c ∈ degs, ∀ c' ∈ degs, c.1 ≠ c'.1 → ∀ a b, R c.1 a b = 1 → R c'.1 a b = 0) ∧
      (∀ s a b, (R' s a b = 0 ∨ R' s a b = 1) ∧ (R' s a b = 1 ↔ ∃ c ∈ degs, s ∈ c.1 ∧ R c.1 a b = 1)) ∧
      Spec.LooksPlex p coupling true (fun x => ∃ c ∈ degs, c.1 ≠ [] ∧ 0 < Spec.overlapDegree c.2 x)
        (fun s => ∃ c ∈ degs, s ∈ c.1 ∧ ∃ x, 0 < Spec.overlapDegree c.2 x)
        (fun x _ => ∃ c ∈ degs, c.1 ≠ [] ∧ 0 < Spec.overlapDegree c.2 x) R' := by
  classical
  obtain ⟨R, used, hi⟩ := (confOverlaps_ends coupling hk hkd rnd).ok h
  refine ⟨R, _, hi.degs, hi.disj, fun s a b => ⟨?_, ?_⟩, OvBuilt.looks hi.net hi.degs⟩
  · by_cases hc : ∃ c ∈ degs, s ∈ c.1 ∧ R c.1 a b = 1
    · exact .inr (if_pos hc)
    · exact .inl (if_neg hc)
  · by_cases hc : ∃ c ∈ degs, s ∈ c.1 ∧ R c.1 a b = 1
    · exact ⟨fun _ => hc, fun _ => if_pos hc⟩
    · refine ⟨fun e => ?_, fun hc' => absurd hc' hc⟩
      rw [if_neg hc] at e
      exact absurd e (NeZero.ne' 1)

/-- **C77**, overlap degrees: if no two combinations have the same layers and none is empty, then for each combination
each node has exactly the given number of neighbours to which it is linked on exactly the layers of the combination. A
pair of nodes that is linked is linked on exactly the layers of one of the combinations. -/
theorem C77_overlap [NeZero (1 : W)] [IntNames α] {degs : Dict (List α) (Dict α Nat)} (hk : (degs.map Prod.fst).Nodup)
    (hkd : ∀ c ∈ degs, (c.2.map Prod.fst).Nodup) (hne : ∀ c ∈ degs, c.1 ≠ [])
    (hset : ∀ c ∈ degs, ∀ c' ∈ degs, (∀ s, s ∈ c.1 ↔ s ∈ c'.1) → c.1 = c'.1)
    (coupling : Coupling α W) (rnd : List α → ConfRandom α) {p : MPlex α W}
    (h : confOverlaps degs coupling rnd = .ok p) :
    ∃ R : α → α → α → W,
      Spec.LooksPlex p coupling true (fun x => ∃ c ∈ degs, 0 < Spec.overlapDegree c.2 x)
        (fun s => ∃ c ∈ degs, s ∈ c.1 ∧ ∃ x, 0 < Spec.overlapDegree c.2 x)
        (fun x _ => ∃ c ∈ degs, 0 < Spec.overlapDegree c.2 x) R ∧
      (∀ s a b, (R s a b = 0 ∨ R s a b = 1) ∧ R s a b = R s b a ∧ R s a a = 0) ∧
      (∀ c ∈ degs, ∀ a, Spec.HasOverlap R c.1 a (Spec.overlapDegree c.2 a)) ∧
      (∀ s a b, R s a b = 1 → ∃ c ∈ degs, ∀ s', R s' a b = 1 ↔ s' ∈ c.1) := by
  obtain ⟨R, R', h1, h2, h3, h4⟩ := C77_links hk hkd coupling rnd h
  have hex : ∀ c ∈ degs, ∀ a b, R c.1 a b = 1 → ∀ s, R' s a b = 1 ↔ s ∈ c.1 := by
    intro c hc a b hab s
    rw [(h3 s a b).2]
    constructor
    · rintro ⟨c', hc', hs, hab'⟩
      by_cases e : c.1 = c'.1
      · rw [e]; exact hs
      · rw [h2 c hc c' hc' e a b hab] at hab'; exact absurd hab' (NeZero.ne' 1)
    · exact fun hs => ⟨c, hc, hs, hab⟩
  refine ⟨R', ?_, fun s a b => ⟨(h3 s a b).1, ?_, ?_⟩, fun c hc a => ?_, fun s a b hab => ?_⟩
  · have : ∀ x, (∃ c ∈ degs, c.1 ≠ [] ∧ 0 < Spec.overlapDegree c.2 x) ↔ ∃ c ∈ degs, 0 < Spec.overlapDegree c.2 x :=
      fun x => exists_congr fun c => and_congr_right fun hc => and_iff_right (hne c hc)
    simpa only [this] using h4
  · have hs : R' s a b = 1 ↔ R' s b a = 1 := by
      rw [(h3 s a b).2, (h3 s b a).2]
      exact exists_congr fun c => and_congr_right fun hc => and_congr_right fun _ => by rw [(h1 c hc).symm]
    rcases (h3 s a b).1 with e | e <;> rcases (h3 s b a).1 with e' | e'
    · rw [e, e']
    · rw [hs.2 e'] at e; exact absurd e one_ne_zero
    · rw [hs.1 e] at e'; exact absurd e' one_ne_zero
    · rw [e, e']
  · refine ((h3 s a a).1).resolve_right fun e => ?_
    obtain ⟨c, hc, -, e⟩ := (h3 s a a).2.1 e
    rw [(h1 c hc).noSelf] at e
    exact absurd e (NeZero.ne' 1)
  · obtain ⟨L, l1, l2, l3⟩ := (h1 c hc).degree a
    refine ⟨L, l1, fun b => (l2 b).trans ⟨hex c hc a b, fun hs => ?_⟩, l3⟩
    obtain ⟨s, hsc⟩ := List.exists_mem_of_ne_nil _ (hne c hc)
    obtain ⟨c', hc', -, hab⟩ := (h3 s a b).2.1 ((hs s).2 hsc)
    rw [hset c hc c' hc' fun s => (hs s).symm.trans (hex c' hc' a b hab s)]
    exact hab
  · obtain ⟨c, hc, -, hab⟩ := (h3 s a b).2.1 hab
    exact ⟨c, hc, hex c hc a b hab⟩

/-- **C77**, exceptions: `conf_overlaps` raises only AssertionError, for a combination whose degrees have an odd sum or one
that exceeds `n*(n-1)` for its `n` nodes, or ValueError, for a combination with degree sum 2. -/
theorem C77_errors [NeZero (1 : W)] {degs : Dict (List α) (Dict α Nat)} (hk : (degs.map Prod.fst).Nodup)
    (hkd : ∀ c ∈ degs, (c.2.map Prod.fst).Nodup) (coupling : Coupling α W) (rnd : List α → ConfRandom α) {e : Err}
    (h : confOverlaps degs coupling rnd = .error (.raised e)) :
    ∃ c ∈ degs, (e = .assertionError ∧ ((c.2.map Prod.snd).sum % 2 ≠ 0 ∨
        List.length c.2 * (List.length c.2 - 1) < (c.2.map Prod.snd).sum)) ∨
      (e = .valueError ∧ (c.2.map Prod.snd).sum = 2) :=
  (confOverlaps_ends coupling hk hkd rnd).err h

/-- **C77**: if some combination has an odd sum of degrees or too large a sum, `conf_overlaps` does not return. -/
theorem C77_refuses [NeZero (1 : W)] {degs : Dict (List α) (Dict α Nat)} (hk : (degs.map Prod.fst).Nodup)
    (hkd : ∀ c ∈ degs, (c.2.map Prod.fst).Nodup) (coupling : Coupling α W) (rnd : List α → ConfRandom α)
    {c : List α × Dict α Nat} (hc : c ∈ degs)
    (hbad : (c.2.map Prod.snd).sum % 2 ≠ 0 ∨ List.length c.2 * (List.length c.2 - 1) < (c.2.map Prod.snd).sum)
    (p : MPlex α W) : confOverlaps degs coupling rnd ≠ .ok p := by
  intro h
  obtain ⟨R, used, hi⟩ := (confOverlaps_ends coupling hk hkd rnd).ok h
  have := hi.even c hc
  omega

open Classical in
/-- **C77**, completeness: any family of simple networks with the given degrees and without common links is the result
for some random outcomes. -/
theorem C77_reaches [NeZero (1 : W)] [IntNames α] {degs : Dict (List α) (Dict α Nat)} (hk : (degs.map Prod.fst).Nodup)
    (hkd : ∀ c ∈ degs, (c.2.map Prod.fst).Nodup) (coupling : Coupling α W) {R : List α → α → α → W}
    (hR : ∀ c ∈ degs, Spec.HasDegrees (R c.1) (Spec.overlapDegree c.2))
    (hdis : ∀ c ∈ degs, ∀ c' ∈ degs, c.1 ≠ c'.1 → ∀ a b, R c.1 a b = 1 → R c'.1 a b = 0) :
    ∃ rnd p, confOverlaps degs coupling rnd = .ok p ∧
      Spec.LooksPlex p coupling true (fun x => ∃ c ∈ degs, c.1 ≠ [] ∧ 0 < Spec.overlapDegree c.2 x)
        (fun s => ∃ c ∈ degs, s ∈ c.1 ∧ ∃ x, 0 < Spec.overlapDegree c.2 x)
        (fun x _ => ∃ c ∈ degs, c.1 ≠ [] ∧ 0 < Spec.overlapDegree c.2 x)
        (fun s a b => if ∃ c ∈ degs, s ∈ c.1 ∧ R c.1 a b = 1 then 1 else 0) := by
  obtain ⟨rnd, p, h1, h2⟩ := confOverlaps_reaches coupling hk hkd hR hdis
  exact ⟨rnd, p, h1, h2.looks hR⟩

private def ovDegs : Dict (List Int) (Dict Int Nat) :=
  [([7], [(0, 2), (1, 2), (2, 2), (3, 2), (4, 2), (5, 0)]), ([7, 8], [(0, 1), (2, 1), (1, 0), (5, 0)])]

/-- the first combination repairs a self-link; in the second one the link 0-2 is free -/
private def ovRnd (c : List Int) : ConfRandom Int :=
  if c = [7] then ⟨[], [0, 0, 1, 2, 3, 4, 2, 3, 1, 4], [], [(3, 2), (1, 2)], []⟩ else ⟨[], [0, 2], [], [], []⟩

private def okP (x : Except Stop (MPlex Int Int)) : Bool :=
  match x with
  | .ok _ => true
  | _ => false

private def raisesP (x : Except Stop (MPlex Int Int)) : Option Err :=
  match x with
  | .error (.raised e) => some e
  | _ => none

example : (ovDegs.map Prod.fst).Nodup := by decide
example : ∀ c ∈ ovDegs, (c.2.map Prod.fst).Nodup := by decide
example : ∀ c ∈ ovDegs, c.1 ≠ [] := by decide
example : ∀ c ∈ ovDegs, ∀ c' ∈ ovDegs, (∀ s, s ∈ c.1 ↔ s ∈ c'.1) → c.1 = c'.1 := by
  intro c hc c' hc' h
  simp only [ovDegs, List.mem_cons, List.not_mem_nil, or_false] at hc hc'
  have := h 8
  rcases hc with rfl | rfl <;> rcases hc' with rfl | rfl <;> simp at this ⊢
example : okP (confOverlaps ovDegs (.categorical 1) ovRnd) = true := by decide +kernel
-- a link that the first combination has taken is replaced
example : okP (confOverlaps [([7], [(0, 1), (1, 1), (2, 1), (3, 1), (4, 1), (5, 1)]),
    ([8], [(0, 1), (1, 1), (2, 1), (3, 1), (4, 1), (5, 1)])] (.ordinal 1) fun c =>
      if c = [7] then ⟨[], [0, 1, 2, 5, 3, 4], [], [], []⟩ else ⟨[], [0, 1, 2, 3, 4, 5], [], [(1, 2)], [(0, 1)]⟩) = true := by
  decide +kernel
-- the exceptions
example : raisesP (confOverlaps [([7], [(0, 1), (1, 0)])] (.categorical 1) ovRnd) = some .assertionError := by
  decide +kernel
example : raisesP (confOverlaps [([7], [(0, 1), (1, 1)]), ([8], [(0, 1), (1, 1)])] (.categorical 1)
    fun c => ⟨[], [0, 1], [], [], if c = [7] then [] else [(0, 1)]⟩) = some .valueError := by decide +kernel

/-! ### C78: nodes without links -/

/-- **C78_partial.** The nodes of the result are exactly those with a positive degree for a nonempty combination, and its
layers those of the combinations with a link. (All given nodes: see the negation.) -/
theorem C78_nodes_partial [NeZero (1 : W)] [IntNames α] {degs : Dict (List α) (Dict α Nat)}
    (hk : (degs.map Prod.fst).Nodup) (hkd : ∀ c ∈ degs, (c.2.map Prod.fst).Nodup) (coupling : Coupling α W)
    (rnd : List α → ConfRandom α) {p : MPlex α W} (h : confOverlaps degs coupling rnd = .ok p) :
    (∃ l, p.iterNodes none = .ok l ∧ l.Nodup ∧ ∀ x, x ∈ l ↔ ∃ c ∈ degs, c.1 ≠ [] ∧ 0 < Spec.overlapDegree c.2 x) ∧
      ∀ L, L ∈ p.iterLayers ↔ ∃ s, L = .el s ∧ ∃ c ∈ degs, s ∈ c.1 ∧ ∃ x, 0 < Spec.overlapDegree c.2 x := by
  obtain ⟨R, R', -, -, -, h4⟩ := C77_links hk hkd coupling rnd h
  exact ⟨h4.nodes, h4.layers.2⟩

/-- **C78 is false**: a node whose degrees are all 0 is given to `conf_overlaps` but is not in the network it
returns (`conf` and `er` return all nodes). -/
theorem C78_false_nodes [NeZero (1 : W)] [IntNames α] {degs : Dict (List α) (Dict α Nat)} (hk : (degs.map Prod.fst).Nodup)
    (hkd : ∀ c ∈ degs, (c.2.map Prod.fst).Nodup) (coupling : Coupling α W) (rnd : List α → ConfRandom α) {p : MPlex α W}
    (h : confOverlaps degs coupling rnd = .ok p) {x : α} (hx : ∀ c ∈ degs, Spec.overlapDegree c.2 x = 0) :
    ∃ l, p.iterNodes none = .ok l ∧ x ∉ l := by
  obtain ⟨R, R', -, -, -, h4⟩ := C77_links hk hkd coupling rnd h
  obtain ⟨l, e1, -, e2⟩ := h4.nodes
  refine ⟨l, e1, fun hl => ?_⟩
  obtain ⟨c, hc, -, hp⟩ := (e2 x).1 hl
  rw [hx c hc] at hp
  exact absurd hp (Nat.lt_irrefl 0)

-- node 5 is given in both combinations
example : (∃ c ∈ ovDegs, (5 : Int) ∈ c.2.map Prod.fst) ∧ ∀ c ∈ ovDegs, Spec.overlapDegree c.2 5 = 0 := by decide

/-- two disjoint paths 0-1-2 (layer 7) and the link 0-2 (layers 7 and 8) -/
example : Spec.HasDegrees (fun a b : Int => if (a = 0 ∧ b = 2) ∨ (a = 2 ∧ b = 0) then (1 : Int) else 0)
    (Spec.overlapDegree [(0, 1), (2, 1), (1, 0), (5, 0)]) := by
  refine ⟨fun a b => by split <;> simp, fun a b => ?_, fun a => ?_, fun a => ?_⟩
  · have : ((a = 0 ∧ b = 2) ∨ (a = 2 ∧ b = 0)) ↔ ((b = 0 ∧ a = 2) ∨ (b = 2 ∧ a = 0)) := by omega
    simp only [this]
  · rw [if_neg (by omega)]
  · by_cases h0 : a = 0
    · exact ⟨[2], by simp, fun b => by subst h0; simp, by subst h0; rfl⟩
    by_cases h2 : a = 2
    · exact ⟨[0], by simp, fun b => by subst h2; simp, by subst h2; rfl⟩
    refine ⟨[], by simp, fun b => by simp [h0, h2], ?_⟩
    by_cases h1 : a = 1
    · subst h1; rfl
    by_cases h5 : a = 5
    · subst h5; rfl
    rw [Spec.overlapDegree, Dict.get_eq_none.2 (by simp [Dict.keys, h0, h1, h2, h5])]
    rfl

end Pymnet
