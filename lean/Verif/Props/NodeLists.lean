import Verif.Model.NodeLists
import Verif.Props.Creators

/-! C153: `random_nodelists`, alone and as the argument of `er_multilayer_partially_interconnected`. -/

set_option linter.unusedSectionVars false

namespace Pymnet

open Py Models

variable {α W : Type} [DecidableEq α] [DecidableEq W] [Zero W] [One W]

/-- `k` different numbers of the pool `0, …, pool-1`. -/
def Spec.IsSample (pool k : Nat) (s : List Nat) : Prop := s.Nodup ∧ s.length = k ∧ ∀ x ∈ s, x < pool

theorem randomSample_ok {pool k : Nat} {s l : List Nat} :
    randomSample pool k s = .ok l ↔ l = s ∧ Spec.IsSample pool k s := by
  unfold randomSample Spec.IsSample
  by_cases h : pool < k
  · rw [if_pos h]
    refine ⟨fun e => (by cases e), fun ⟨_, h1, h2, h3⟩ => ?_⟩
    have := (List.subperm_of_subset h1 (l₂ := List.range pool) (fun x hx => List.mem_range.2 (h3 x hx))).length_le
    rw [List.length_range] at this
    omega
  · rw [if_neg h]
    split_ifs with hs
    · exact ⟨fun e => (by cases e; exact ⟨rfl, hs⟩), fun ⟨e, _⟩ => by rw [e]⟩
    · exact ⟨fun e => (by cases e), fun ⟨_, h⟩ => absurd h hs⟩

theorem nodeListsFor_ok {pool k : Nat} {draws : Nat → List Nat} (is : List Nat) {l : List (List Nat)} :
    nodeListsFor false pool k draws is = .ok l ↔ l = is.map draws ∧ ∀ i ∈ is, Spec.IsSample pool k (draws i) := by
  induction is generalizing l with
  | nil => simp [nodeListsFor, eq_comm]
  | cons i is ih =>
    unfold nodeListsFor
    rw [if_neg (by simp)]
    rcases e : randomSample pool k (draws i) with x | s
    · constructor
      · intro e; cases e
      · rintro ⟨-, h⟩
        have := randomSample_ok.2 ⟨rfl, h i (by simp)⟩
        rw [this] at e; cases e
    · obtain ⟨rfl, hs⟩ := randomSample_ok.1 e
      rcases e' : nodeListsFor false pool k draws is with x | l'
      · constructor
        · intro e; cases e
        · rintro ⟨-, h⟩
          rw [ih.2 ⟨rfl, fun j hj => h j (List.mem_cons_of_mem _ hj)⟩] at e'; cases e'
      · obtain ⟨rfl, hl⟩ := ih.1 e'
        constructor
        · intro e; cases e
          exact ⟨rfl, fun j hj => by rcases List.mem_cons.1 hj with rfl | hj; exacts [hs, hl j hj]⟩
        · rintro ⟨rfl, -⟩; rfl

/-- **C153 in Python 2.** Whatever is drawn, `random_nodelists(pool,k,layers)` yields `layers` lists of `k` different numbers of the
pool; and all sequences of such lists can be drawn. -/
theorem C153_nodelists_partial (pool k layers : Nat) (lists : List (List Nat)) :
    (∃ draws, nodeLists false pool k layers draws = .ok lists) ↔
      lists.length = layers ∧ ∀ s ∈ lists, Spec.IsSample pool k s := by
  unfold nodeLists
  constructor
  · rintro ⟨draws, e⟩
    obtain ⟨rfl, h⟩ := (nodeListsFor_ok _).1 e
    refine ⟨by simp, fun s hs => ?_⟩
    obtain ⟨i, hi, rfl⟩ := List.mem_map.1 hs
    exact h i hi
  · rintro ⟨rfl, h⟩
    refine ⟨fun i => lists.getD i [], (nodeListsFor_ok _).2 ⟨?_, fun i hi => ?_⟩⟩
    · apply List.ext_getElem (by simp)
      intro i h1 h2
      simp [List.getElem?_eq_getElem h1]
    · have hi := List.mem_range.1 hi
      have e : lists.getD i [] = lists[i] := by simp [hi]
      show Spec.IsSample pool k (lists.getD i [])
      rw [e]
      exact h _ (List.getElem_mem hi)

/-- If the pool is large enough there is something to draw, and nothing is raised. -/
theorem C153_enough (pool k layers : Nat) (hk : k ≤ pool) :
    (∃ draws lists, nodeLists false pool k layers draws = .ok lists) ∧
      ∀ draws e, nodeLists false pool k layers draws ≠ .error (.raised e) := by
  constructor
  · obtain ⟨draws, h⟩ := (C153_nodelists_partial pool k layers (List.replicate layers (List.range k))).2
      ⟨by simp, fun s hs => by
        obtain ⟨-, rfl⟩ := List.mem_replicate.1 hs
        exact ⟨List.nodup_range, by simp, fun x hx => by have := List.mem_range.1 hx; omega⟩⟩
    exact ⟨draws, _, h⟩
  · intro draws e
    unfold nodeLists
    induction List.range layers with
    | nil => simp [nodeListsFor]
    | cons i is ih =>
      unfold nodeListsFor randomSample
      rw [if_neg (by simp), if_neg (by omega)]
      split_ifs with h
      · dsimp only
        rcases e' : nodeListsFor false pool k draws is with x | l
        · dsimp only; rw [← e']; exact ih
        · simp
      · simp

/-- More nodes per layer than the pool has are refused, unless there are no layers. -/
theorem C153_refused (pool k layers : Nat) (hk : pool < k) (draws : Nat → List Nat) :
    nodeLists false pool k layers draws = if layers = 0 then .ok [] else .error (.raised .valueError) := by
  unfold nodeLists
  cases layers with
  | zero => rfl
  | succ n =>
    rw [List.range_succ_eq_map]
    simp [nodeListsFor, randomSample, hk]

/-- **C153 in Python 2, the network.** With the lists of `random_nodelists(pool,k,layers)`, whatever is drawn and whatever the random
numbers are, `er_multilayer_partially_interconnected` returns a network whose layers are `0, …, layers-1`, also those without nodes;
every layer has exactly `k` nodes, all of the pool, and they are those drawn for it; there are no other nodes. -/
theorem C153_network_partial (ix : Nat → α) (hix : Function.Injective ix) (pool k layers : Nat) (p : ℝ) (r : Nat → Nat → ℝ)
    (draws : Nat → List Nat) (hd : ∀ i < layers, Spec.IsSample pool k (draws i)) :
    ∃ m S NL R, (erRandom false ix pool k layers draws p r : Except Stop (MNet α W)) = .ok m ∧ Spec.Looks m 1 0 false false S NL R ∧
      (∀ x, S 1 x ↔ ∃ i < layers, x = ix i) ∧
      (∀ x, S 0 x ↔ ∃ i < layers, ∃ j ∈ draws i, x = ix j) ∧
      (∀ i < layers, ∀ x, NL [x, ix i] ↔ ∃ j ∈ draws i, x = ix j) ∧
      ∀ i < layers, {x | NL [x, ix i]}.ncard = k ∧ ∀ x, NL [x, ix i] → ∃ j < pool, x = ix j := by
  have e : nodeLists false pool k layers draws = .ok ((List.range layers).map draws) :=
    (nodeListsFor_ok _).2 ⟨rfl, fun i hi => hd i (List.mem_range.1 hi)⟩
  obtain ⟨m, R, order, em, -, -, hl, -⟩ :=
    C117_er_pairs (W := W) ix (((List.range layers).map draws).map fun l => l.map ix) p r
  have hget : ∀ i ns, (((List.range layers).map draws).map fun l => l.map ix)[i]? = some ns ↔ i < layers ∧ ns = (draws i).map ix := by
    intro i ns
    by_cases hi : i < layers
    · simp [hi, eq_comm]
    · simp [hi]
  have hNL : ∀ i < layers, ∀ x, Spec.ListedOn ix (((List.range layers).map draws).map fun l => l.map ix) [x, ix i] ↔
      ∃ j ∈ draws i, x = ix j := by
    intro i hi x
    constructor
    · rintro ⟨i', ns, n, h1, h2, h3⟩
      obtain ⟨-, rfl⟩ := (hget _ _).1 h1
      simp only [List.cons.injEq, and_true] at h3
      obtain ⟨rfl, h4⟩ := h3
      obtain rfl := hix h4
      obtain ⟨j, hj, rfl⟩ := List.mem_map.1 h2
      exact ⟨j, hj, rfl⟩
    · rintro ⟨j, hj, rfl⟩
      exact ⟨i, _, ix j, (hget _ _).2 ⟨hi, rfl⟩, List.mem_map_of_mem hj, rfl⟩
  refine ⟨m, _, _, R, by unfold erRandom; rw [e]; simp only; rw [em], hl, fun x => ?_, fun x => ?_, hNL, fun i hi => ⟨?_, fun x hx => ?_⟩⟩
  · simp
  · simp [eq_comm]
  · have hset : {x | Spec.ListedOn ix (((List.range layers).map draws).map fun l => l.map ix) [x, ix i]} =
        (((draws i).toFinset.image ix : Finset α) : Set α) := by
      ext x
      rw [Set.mem_ofPred_eq, hNL i hi]
      simp [eq_comm]
    obtain ⟨h1, h2, -⟩ := hd i hi
    rw [hset, Set.ncard_coe_finset, Finset.card_image_of_injective _ hix, List.toFinset_card_of_nodup h1, h2]
  · obtain ⟨j, hj, rfl⟩ := (hNL i hi x).1 hx
    exact ⟨j, (hd i hi).2.2 j hj, rfl⟩

/-- **C153 is false in Python 3**: the generator, and the function that reads it, raise `NameError` whatever the arguments are and
whatever would be drawn, as soon as there is a layer. -/
theorem C153_false_python3 (ix : Nat → α) (pool k layers : Nat) (h : 0 < layers) (draws : Nat → List Nat) (p : ℝ) (r : Nat → Nat → ℝ) :
    nodeLists true pool k layers draws = .error (.raised .nameError) ∧
      (erRandom true ix pool k layers draws p r : Except Stop (MNet α W)) = .error (.raised .nameError) := by
  have e : nodeLists true pool k layers draws = .error (.raised .nameError) := by
    obtain ⟨n, rfl⟩ : ∃ n, layers = n + 1 := ⟨layers - 1, by omega⟩
    unfold nodeLists
    rw [List.range_succ_eq_map]
    rfl
  exact ⟨e, by unfold erRandom; rw [e]⟩

/-! ### the hypotheses can be met -/

example : Spec.IsSample 5 3 [4, 0, 2] := ⟨by decide, rfl, by decide⟩

example : nodeLists false 5 3 2 (fun i => if i = 0 then [4, 0, 2] else [1, 2, 3]) = .ok [[4, 0, 2], [1, 2, 3]] := by decide

example : nodeLists false 5 6 2 (fun _ => []) = .error (.raised .valueError) := C153_refused 5 6 2 (by decide) _

example : ∃ m, (erRandom false id 5 3 2 (fun i => if i = 0 then [4, 0, 2] else [1, 2, 3]) (1 / 2) (fun _ _ => 0) :
    Except Stop (MNet Nat Int)) = .ok m := by
  obtain ⟨m, _, _, _, e, -⟩ := C153_network_partial (W := Int) id Function.injective_id 5 3 2 (1 / 2) (fun _ _ => 0)
    (fun i => if i = 0 then [4, 0, 2] else [1, 2, 3]) (by unfold Spec.IsSample; decide)
  exact ⟨m, e⟩

end Pymnet
