import Verif.Proofs.Usage

/-! Properties C42, C43: requirements on induced subgraphs and their exhaustive enumeration. -/

set_option linter.unusedSectionVars false
set_option linter.unusedSimpArgs false

namespace Pymnet

open Py

variable {α W β : Type} [DecidableEq α] [DecidableEq W] [DecidableEq β]
variable {m : MNet α W} {z : W} {dir al : Bool} {S : Nat → α → Prop} {NL : List α → Prop} {R : List α → List α → W}

/-! ### C42 -/

/-- **C42.** For a non-empty family of non-empty finite sets, given by their sizes and the sizes of the
intersections of two or more of them in the documented order, `default_calculate_required_lengths` returns the
size of the union and the number of sets. -/
theorem C42_required_lengths {γ : Type} [DecidableEq γ] (X : List (Finset γ)) (hne : X ≠ []) (hX : ∀ s ∈ X, s.Nonempty) :
    requiredLengths (X.map fun s => (s.card : Int)) (Spec.intersectionSizes X) =
      .ok (((Spec.union X).card : Int), (X.length : Int)) :=
  requiredLengths_ok X hne hX

example : Spec.intersectionSizes [({1, 2, 3} : Finset Nat), {2, 3, 4, 5}, {3, 5, 7}] = [2, 1, 2, 1] ∧
    requiredLengths [3, 4, 3] [2, 1, 2, 1] = .ok (6, 3) := by decide

/-- Requirements of the wrong number are rejected. -/
theorem C42_rejects {sizes isects : List Int} (h : isects.length ≠ 2 ^ sizes.length - sizes.length - 1) :
    requiredLengths sizes isects = .error .assertionError := by
  unfold requiredLengths
  by_cases h0 : sizes = []
  · rw [if_pos h0]
  · rw [if_neg h0, if_pos h]

example : requiredLengths [3, 4, 3] [2, 1, 2] = .error .assertionError := C42_rejects (by decide)

/-! ### C43 -/

/-- There is a correct connectivity test, so that the hypothesis of the theorems below can be met. -/
theorem exists_testsConnected : ∃ conn : MNet β W → Bool, Spec.TestsConnected conn := by
  classical
  refine ⟨fun g => decide (Spec.Connected (· ∈ g.nodeLayers) fun u v => g.reads u v ≠ g.noEdge), ?_⟩
  intro g z S NL R h
  rw [decide_eq_true_eq]
  refine connected_congr (fun x => h.nodeLayers.2 x) fun x y hx hy => ?_
  rw [h.reads_eq (h.nl_length hx) (h.nl_length hy), h.noEdge_eq]

/-- **C43, own check.** `dumb_enumeration` with a check that always answers, whether a property `G` not depending on
the order of the nodes and layers holds, lists every subgraph with this property once and nothing else. -/
theorem C43_custom (h : Spec.Looks m 1 z dir al S NL R) (conn : MNet β W → Bool) (name : List α → β)
    {f : MNet α W → List α → List α → Except Err Bool} {n k : Nat} {G : List α → List α → Prop}
    (hG : ∀ N N' L L', N.Perm N' → L.Perm L' → G N L → G N' L')
    (hf : ∀ N L, N.Nodup → L.Nodup → N.length = n → L.length = k → ∃ b, f m N L = .ok b ∧ (b = true ↔ G N L)) :
    ∃ res, dumbEnumeration conn name ⟨none, none, some n, some k, .strict, some f⟩ m = .ok res ∧
      Spec.ListsOnce (S 0) (S 1) n k G res := by
  unfold dumbEnumeration
  rw [search_custom]
  exact dumbLoop_spec h rfl rfl hG hf

theorem dumb_decides (h : Spec.Looks m 1 z false al S NL R) {s : Search α W} {n k : Nat}
    {G : (List α → Prop) → (List α → List α → W) → List α → List α → Prop} (hd : Decides s z n k G) :
    ∃ res, dumbLoop m s = .ok res ∧ Spec.ListsOnce (S 0) (S 1) n k (G NL R) res :=
  dumbLoop_spec h hd.rn hd.rl (hd.perm NL R) (hd.check h)

/-- **C43, numbers of nodes and layers.** `dumb_enumeration(network,results,nnodes=n,nlayers=k)` lists exactly the
connected subgraphs of `n` nodes and `k` layers with no empty nodes and layers, each once. -/
theorem C43_nnodes_nlayers (h : Spec.Looks m 1 z false al S NL R) {conn : MNet β W → Bool} (hc : Spec.TestsConnected conn)
    {name : List α → β} (hname : Function.Injective name) {n k : Nat} (hn : 1 ≤ n) (hk : 1 ≤ k) :
    ∃ res, dumbEnumeration conn name ⟨none, none, some n, some k, .strict, none⟩ m = .ok res ∧
      Spec.ListsOnce (S 0) (S 1) n k (Spec.Proper NL fun u v => R u v ≠ z) res := by
  obtain ⟨s, e, hd⟩ := search_relaxed (α := α) hc hname z hn hk .strict
  unfold dumbEnumeration
  rw [e]
  exact dumb_decides h hd

/-- **C43, sizes and all intersections.** `dumb_enumeration(network,results,sizes,intersections)` lists, each
once, the connected subgraphs with no empty nodes and layers whose layers can be ordered so that they have the
required numbers of nodes and the intersections the required sizes. The hypothesis is that the sizes are consistent
in so far as the required number of nodes is not negative. -/
theorem C43_intersections (h : Spec.Looks m 1 z false al S NL R) {conn : MNet β W → Bool} (hc : Spec.TestsConnected conn)
    {name : List α → β} (hname : Function.Injective name) {sizes isects : List Int} {n : Nat} {k : Int}
    (hr : requiredLengths sizes isects = .ok ((n : Int), k)) :
    ∃ res, dumbEnumeration conn name ⟨some sizes, some (.list (isects.map some)), none, none, .strict, none⟩ m = .ok res ∧
      res.Pairwise (fun a b => ¬ Spec.SameSubgraph a b) ∧
      ∀ N L : List α, (∃ r ∈ res, Spec.SameSubgraph r (N, L)) ↔
        (N.Nodup ∧ L.Nodup ∧ (∀ x ∈ N, S 0 x) ∧ ∀ x ∈ L, S 1 x) ∧ L.length = sizes.length ∧
          Spec.Proper NL (fun u v => R u v ≠ z) N L ∧ Spec.Fits NL sizes (isects.map some) .strict N L := by
  obtain ⟨s, e, hd⟩ := search_strict (α := α) hc hname z hr
  obtain ⟨res, e', h1, h2⟩ := dumb_decides h hd
  unfold dumbEnumeration
  rw [e]
  refine ⟨res, e', h1, fun N L => (h2 N L).trans ?_⟩
  constructor
  · rintro ⟨a, -, b, c⟩; exact ⟨a, b, c⟩
  · rintro ⟨a, b, c, d⟩
    refine ⟨a, ?_, b, c, d⟩
    have := strict_length a.1 b.symm hr c d
    simpa using this

/-- **C43, sizes, some intersections and a number of nodes.** -/
theorem C43_nnodes (h : Spec.Looks m 1 z false al S NL R) {conn : MNet β W → Bool} (hc : Spec.TestsConnected conn)
    {name : List α → β} (hname : Function.Injective name) {sizes : List Int} {isects : List (Option Int)} {it : IType} {n : Nat}
    (hs1 : ∀ i ∈ sizes, i ≥ 1) (hi : isects.length = 2 ^ sizes.length - sizes.length - 1)
    (hu : (none ∈ isects ∧ it ≠ .other) ∨ it = .lessOrEqual) :
    ∃ res, dumbEnumeration conn name ⟨some sizes, some (.list isects), some n, none, it, none⟩ m = .ok res ∧
      Spec.ListsOnce (S 0) (S 1) n sizes.length
        (fun N L => Spec.Proper NL (fun u v => R u v ≠ z) N L ∧ Spec.Fits NL sizes isects it N L) res := by
  obtain ⟨s, e, hd⟩ := search_nnodes (α := α) hc hname z (n := n) hs1 hi hu
  unfold dumbEnumeration
  rw [e]
  exact dumb_decides h hd

/-- **C43, sizes, the number of nodes common to all layers, and a number of nodes.** -/
theorem C43_common (h : Spec.Looks m 1 z false al S NL R) {conn : MNet β W → Bool} (hc : Spec.TestsConnected conn)
    {name : List α → β} (hname : Function.Injective name) {sizes : List Int} {c n : Nat} {it : IType} (hit : it ≠ .other)
    (hs1 : ∀ i ∈ sizes, i ≥ 1) (hs2 : 2 ≤ sizes.length) :
    ∃ res, dumbEnumeration conn name ⟨some sizes, some (.common c), some n, none, it, none⟩ m = .ok res ∧
      Spec.ListsOnce (S 0) (S 1) n sizes.length
        (fun N L => Spec.Proper NL (fun u v => R u v ≠ z) N L ∧ Spec.FitsCommon NL sizes c it N L) res := by
  obtain ⟨s, e, hd⟩ := search_common (α := α) hc hname z (c := c) (n := n) hit hs1 hs2
  obtain ⟨res, e', h1, h2⟩ := dumb_decides h hd
  unfold dumbEnumeration
  rw [e]
  refine ⟨res, e', h1, fun N L => (h2 N L).trans ?_⟩
  constructor
  · rintro ⟨a, b, c, -, d⟩; exact ⟨a, b, c, d⟩
  · rintro ⟨a, b, c, d⟩; exact ⟨a, b, c, c, d⟩

/-- A correct test for the small networks of the examples: breadth-first search from the first node-layer. -/
private def bfs (g : MNet (List Nat) Int) : Bool :=
  match g.nodeLayers with
  | [] => false
  | v :: _ =>
    let step := fun s : List (List (List Nat)) => toSet (s ++ s.flatMap fun a => g.iterTotal a none)
    decide (((List.range g.nodeLayers.length).foldl (fun s _ => step s) [v]).length = g.nodeLayers.length)

/-- Two layers `10`, `11`; `1–2` and `2–3` on layer `10`, `1–2` on layer `11`, and the inter-layer link of `1`. -/
private def sampleNet : MNet Nat Int := after 1 0 false false
  [.setItem [1, 2, 10] 1, .setItem [2, 3, 10] 1, .setItem [1, 2, 11] 1, .setItem [1, 1, 10, 11] 1]

example : dumbEnumeration bfs id ⟨none, none, some 2, some 1, .strict, none⟩ sampleNet =
    .ok [([1, 2], [10]), ([1, 2], [11]), ([2, 3], [10])] := by decide +kernel

example : dumbEnumeration bfs id ⟨some [2, 2], some (.list [some 2]), none, none, .strict, none⟩ sampleNet =
    .ok [([1, 2], [10, 11])] := by decide +kernel

example : dumbEnumeration bfs id ⟨some [2, 3], some (.common 2), some 3, none, .strict, none⟩ sampleNet =
    .ok [([1, 2, 3], [10, 11])] := by decide +kernel

example : dumbEnumeration bfs id ⟨some [2, 3], some (.list [some 2]), some 3, none, .lessOrEqual, none⟩ sampleNet =
    .ok [([1, 2, 3], [10, 11])] := by decide +kernel

example : ∃ (conn : MNet (List Nat) Int → Bool) (res : List (List Nat × List Nat)), Spec.TestsConnected conn ∧
    dumbEnumeration conn id ⟨none, none, some 3, some 2, .strict, none⟩ sampleNet = .ok res := by
  obtain ⟨conn, hc⟩ := exists_testsConnected (β := List Nat) (W := Int)
  obtain ⟨res, e, -⟩ := C43_nnodes_nlayers (network_looks 1 (0 : Int) false false _) hc
    Function.injective_id (n := 3) (k := 2) (by decide) (by decide)
  exact ⟨conn, res, hc, e⟩

end Pymnet
