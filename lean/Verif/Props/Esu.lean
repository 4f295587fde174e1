import Verif.Proofs.EsuMain
import Verif.Props.Sampling

/-! `sample_multilayer_subgraphs_esu` (C58). -/

set_option linter.unusedSectionVars false

namespace Pymnet

open Py

variable {α W β : Type} [DecidableEq α] [DecidableEq W] [DecidableEq β]

variable {m : MNet α W} {z : W} {al : Bool} {S : Nat → α → Prop} {NL : List α → Prop} {R : List α → List α → W}

theorem esu_samples (h : Spec.Looks m 1 z false al S NL R) (conn : MNet β W → Bool) (name : List α → β) {w : Wanted α W} {s : Search α W}
    (hw : w.search conn name = .ok s) {n k : Nat} {G : (List α → Prop) → (List α → List α → W) → List α → List α → Prop}
    (hd : Decides s z n k G) (hn : 1 ≤ n) (hk : 1 ≤ k) (copy : Bool)
    (hself : copy = true → ∀ v, NL v → R v v = z) (pick : List α → Nat) :
    Spec.Samples (S 0) (S 1) n k (Spec.Proper NL fun u v => R u v ≠ z) (G NL R) fun coin => esu conn name w copy z coin pick m := by
  obtain ⟨h1, h2⟩ := esu_spec h conn name hw hd hn hk copy hself pick
  have inS : ∀ (x : α) (l : List α) (i : Nat), NL l → l[i]? = some x → S i x := by
    intro x l i hl hx
    exact ((h.mem_product l).1 (h.nl_product hl)).2 i x hx
  constructor
  · intro coin
    obtain ⟨res, e, p, g⟩ := h1 coin
    refine ⟨res, e, p, fun r hr => ?_⟩
    obtain ⟨a1, a2, a3, a4, a5, a6, a7⟩ := g r hr
    refine ⟨a1, a2, fun x hx => ?_, fun x hx => ?_, a3, a4, a5⟩
    · obtain ⟨l, hl⟩ := a6 x hx
      exact inS x _ 0 hl rfl
    · obtain ⟨l, hl⟩ := a7 x hx
      exact inS x _ 1 hl rfl
  · intro A B dA dB lA lB hp
    obtain ⟨v, -, -, path, p1, p2⟩ := h2 A B dA dB lA lB hp
    exact ⟨v, path, p1, fun coin res hres => (p2 coin res hres).trans and_comm⟩

/-- If all draws succeed, everything is listed. -/
theorem samples_all {nodes layers : α → Prop} {n k : Nat} {P G : List α → List α → Prop}
    {run : (List α → List Nat → Bool) → Except Err (List (List α × List α))} (h : Spec.Samples nodes layers n k P G run)
    (hG : ∀ N N' L L', N.Perm N' → L.Perm L' → G N L → G N' L')
    (hP : ∀ N L : List α, N.length = n → L.length = k → G N L → P N L) :
    ∃ res, run (fun _ _ => true) = .ok res ∧ Spec.ListsOnce nodes layers n k G res := by
  obtain ⟨res, e, p, g⟩ := h.1 fun _ _ => true
  refine ⟨res, e, p, fun N L => ⟨?_, ?_⟩⟩
  · rintro ⟨r, hr, s1, s2⟩
    obtain ⟨a1, a2, a3, a4, a5, a6, a7⟩ := g r hr
    exact ⟨⟨s1.nodup_iff.1 a1, s2.nodup_iff.1 a2, fun x hx => a3 x (s1.mem_iff.2 hx), fun x hx => a4 x (s2.mem_iff.2 hx)⟩,
      by rw [← s1.length_eq, a5], by rw [← s2.length_eq, a6], hG _ _ _ _ s1 s2 a7⟩
  · rintro ⟨⟨a1, a2, a3, a4⟩, a5, a6, a7⟩
    obtain ⟨v, path, -, hh⟩ := h.2 N L a1 a2 a5 a6 (hP N L a5 a6 a7)
    exact (hh _ res e).2 ⟨a7, fun _ _ => rfl⟩

/-- **C58, numbers of nodes and layers.** `sample_multilayer_subgraphs_esu(network,results,nnodes=n,nlayers=k)` samples the
connected subgraphs of `n` nodes and `k` layers with no empty nodes and layers, each with its own `n+k-1` draws, and
if all draws succeed (for example because `p` is not given) it lists exactly these, each once. This holds in both modes;
in the mode that copies the network, `noEdge` has to be `0` and there must be no self-links. -/
theorem C58_nnodes_nlayers_partial (h : Spec.Looks m 1 z false al S NL R) {conn : MNet β W → Bool} (hc : Spec.TestsConnected conn)
    {name : List α → β} (hname : Function.Injective name) {n k : Nat} (hn : 1 ≤ n) (hk : 1 ≤ k)
    (copy : Bool) (hself : copy = true → ∀ v, NL v → R v v = z) (pick : List α → Nat) :
    Spec.Samples (S 0) (S 1) n k (Spec.Proper NL fun u v => R u v ≠ z) (Spec.Proper NL fun u v => R u v ≠ z)
      (fun coin => esu conn name ⟨none, none, some n, some k, .strict, none⟩ copy z coin pick m) ∧
    ∃ res, esu conn name ⟨none, none, some n, some k, .strict, none⟩ copy z (fun _ _ => true) pick m = .ok res ∧
      Spec.ListsOnce (S 0) (S 1) n k (Spec.Proper NL fun u v => R u v ≠ z) res := by
  obtain ⟨s, e, hd⟩ := search_relaxed (α := α) hc hname z hn hk .strict
  have := esu_samples h conn name e hd hn hk copy hself pick
  exact ⟨this, samples_all this (hd.perm NL R) fun _ _ _ _ h => h⟩

/-- **C58, sizes and all intersections.** -/
theorem C58_intersections_partial (h : Spec.Looks m 1 z false al S NL R) {conn : MNet β W → Bool} (hc : Spec.TestsConnected conn)
    {name : List α → β} (hname : Function.Injective name) {sizes isects : List Int} {n : Nat} {k : Int}
    (hr : requiredLengths sizes isects = .ok ((n : Int), k)) (hn : 1 ≤ n) (hk : sizes ≠ [])
    (copy : Bool) (hself : copy = true → ∀ v, NL v → R v v = z) (pick : List α → Nat) :
    Spec.Samples (S 0) (S 1) n sizes.length (Spec.Proper NL fun u v => R u v ≠ z)
      (fun N L => Spec.Proper NL (fun u v => R u v ≠ z) N L ∧ Spec.Fits NL sizes (isects.map some) .strict N L)
      (fun coin => esu conn name ⟨some sizes, some (.list (isects.map some)), none, none, .strict, none⟩ copy z coin pick m) ∧
    ∃ res, esu conn name ⟨some sizes, some (.list (isects.map some)), none, none, .strict, none⟩ copy z (fun _ _ => true) pick m = .ok res ∧
      Spec.ListsOnce (S 0) (S 1) n sizes.length
        (fun N L => Spec.Proper NL (fun u v => R u v ≠ z) N L ∧ Spec.Fits NL sizes (isects.map some) .strict N L) res := by
  obtain ⟨s, e, hd⟩ := search_strict (α := α) hc hname z hr
  have := esu_samples h conn name e hd hn (List.length_pos_iff.2 hk) copy hself pick
  exact ⟨this, samples_all this (hd.perm NL R) fun _ _ _ _ h => h.1⟩

/-- **C58, sizes, intersections (some of which may be `None`, or bounded) and a number of nodes.** -/
theorem C58_nnodes_partial (h : Spec.Looks m 1 z false al S NL R) {conn : MNet β W → Bool} (hc : Spec.TestsConnected conn)
    {name : List α → β} (hname : Function.Injective name) {sizes : List Int} {isects : List (Option Int)} {it : IType} {n : Nat}
    (hs1 : ∀ i ∈ sizes, i ≥ 1) (hi : isects.length = 2 ^ sizes.length - sizes.length - 1)
    (hu : (none ∈ isects ∧ it ≠ .other) ∨ it = .lessOrEqual) (hn : 1 ≤ n) (hk : sizes ≠ [])
    (copy : Bool) (hself : copy = true → ∀ v, NL v → R v v = z) (pick : List α → Nat) :
    Spec.Samples (S 0) (S 1) n sizes.length (Spec.Proper NL fun u v => R u v ≠ z)
      (fun N L => Spec.Proper NL (fun u v => R u v ≠ z) N L ∧ Spec.Fits NL sizes isects it N L)
      (fun coin => esu conn name ⟨some sizes, some (.list isects), some n, none, it, none⟩ copy z coin pick m) ∧
    ∃ res, esu conn name ⟨some sizes, some (.list isects), some n, none, it, none⟩ copy z (fun _ _ => true) pick m = .ok res ∧
      Spec.ListsOnce (S 0) (S 1) n sizes.length
        (fun N L => Spec.Proper NL (fun u v => R u v ≠ z) N L ∧ Spec.Fits NL sizes isects it N L) res := by
  obtain ⟨s, e, hd⟩ := search_nnodes (α := α) hc hname z (n := n) hs1 hi hu
  have := esu_samples h conn name e hd hn (List.length_pos_iff.2 hk) copy hself pick
  exact ⟨this, samples_all this (hd.perm NL R) fun _ _ _ _ h => h.1⟩

/-- **C58, sizes, the number of nodes common to all layers, and a number of nodes.** -/
theorem C58_common_partial (h : Spec.Looks m 1 z false al S NL R) {conn : MNet β W → Bool} (hc : Spec.TestsConnected conn)
    {name : List α → β} (hname : Function.Injective name) {sizes : List Int} {c n : Nat} {it : IType} (hit : it ≠ .other)
    (hs1 : ∀ i ∈ sizes, i ≥ 1) (hs2 : 2 ≤ sizes.length) (hn : 1 ≤ n)
    (copy : Bool) (hself : copy = true → ∀ v, NL v → R v v = z) (pick : List α → Nat) :
    Spec.Samples (S 0) (S 1) n sizes.length (Spec.Proper NL fun u v => R u v ≠ z)
      (fun N L => L.length = sizes.length ∧ Spec.Proper NL (fun u v => R u v ≠ z) N L ∧ Spec.FitsCommon NL sizes c it N L)
      (fun coin => esu conn name ⟨some sizes, some (.common c), some n, none, it, none⟩ copy z coin pick m) ∧
    ∃ res, esu conn name ⟨some sizes, some (.common c), some n, none, it, none⟩ copy z (fun _ _ => true) pick m = .ok res ∧
      Spec.ListsOnce (S 0) (S 1) n sizes.length
        (fun N L => L.length = sizes.length ∧ Spec.Proper NL (fun u v => R u v ≠ z) N L ∧ Spec.FitsCommon NL sizes c it N L) res := by
  obtain ⟨s, e, hd⟩ := search_common (α := α) hc hname z (c := c) (n := n) hit hs1 hs2
  have := esu_samples h conn name e hd hn (by omega) copy hself pick
  exact ⟨this, samples_all this (hd.perm NL R) fun _ _ _ _ h => h.2.1⟩

/-- **C58, own check.** With a check that decides a property `G` of the induced subgraph (for all undirected one-aspect
networks), the sampler samples the connected subgraphs with this property and no empty nodes and layers; everything it
returns has the property. -/
theorem C58_custom_partial (h : Spec.Looks m 1 z false al S NL R) (conn : MNet β W → Bool) (name : List α → β)
    {f : MNet α W → List α → List α → Except Err Bool} {n k : Nat}
    {G : (List α → Prop) → (List α → List α → W) → List α → List α → Prop}
    (hG : ∀ NL R N N' L L', N.Perm N' → L.Perm L' → G NL R N L → G NL R N' L')
    (hR : ∀ NL R R' N L, (∀ u v, NL u → NL v → Spec.Inside N L u → Spec.Inside N L v → R u v = R' u v) → G NL R N L → G NL R' N L)
    (hf : ∀ {m : MNet α W} {al S NL R}, Spec.Looks m 1 z false al S NL R → ∀ N L, N.Nodup → L.Nodup → N.length = n → L.length = k →
      ∃ b, f m N L = .ok b ∧ (b = true ↔ G NL R N L)) (hn : 1 ≤ n) (hk : 1 ≤ k)
    (copy : Bool) (hself : copy = true → ∀ v, NL v → R v v = z) (pick : List α → Nat) :
    Spec.Samples (S 0) (S 1) n k (Spec.Proper NL fun u v => R u v ≠ z) (G NL R)
      (fun coin => esu conn name ⟨none, none, some n, some k, .strict, some f⟩ copy z coin pick m) :=
  esu_samples h conn name (search_custom conn name none none n k .strict f) ⟨rfl, rfl, hf, hG, hR⟩ hn hk copy hself pick

/-! ### Examples -/

private def bfs (g : MNet (List Nat) Int) : Bool :=
  match g.nodeLayers with
  | [] => false
  | v :: _ =>
    let step := fun s : List (List (List Nat)) => toSet (s ++ s.flatMap fun a => g.iterTotal a none)
    decide (((List.range g.nodeLayers.length).foldl (fun s _ => step s) [v]).length = g.nodeLayers.length)

/-- Two layers `10`, `11`; `1–2` and `2–3` on layer `10`, `1–2` on layer `11`, and the inter-layer link of `1`. -/
private def sampleNet : MNet Nat Int := after 1 0 false false
  [.setItem [1, 2, 10] 1, .setItem [2, 3, 10] 1, .setItem [1, 2, 11] 1, .setItem [1, 1, 10, 11] 1]

example : esu bfs id ⟨none, none, some 2, some 1, .strict, none⟩ true 0 (fun _ _ => true) (fun _ => 0) sampleNet =
    .ok [([1, 2], [10]), ([2, 3], [10]), ([1, 2], [11])] := by decide +kernel

example : esu bfs id ⟨none, none, some 3, some 2, .strict, none⟩ false 0 (fun _ _ => true) (fun _ => 0) sampleNet =
    .ok [([1, 2, 3], [10, 11])] := by decide +kernel

/-- One draw on the path fails. -/
example : esu bfs id ⟨none, none, some 3, some 2, .strict, none⟩ true 0 (fun _ t => t ≠ [1]) (fun _ => 0) sampleNet = .ok [] := by
  decide +kernel

example : ∃ (conn : MNet (List Nat) Int → Bool) (res : List (List Nat × List Nat)), Spec.TestsConnected conn ∧
    esu conn id ⟨none, none, some 3, some 2, .strict, none⟩ false 0 (fun _ _ => true) (fun _ => 5) sampleNet = .ok res := by
  obtain ⟨conn, hc⟩ := exists_testsConnected (β := List Nat) (W := Int)
  obtain ⟨-, res, e, -⟩ := C58_nnodes_nlayers_partial (network_looks 1 (0 : Int) false false _) hc
    Function.injective_id (n := 3) (k := 2) (by decide) (by decide) false (by simp) fun _ => 5
  exact ⟨conn, res, hc, e⟩

/-- The property C58 is false for networks with a self-link, in the mode that copies the network (the default): removing
the link raises a `KeyError`. -/
theorem C58_false_selflink : ∃ m : MNet Nat Int, m = after 1 0 false false [.setItem [1, 2, 10] 1, .setItem [1, 1, 10] 1] ∧
    dumbEnumeration bfs id ⟨none, none, some 2, some 1, .strict, none⟩ m = .ok [([1, 2], [10])] ∧
    esu bfs id ⟨none, none, some 2, some 1, .strict, none⟩ true 0 (fun _ _ => true) (fun _ => 0) m = .error .keyError :=
  ⟨_, rfl, by decide +kernel, by decide +kernel⟩

/-- The property C58 is false for networks with a `noEdge` value other than `0`, in the mode that copies the network: links of
weight `0` are not copied. -/
theorem C58_false_noEdge : ∃ m : MNet Nat Int, m = after 1 (-1) false false [.setItem [1, 2, 10] 0] ∧
    dumbEnumeration bfs id ⟨none, none, some 2, some 1, .strict, none⟩ m = .ok [([1, 2], [10])] ∧
    esu bfs id ⟨none, none, some 2, some 1, .strict, none⟩ true 0 (fun _ _ => true) (fun _ => 0) m = .ok [] :=
  ⟨_, rfl, by decide +kernel, by decide +kernel⟩

end Pymnet
