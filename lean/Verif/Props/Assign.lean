import Verif.Proofs.Assign
import Verif.Proofs.Looks
import Verif.Props.PlexSubnet

/-! Property C113: replacing an intra-layer network. -/

set_option linter.unusedSectionVars false
set_option linter.unusedSimpArgs false

namespace Pymnet

open Py MPlex

variable {α W : Type} [DecidableEq α] [DecidableEq W] [Zero W]

/-- **C113 for node-aligned networks.** After `net.A[s]=val` the links of layer `s` are those of the monoplex network `val`, all other
links and the layers are as before, and the nodes of `val` have been added: the result is the network of a history with this content, so
everything proved about networks made by calls holds for it. Missing: networks that are not node-aligned (`C113_false`). -/
theorem C113_assign_partial {cs : List (Coupling α W)} (hcs : cs ≠ []) (dir : Bool) (z : W) (ops : List (POp α W)) {s : List α}
    (hs : Spec.HasLayer cs.length true ops (.ofList s)) {val : MNet α W} {S : Nat → α → Prop} {NL : List α → Prop}
    {R : List α → List α → W} (hv : Spec.Looks val 0 0 dir true S NL R) :
    ∃ ops', (afterP cs dir z true ops).assignA (.ofList s) val = (afterP cs dir z true ops', none) ∧
      Spec.Replaced cs.length dir ops s (S 0) (fun i j => R [i] [j]) ops' := by
  classical
  have hb := built_addEmpty (dir := dir) (z := z) hcs hs
  have hb' := hb.forget (ns' := Spec.NoIntraSelf ops ∧ ∀ i, R [i] [i] = 0) And.left
  have hmem : ∀ x, x ∈ val.slices.headD [] ↔ S 0 x := by
    intro x
    rw [← hv.inSlice (k := 0) (Nat.zero_le _)]
    unfold MNet.inSlice
    have := MNet.headD_of_inv hv.inv.r hv.aspects_eq
    rw [this]; simp
  have hread : ∀ i j, val.reads [i] [j] = R [i] [j] := fun i j => hv.reads_eq rfl rfl
  obtain ⟨s0, s1, s2, s3, s4⟩ := after_spec hcs dir z true ops
  have hg : ∃ c, Dict.get (afterP cs dir z true ops).A (.ofList s) = some c := by
    have := (s2 _).2 hs
    unfold child? at this
    exact Option.isSome_iff_exists.1 (by simpa using this)
  obtain ⟨c, hg⟩ := hg
  have hLY : LYs cs.length (fun a x => ∃ op ∈ ops, Spec.NamesLayerP cs.length true a x op) s := by
    obtain ⟨t, e, h1, h2⟩ := hs
    cases ofList_inj' e
    exact ⟨h1, h2⟩
  obtain ⟨q, e, ops', h0, h1, h2, h3, -, h5⟩ := subnetA_spec hb' hcs hLY (c := val) hv.inv hv.aspects_eq hv.directed_eq hv.noEdge_eq
    (fun h i => by rw [hread]; exact h.2 i) (val.slices.headD []) (fun a b => if_pos rfl)
  refine ⟨ops', ?_, ⟨fun x => ?_, h3, fun t i j ht => ?_, fun n1 n2 => h1 ⟨n1, n2⟩⟩⟩
  · unfold assignA
    rw [if_neg (by rw [hv.aspects_eq]; simp), hg]
    simp only
    rw [e, h0]
  · rw [h2]; dsimp only; rw [hmem, and_self]
  · rw [h5 t i j ht]; dsimp only; rw [hread]
    by_cases hts : t = s
    · simp only [hts, true_and, if_true]
      split
      · rfl
      · rename_i hn
        by_contra hne
        have hne' : R [i] [j] ≠ 0 := fun e => hne e.symm
        obtain ⟨⟨k1, -⟩, k2, -⟩ := hv.linked (u := [i]) (v := [j]) rfl rfl hne'
        have key : ∀ x, [x] ∈ product val.slices → x ∈ val.slices.headD [] := by
          intro x hx
          rw [MNet.headD_of_inv hv.inv.r hv.aspects_eq] at hx
          obtain ⟨y, hy, e⟩ := mem_product_one.1 hx
          cases e; exact hy
        exact hn ⟨key _ k1, key _ k2⟩
    · rw [if_neg hts, if_neg (fun h => hts h.1), if_neg hts]

/-- **C113, errors.** If `val` has aspects or there is no layer `s`, an exception is raised and the network is left as it was, in
node-aligned networks and others. -/
theorem C113_errors {cs : List (Coupling α W)} (hcs : cs ≠ []) (dir : Bool) (z : W) (al : Bool) (ops : List (POp α W)) (L : LKey α)
    (val : MNet α W) (h : val.aspects ≠ 0 ∨ ¬ Spec.HasLayer cs.length al ops L) :
    ∃ e, (afterP cs dir z al ops).assignA L val = (afterP cs dir z al ops, some e) := by
  unfold assignA
  by_cases ha : val.aspects = 0
  · rw [if_neg (by simp [ha])]
    have h2 := h.resolve_left (by simp [ha])
    obtain ⟨-, -, s2, -⟩ := after_spec hcs dir z al ops
    rw [← s2] at h2
    unfold child? at h2
    cases hg : Dict.get (afterP cs dir z al ops).A L with
    | none => exact ⟨_, rfl⟩
    | some c => rw [hg] at h2; simp at h2
  · rw [if_pos ha]; exact ⟨_, rfl⟩

/-- The calls of the example: a network with categorical couplings that is not node-aligned. -/
def assignOps : List (POp Int Int) := [.setItem [1, 2, 10] 1, .setItem [1, 2, 20] 1]

/-- **C113 is false for networks that are not node-aligned.** After layer 10 has been replaced by a network with the nodes 3 and 4, the
node 1 is not on layer 10 any more, but node 1 on layer 10 is still iterated over as a neighbour of node 1 on layer 20, and counted in
its degree, although the link between the two reads 0. -/
theorem C113_false : ∃ q, (afterP [.categorical 1] false 0 false assignOps).assignA (.el 10)
      (after 0 0 false true [.setItem [3, 4] 1] : MNet Int Int) = (q, none) ∧
    q.nodeLayers = .ok [[3, 10], [4, 10], [1, 20], [2, 20]] ∧
    q.view.readItem [1, 1, 20, 10] = .ok (.weight 0) ∧
    q.view.iterTotal [1, 20] none = .ok [[2, 20], [1, 10]] ∧ q.view.deg [1, 20] none = .ok 2 := by
  refine ⟨_, Prod.ext rfl (by decide +kernel), ?_, ?_, ?_, ?_⟩ <;> decide +kernel

/-- The hypotheses of `C113_assign_partial` are met: replace a layer of a node-aligned network by a path. -/
example : Spec.HasLayer 1 true assignOps (.ofList [10]) :=
  ⟨[10], rfl, rfl, fun k x hx => by
    match k, hx with
    | 0, rfl => exact ⟨.setItem [1, 2, 10] 1, by simp [assignOps], _, rfl, [1, 10], [2, 10],
        ⟨rfl, rfl, .inr ⟨1, 2, [10], rfl, rfl, rfl⟩⟩, .inl rfl⟩⟩

example : ((afterP [.categorical 1] false 0 true assignOps).assignA (.el 10)
    (after 0 0 false true [.setItem [3, 4] 7, .setItem [2, 3] 8] : MNet Int Int)).1.view.edges =
    .ok [([1, 1, 10, 20], 1), ([1, 2, 20, 20], 1), ([2, 3, 10, 10], 8), ([2, 2, 10, 20], 1), ([3, 4, 10, 10], 7),
      ([3, 3, 10, 20], 1), ([4, 4, 10, 20], 1)] := by decide +kernel

end Pymnet
