import Verif.Props.Plex

/-!
Properties C20 (degree formula), C22 and C23–C25, C49–C52 of multiplex networks, continued from `Props/Plex.lean`.
-/

set_option linter.unusedSectionVars false
set_option linter.unusedSimpArgs false
set_option linter.unnecessarySimpa false

namespace Pymnet

open Py MPlex

variable {α W : Type} [DecidableEq α] [DecidableEq W]

/-! ### C20, continued -/

/-- the degree of a node inside a layer -/
theorem child_degOut [Zero W] {cs : List (Coupling α W)} (hcs : cs ≠ []) (directed : Bool) (noEdge : W) (aligned : Bool)
    (ops : List (POp α W)) {i : α} {s : List α} (hs : Spec.HasLayer cs.length aligned ops (.ofList s)) :
    ∃ c, (afterP cs directed noEdge aligned ops).child? (.ofList s) = some c ∧
      c.degOut [i] none = ({j | Spec.readP cs.length directed aligned ops s i j ≠ 0}.ncard : Int) ∧
      (c.iterOut [i] none).Nodup ∧
      ∀ b, b ∈ c.iterOut [i] none ↔ ∃ j, b = [j] ∧ Spec.readP cs.length directed aligned ops s i j ≠ 0 := by
  have hp := after_pinv hcs directed noEdge aligned ops
  obtain ⟨-, -, s2, -, s4⟩ := after_spec hcs directed noEdge aligned ops
  obtain ⟨c, hc⟩ := Option.isSome_iff_exists.1 ((s2 _).2 hs)
  have hl : s.length = cs.length := by
    obtain ⟨s', e, h, -⟩ := hs
    cases ofList_inj' e; exact h
  have hk := hp.core.kids _ _ hc
  have hn := MNet.iterOut_nodup hk.inv.l [i] none
  have hmem : ∀ b, b ∈ c.iterOut [i] none ↔ ∃ j, b = [j] ∧ Spec.readP cs.length directed aligned ops s i j ≠ 0 := by
    intro b
    rw [MNet.mem_iterOut]
    simp only [dimsOk, and_true]
    rw [← MNet.reads_ne_noEdge hk.inv.l, hk.ne]
    constructor
    · intro h
      have h' := (MNet.reads_ne_noEdge hk.inv.l [i] b).1 (by rw [hk.ne]; exact h)
      have hlen := (MNet.lk_length hk.inv h').2
      rw [hk.asp] at hlen
      match b, hlen with
      | [j], _ =>
        refine ⟨j, rfl, ?_⟩
        rwa [← s4 s i j hl, ← lkA_reads hp.core hc]
    · rintro ⟨j, rfl, h⟩
      rwa [← s4 s i j hl, ← lkA_reads hp.core hc] at h
  refine ⟨c, hc, ?_, hn, hmem⟩
  rw [MNet.degOut, MNet.degDict_eq]
  change ((c.iterOut [i] none).length : Int) = _
  have hnd : ((c.iterOut [i] none).map fun b => b.headD i).Nodup := by
    refine hn.map_on ?_
    intro b hb b' hb' e
    obtain ⟨j, rfl, -⟩ := (hmem b).1 hb
    obtain ⟨j', rfl, -⟩ := (hmem b').1 hb'
    simpa using e
  rw [MNet.ncard_of_list hnd, List.length_map]
  intro j
  simp only [List.mem_map]
  constructor
  · rintro ⟨b, hb, e⟩
    obtain ⟨j', rfl, h⟩ := (hmem b).1 hb
    simp at e; subst e; exact h
  · intro h
    exact ⟨[j], (hmem _).2 ⟨j, rfl, h⟩, rfl⟩

/-- number of elementary layers of an aspect -/
theorem slice_ncard [Zero W] {cs : List (Coupling α W)} (hcs : cs ≠ []) (directed : Bool) (noEdge : W) (aligned : Bool)
    (ops : List (POp α W)) {a : Nat} (h1 : 1 ≤ a) (h2 : a ≤ cs.length) :
    ∃ S, (afterP cs directed noEdge aligned ops).slices[a]? = some S ∧ S.Nodup ∧
      (∀ x, x ∈ S ↔ ∃ op ∈ ops, Spec.NamesLayerP cs.length aligned a x op) ∧
      S.length = {x | ∃ op ∈ ops, Spec.NamesLayerP cs.length aligned a x op}.ncard := by
  have hp := after_pinv hcs directed noEdge aligned ops
  have hpar := after_params hcs directed noEdge aligned ops
  obtain ⟨-, s1, -⟩ := after_spec hcs directed noEdge aligned ops
  have hlt : a < (afterP cs directed noEdge aligned ops).slices.length := by rw [hp.core.slen, hpar.1]; omega
  have hS := List.getElem?_eq_getElem hlt
  refine ⟨_, hS, hp.core.snodup _ (List.getElem_mem hlt), ?_, ?_⟩
  · intro x; rw [← inSlice_getElem? hS, s1 a x h1]
  · rw [MNet.ncard_of_list (hp.core.snodup _ (List.getElem_mem hlt))]
    intro x; rw [← inSlice_getElem? hS, s1 a x h1]

/-- **C20**, degree formula: the out-degree is the number of links inside the layer plus, for each aspect, the
number of its other elementary layers. -/
theorem C20_degree_formula [Zero W] [LawfulIntNames α] (directed : Bool) {ops : List (POp α W)}
    {cs : List (Coupling α W)} (hcs : cs ≠ []) (hcat : ∀ c ∈ cs, ∃ w, w ≠ 0 ∧ c = .categorical w) {i : α} {s : List α}
    (hu : Spec.HasNodeLayer cs.length true ops (i :: s)) :
    (afterP cs directed 0 true ops).view.degOut (i :: s) none =
      .ok (({j | Spec.readP cs.length directed true ops s i j ≠ 0}.ncard : Int) +
        ((List.range cs.length).map fun d =>
          ({x | ∃ op ∈ ops, Spec.NamesLayerP cs.length true (d + 1) x op}.ncard : Int) - 1).sum) := by
  have hpar := after_params hcs directed 0 true ops
  have hL : Spec.HasLayer cs.length true ops (.ofList s) := by
    obtain ⟨n, s', e, -, h | h⟩ := hu
    · cases e; exact h.2.2
    · cases h.1
  obtain ⟨c, hc, hdeg, -⟩ := child_degOut hcs directed 0 true ops (i := i) hL
  have := sum_spec (β := Int) (p := afterP cs directed 0 true ops) (u := i :: s) rfl hc
    (fun c n => .ok (c.degOut n none)) (k := c.degOut [i] none) rfl
    (fun d => (afterP cs directed 0 true ops).dimDegree (i :: s) d .out)
    (fun a => ({x | ∃ op ∈ ops, Spec.NamesLayerP cs.length true a x op}.ncard : Int) - 1) (by
      intro a h1 h2
      rw [hpar.1] at h2
      obtain ⟨S, hS, -, -, hn⟩ := slice_ncard hcs directed (0 : W) true ops h1 h2
      obtain ⟨c, hc⟩ : ∃ c, cs[a - 1]? = some c := ⟨_, List.getElem?_eq_getElem (by omega)⟩
      obtain ⟨w, -, rfl⟩ := hcat c (List.mem_of_getElem? hc)
      unfold dimDegree
      rw [hpar.2.2.2.2, hc]
      simp only [hpar.2.2.2.1, if_true, hS, hn])
  rw [hpar.1, hdeg] at this
  exact this

example : Spec.HasNodeLayer 1 true samplePlex [2, 10] :=
  samplePlex_has true [2, 10] (product [[1, 2, 3, 9], [10, 11]]) [.categorical 1] (by simp) (by decide) (by decide)
example : (afterP [.categorical 1] false 0 true samplePlex).view.iterOut [2, 10] none = .ok [[1, 10], [2, 11]] ∧
    (afterP [.categorical 1] false 0 true samplePlex).view.degOut [2, 10] none = .ok 2 ∧
    (afterP [.categorical 2] false 0 true samplePlex).strOut [2, 10] none = .ok 8 := by decide
example : (afterP [.categorical 1, .categorical 3] true 0 true
    [.setItem ["a", "b", "x", "u"] (5 : Int), .addLayer "y" 1, .addLayer "v" 2]).view.iterOut ["a", "x", "u"] none =
    .ok [["b", "x", "u"], ["a", "y", "u"], ["a", "x", "v"]] := by decide

/-! ### C21, continued -/

example : Spec.Usable [.ordinal 1, .categorical 2] true ([.setItem [1, 2, 10, 5] 3] : List (POp Int Int)) :=
  ⟨by simp, by
    intro c hc
    simp at hc
    rcases hc with rfl | rfl
    · exact ⟨1, by decide, Or.inr rfl⟩
    · exact ⟨2, by decide, Or.inl rfl⟩, fun _ _ _ _ _ => ⟨rfl, rfl⟩⟩
example : Spec.HasNodeLayer 1 true (samplePlex ++ [.addLayer 13 1]) [2, 10] := by
  obtain ⟨l, h1, -, h3⟩ := after_nodeLayers (cs := [.ordinal 1]) (by simp) false 0 true (samplePlex ++ [.addLayer 13 1])
  refine (h3 _).1 ?_
  have : (afterP [.ordinal 1] false 0 true (samplePlex ++ [.addLayer 13 1])).nodeLayers =
    .ok (product [[1, 2, 3, 9], [10, 11, 13]]) := by decide
  rw [this] at h1; cases h1; decide
example : (afterP [.ordinal 1] false 0 true (samplePlex ++ [.addLayer 13 1])).view.iterOut [2, 11] none =
      .ok [[3, 11], [1, 11], [2, 10]] ∧
    (afterP [.ordinal 1] false 0 true (samplePlex ++ [.addLayer 13 1])).view.readItem [2, 2, 11, 13] = .ok (.weight 0) := by
  decide

/-! ### C22, continued -/

example : Spec.HasNodeLayer 1 false samplePlex [2, 10] :=
  samplePlex_has false [2, 10] [[1, 10], [2, 10], [2, 11], [3, 11], [1, 11]] [.categorical 1] (by simp) (by decide)
    (by decide)
example : (afterP [.categorical 1] false 0 false samplePlex).view.iterOut [2, 10] none = .ok [[1, 10], [2, 11]] ∧
    (afterP [.categorical 1] false 0 false samplePlex).view.iterOut [3, 11] none = .ok [[2, 11]] := by decide

/-- **C22 is false of the code for ordinal couplings**: in a one-aspect network the link between the two layers of a
node is there, but it is neither iterated nor counted. -/
theorem C22_false_ordinal :
    let p := afterP [.ordinal (1 : Int)] false 0 false [.addNode (5 : Int) (some (.el 1)), .addNode 5 (some (.el 2))]
    p.view.nodeLayers = .ok [[5, 1], [5, 2]] ∧ p.view.readItem [5, 5, 1, 2] = .ok (.weight 1) ∧
    p.view.iterOut [5, 1] none = .ok [] ∧ p.view.degOut [5, 1] none = .ok 0 := by decide

/-- **C22 is false of the code for categorical couplings with two aspects**: a node-layer differing in both aspects is
iterated as a neighbour although the link reads `noEdge`, and asking for the degree raises `TypeError`. -/
theorem C22_false_categorical :
    let p := afterP [.categorical (1 : Int), .categorical 1] false 0 false
      [.addNode (5 : Int) (some (.tup [1, 8])), .addNode 5 (some (.tup [2, 9]))]
    p.view.readItem [5, 5, 1, 2, 8, 9] = .ok (.weight 0) ∧
    p.view.iterOut [5, 1, 8] none = .ok [[5, 2, 9], [5, 2, 9]] ∧ p.view.degOut [5, 1, 8] none = .error .typeError := by
  decide

/-! ### C23 -/

/-- **C23, partial.** With no coupling in any aspect, the neighbours iterated are those inside the layer, and no
inter-layer neighbour. Missing: reading inter-layer links (see `C23_false`). -/
theorem C23_iter_partial [Zero W] [IntNames α] {cs : List (Coupling α W)} (hcs : cs ≠ [])
    (hun : ∀ c ∈ cs, ∃ w, c = .uncoupled w) (directed : Bool) (noEdge : W) (aligned : Bool)
    (ops : List (POp α W)) {i : α} {s : List α} (hs : Spec.HasLayer cs.length aligned ops (.ofList s)) :
    ∃ l, (afterP cs directed noEdge aligned ops).view.iterOut (i :: s) none = .ok l ∧ l.Nodup ∧
      ∀ v, v ∈ l ↔ ∃ j, v = j :: s ∧ Spec.readP cs.length directed aligned ops s i j ≠ 0 := by
  have hpar := after_params hcs directed noEdge aligned ops
  obtain ⟨c, hc, -, hn, hmem⟩ := child_degOut hcs directed noEdge aligned ops (i := i) hs
  have hit : (afterP cs directed noEdge aligned ops).iterOut (i :: s) none =
      .ok ((List.range (cs.length + 1)).flatMap fun d =>
        if d = 0 then (c.iterOut [i] none).map fun m => m.take 1 ++ s else []) := by
    unfold MPlex.iterOut selectDimensions
    rw [hpar.1]
    refine View.collect_ok fun d hd => ?_
    simp only [List.mem_range] at hd
    by_cases h0 : d = 0
    · subst h0
      simp only [if_true]
      unfold intra onChild
      simp only [hc, List.drop_succ_cons, List.drop_zero]
    · simp only [h0, if_false]
      obtain ⟨k, hk⟩ : ∃ k, cs[d - 1]? = some k := ⟨_, List.getElem?_eq_getElem (by omega)⟩
      obtain ⟨w, rfl⟩ := hun k (List.mem_of_getElem? hk)
      unfold iterDim
      rw [hpar.2.2.2.2, hk]
  have hsimp : ((List.range (cs.length + 1)).flatMap fun d =>
        if d = 0 then (c.iterOut [i] none).map fun m => m.take 1 ++ s else []) =
      (c.iterOut [i] none).map fun m => m.take 1 ++ s := by
    rw [List.range_succ_eq_map, List.flatMap_cons, List.flatMap_map]
    simp
  rw [hsimp] at hit
  refine ⟨_, hit, ?_, ?_⟩
  · refine hn.map_on ?_
    intro b hb b' hb' e
    obtain ⟨j, rfl, -⟩ := (hmem b).1 hb
    obtain ⟨j', rfl, -⟩ := (hmem b').1 hb'
    simpa using e
  · intro v
    simp only [List.mem_map]
    constructor
    · rintro ⟨b, hb, rfl⟩
      obtain ⟨j, rfl, h⟩ := (hmem b).1 hb
      exact ⟨j, rfl, h⟩
    · rintro ⟨j, rfl, h⟩
      exact ⟨[j], (hmem _).2 ⟨j, rfl, h⟩, rfl⟩

/-- **C23 is false of the code, in general form**: reading the link between two layers of a node that is on both
raises `Exception`, in every network whose coupling of that aspect is `'none'`. -/
theorem C23_false [Zero W] [LawfulIntNames α] {cs : List (Coupling α W)} (hcs : cs ≠ []) (directed : Bool) (noEdge : W)
    (aligned : Bool) (ops : List (POp α W)) {i : α} {s : List α} {d : Nat} {x y : α} {w : Option W}
    (hc : cs[d]? = some (.uncoupled w)) (hx : s[d]? = some x) (hxy : x ≠ y)
    (hu : Spec.HasNodeLayer cs.length aligned ops (i :: s))
    (hv : Spec.HasNodeLayer cs.length aligned ops (i :: s.set d y)) {item : List α}
    (ha : Spec.Addresses cs.length item (i :: s) (i :: s.set d y)) :
    (afterP cs directed noEdge aligned ops).view.readItem item = .error .exception := by
  have hp := after_pinv hcs directed noEdge aligned ops
  have hpar := after_params hcs directed noEdge aligned ops
  have ha' : Spec.Addresses (afterP cs directed noEdge aligned ops).view.aspects item (i :: s) (i :: s.set d y) := by
    change Spec.Addresses (afterP cs directed noEdge aligned ops).aspects _ _ _
    rw [hpar.1]; exact ha
  rw [View.readItem_addresses ha']
  change ((afterP cs directed noEdge aligned ops).getLink _).map _ = _
  obtain ⟨pu, n, s', e, -, ku⟩ := reg_cases hcs directed noEdge aligned ops hu
  cases e
  obtain ⟨pv, n, s', e, -, kv⟩ := reg_cases hcs directed noEdge aligned ops hv
  cases e
  have hc' : (afterP cs directed noEdge aligned ops).couplings[d]? = some (.uncoupled w) := by
    rw [hpar.2.2.2.2]; exact hc
  by_cases hf : (afterP cs directed noEdge aligned ops).fic = true
  · rw [getLink_aligned hf hx hxy ?_ hc']
    · rfl
    · rw [head_inSlice (by rw [hp.core.slen]; omega)]
      exact ((mem_product_iff hp.core _).1 pu).2 0 i rfl
  · rw [getLink_nonaligned_pos hp.core (by simpa using hf) hx hxy hc' (ku.resolve_left hf) (kv.resolve_left hf)]
    rfl

/-- **C23**, the same as a concrete run. -/
theorem C23_false_witness :
    (afterP [.uncoupled (some (1 : Int))] false 0 true samplePlex).view.readItem [1, 1, 10, 11] = .error .exception := by
  decide

example : (afterP [.uncoupled (some (1 : Int))] false 0 true samplePlex).view.iterOut [2, 11] none =
    .ok [[3, 11], [1, 11]] := by decide

/-! ### C24 -/

/-- **C24, exact.** In an existing layer a link that was never written reads 0, whatever the network's `noEdge`; in a
layer that does not exist it reads `noEdge`. The property holds when `noEdge` is 0. Missing: other values (see
`C24_false`). -/
theorem C24_unwritten_partial [Zero W] [IntNames α] {cs : List (Coupling α W)} (hcs : cs ≠ []) (directed : Bool)
    (noEdge : W) (aligned : Bool) (ops : List (POp α W)) {i j : α} {s : List α} (hij : i ≠ j) {item : List α}
    (ha : Spec.Addresses cs.length item (i :: s) (j :: s))
    (hnw : ¬ Spec.Happened (fun past op => Spec.writtenP cs.length directed aligned s i j past op ≠ none) ops) :
    (Spec.HasLayer cs.length aligned ops (.ofList s) →
      (afterP cs directed noEdge aligned ops).view.readItem item = .ok (.weight 0)) ∧
    (¬ Spec.HasLayer cs.length aligned ops (.ofList s) →
      (afterP cs directed noEdge aligned ops).view.readItem item = .ok (.weight noEdge)) := by
  have hpar := after_params hcs directed noEdge aligned ops
  obtain ⟨-, -, s2, -, -⟩ := after_spec hcs directed noEdge aligned ops
  constructor
  · intro hL
    rw [(C18_read hcs directed noEdge aligned ops hL i j).1 item hij ha]
    have : Spec.readP cs.length directed aligned ops s i j = 0 := by
      clear hL s2 hpar
      induction ops using List.reverseRecOn with
      | nil => rfl
      | append_singleton ops op ih =>
        rw [happened_snoc] at hnw
        rw [readP_snoc, ih (fun h => hnw (Or.inl h))]
        have h2 : Spec.writtenP cs.length directed aligned s i j ops op = none := by
          by_contra h; exact hnw (Or.inr h)
        rw [h2]; rfl
    rw [this]
  · intro hL
    refine View.getItem_addresses (v := (afterP cs directed noEdge aligned ops).view) (a := i :: s) (b := j :: s) ?_ ?_
    · change Spec.Addresses (afterP cs directed noEdge aligned ops).aspects _ _ _
      rw [hpar.1]; exact ha
    · change (afterP cs directed noEdge aligned ops).getLink _ = _
      rw [getLink_intra_none ?_ hij, hpar.2.2.1]
      rw [← s2, Bool.not_eq_true, Option.isSome_eq_false_iff, Option.isNone_iff_eq_none] at hL
      exact hL

/-- **C24, partial.** Writing 0 removes the link: it is no longer among the neighbours iterated in its layer. With
`noEdge` 0 this is the property. -/
theorem C24_delete_partial [Zero W] [IntNames α] {cs : List (Coupling α W)} (hcs : cs ≠ []) (directed : Bool)
    (noEdge : W) (aligned : Bool) (ops : List (POp α W)) {i j : α} {s : List α} (hij : i ≠ j) {item : List α}
    (ha : Spec.Addresses cs.length item (i :: s) (j :: s)) :
    ∃ c, (afterP cs directed noEdge aligned (ops ++ [.setItem item 0])).child? (.ofList s) = some c ∧
      [j] ∉ c.iterOut [i] none ∧ (directed = false → [i] ∉ c.iterOut [j] none) ∧
      c.view.readItem [i, j] = .ok (.weight 0) := by
  have hlayer : Spec.HasLayer cs.length aligned (ops ++ [.setItem item 0]) (.ofList s) := by
    refine ⟨s, rfl, by simpa using ha.1, fun k x hx => ⟨.setItem item 0, by simp, _, rfl, ?_⟩⟩
    exact ⟨i :: s, j :: s, ha, Or.inl (by simpa using hx)⟩
  have hr : ∀ a b, Spec.SameLink directed i j a b →
      Spec.readP cs.length directed aligned (ops ++ [.setItem item 0]) s a b = 0 := by
    intro a b hab
    rw [readP_snoc]
    unfold Spec.writtenP
    simp only
    rw [if_pos ⟨i, j, hij, ha, hab⟩]; rfl
  obtain ⟨c, hc, -, -, h1⟩ := child_degOut hcs directed noEdge aligned _ (i := i) hlayer
  obtain ⟨c', hc', -, -, h2⟩ := child_degOut hcs directed noEdge aligned _ (i := j) hlayer
  rw [hc] at hc'; cases hc'
  obtain ⟨d, hd, h3⟩ := (C18_read hcs directed noEdge aligned _ hlayer i j).2
  rw [hc] at hd; cases hd
  refine ⟨c, hc, ?_, ?_, ?_⟩
  · rw [h1]; rintro ⟨x, e, h⟩; cases e; exact h (hr i j (Or.inl ⟨rfl, rfl⟩))
  · intro hd; rw [h2]; rintro ⟨x, e, h⟩; cases e; exact h (hr j i (Or.inr ⟨hd, rfl, rfl⟩))
  · rw [h3, hr i j (Or.inl ⟨rfl, rfl⟩)]

/-- **C24 is false of the code**: with `noEdge=-1`, a link never written in an existing layer reads 0 instead of -1,
and writing -1 leaves a neighbour behind. -/
theorem C24_false :
    let p := afterP [.categorical (1 : Int)] false (-1) true
      [.setItem [(1 : Int), 2, 10] 5, .addNode 3 none, .setItem [1, 2, 10] (-1)]
    p.view.readItem [1, 3, 10] = .ok (.weight 0) ∧ p.view.iterOut [1, 10] none = .ok [[2, 10]] := by decide

/-! ### C25 -/

/-- **C25.** The nodes iterated are those named by the calls, once each. -/
theorem C25_nodes [Zero W] {cs : List (Coupling α W)} (hcs : cs ≠ []) (directed : Bool) (noEdge : W) (aligned : Bool)
    (ops : List (POp α W)) : ∃ ns, (afterP cs directed noEdge aligned ops).iterNodes none = .ok ns ∧ ns.Nodup ∧
      ∀ n, n ∈ ns ↔ Spec.Happened (Spec.NamesNodeP cs.length aligned n) ops := by
  have hp := after_pinv hcs directed noEdge aligned ops
  obtain ⟨s0, -⟩ := after_spec hcs directed noEdge aligned ops
  refine ⟨_, rfl, head_nodup hp.core.snodup, fun n => ?_⟩
  rw [head_inSlice (by rw [hp.core.slen]; omega), s0]

/-- **C25.** The elementary layers of each aspect are those named by the calls, once each. -/
theorem C25_elementary_layers [Zero W] {cs : List (Coupling α W)} (hcs : cs ≠ []) (directed : Bool) (noEdge : W)
    (aligned : Bool) (ops : List (POp α W)) {a : Nat} (h1 : 1 ≤ a) (h2 : a ≤ cs.length) :
    ∃ S, (afterP cs directed noEdge aligned ops).slices[a]? = some S ∧ S.Nodup ∧
      ∀ x, x ∈ S ↔ ∃ op ∈ ops, Spec.NamesLayerP cs.length aligned a x op := by
  obtain ⟨S, h3, h4, h5, -⟩ := slice_ncard hcs directed noEdge aligned ops h1 h2
  exact ⟨S, h3, h4, h5⟩

/-- **C25.** There is an intra-layer network `net.A[s]` exactly for the tuples of named elementary layers, and these
are the layers iterated, once each. -/
theorem C25_layers [Zero W] {cs : List (Coupling α W)} (hcs : cs ≠ []) (directed : Bool) (noEdge : W) (aligned : Bool)
    (ops : List (POp α W)) :
    (∀ L, ((afterP cs directed noEdge aligned ops).child? L).isSome = true ↔ Spec.HasLayer cs.length aligned ops L) ∧
    (afterP cs directed noEdge aligned ops).iterLayers.Nodup ∧
    ∀ L, L ∈ (afterP cs directed noEdge aligned ops).iterLayers ↔ Spec.HasLayer cs.length aligned ops L := by
  have hp := after_pinv hcs directed noEdge aligned ops
  have hpar := after_params hcs directed noEdge aligned ops
  obtain ⟨-, s1, s2, -⟩ := after_spec hcs directed noEdge aligned ops
  have hpos : 1 ≤ cs.length := List.length_pos_iff.2 hcs
  have hmem : ∀ s : List α, s ∈ product ((afterP cs directed noEdge aligned ops).slices.drop 1) ↔
      s.length = cs.length ∧ ∀ (k : Nat) x, s[k]? = some x → ∃ op ∈ ops, Spec.NamesLayerP cs.length aligned (k + 1) x op := by
    intro s
    rw [mem_product, MNet.forall₂_iff_getElem]
    simp only [List.length_drop, hp.core.slen, hpar.1, List.getElem?_drop, Nat.add_sub_cancel]
    refine and_congr_right fun hl => ?_
    constructor
    · intro h k x hx
      have hk : k < s.length := by
        rcases Nat.lt_or_ge k s.length with h | h
        · exact h
        · rw [List.getElem?_eq_none h] at hx; cases hx
      have hlt : 1 + k < (afterP cs directed noEdge aligned ops).slices.length := by rw [hp.core.slen, hpar.1]; omega
      have := h k x _ hx (List.getElem?_eq_getElem hlt)
      exact (s1 (k + 1) x (by omega)).1 ⟨_, by rw [Nat.add_comm k 1]; exact List.getElem?_eq_getElem hlt, this⟩
    · intro h k x S hx hS
      obtain ⟨S', hS', hx'⟩ := (s1 (k + 1) x (by omega)).2 (h k x hx)
      rw [Nat.add_comm] at hS'
      rw [hS] at hS'; cases hS'
      exact hx'
  refine ⟨s2, ?_, ?_⟩
  · unfold iterLayers
    rw [hpar.1]
    split
    · refine List.Nodup.map (fun a b h => by simpa using h) (nodup_product ?_)
      intro s hs; exact hp.core.snodup s (List.mem_of_mem_drop hs)
    · rw [if_pos (by omega)]
      obtain ⟨S, h3, h4, -⟩ := slice_ncard hcs directed noEdge aligned ops (a := 1) (by omega) (by omega)
      rw [List.getD_eq_getElem?_getD, h3]
      exact h4.map (fun a b h => by simpa using h)
  · intro L
    unfold iterLayers
    rw [hpar.1]
    split
    · rename_i h1
      simp only [List.mem_map, hmem]
      constructor
      · rintro ⟨s, ⟨h2, h3⟩, rfl⟩
        refine ⟨s, ?_, h2, h3⟩
        match s, h2 with
        | [], h2 => simp at h2; omega
        | [x], h2 => simp at h2; omega
        | x :: y :: s, _ => rfl
      · rintro ⟨s, rfl, h2, h3⟩
        refine ⟨s, ⟨h2, h3⟩, ?_⟩
        match s, h2 with
        | [], h2 => simp at h2; omega
        | [x], h2 => simp at h2; omega
        | x :: y :: s, _ => rfl
    · rw [if_pos (by omega)]
      obtain ⟨S, h3, h4, h5, -⟩ := slice_ncard hcs directed noEdge aligned ops (a := 1) (by omega) (by omega)
      rw [List.getD_eq_getElem?_getD, h3, Option.getD_some]
      simp only [List.mem_map, h5]
      have hl1 : cs.length = 1 := by omega
      constructor
      · rintro ⟨x, hx, rfl⟩
        refine ⟨[x], rfl, by simp [hl1], fun k y hy => ?_⟩
        cases k with
        | zero => simp at hy; subst hy; exact hx
        | succ k => simp at hy
      · rintro ⟨s, rfl, h2, h3⟩
        rw [hl1] at h2
        match s, h2 with
        | [x], _ => exact ⟨x, h3 0 x rfl, rfl⟩

/-- **C25.** In a node-aligned network every layer has exactly the nodes of the network. -/
theorem C25_aligned_nodes [Zero W] {cs : List (Coupling α W)} (hcs : cs ≠ []) (directed : Bool) (noEdge : W)
    (ops : List (POp α W)) {L : LKey α} (hL : Spec.HasLayer cs.length true ops L) :
    (afterP cs directed noEdge true ops).iterNodes (some L) = (afterP cs directed noEdge true ops).iterNodes none ∧
    ∃ c, (afterP cs directed noEdge true ops).child? L = some c ∧
      .ok (c.iterNodes none) = (afterP cs directed noEdge true ops).iterNodes none := by
  have hpar := after_params hcs directed noEdge true ops
  obtain ⟨-, -, s2, -⟩ := after_spec hcs directed noEdge true ops
  obtain ⟨c, hc⟩ := Option.isSome_iff_exists.1 ((s2 _).2 hL)
  refine ⟨by simp [iterNodes, hpar.2.2.2.1], c, hc, ?_⟩
  unfold child? at hc
  rw [hpar.2.2.2.1] at hc
  simp only [if_true, Option.map_eq_some_iff] at hc
  obtain ⟨c', -, rfl⟩ := hc
  rfl

/-- **C25.** In a network that is not node-aligned the nodes of a layer are those put on it by the calls, once each,
and the per-node registry of layers says the same. -/
theorem C25_layer_nodes [Zero W] {cs : List (Coupling α W)} (hcs : cs ≠ []) (directed : Bool) (noEdge : W)
    (ops : List (POp α W)) {s : List α} (hL : Spec.HasLayer cs.length false ops (.ofList s)) :
    ∃ ns, (afterP cs directed noEdge false ops).iterNodes (some (.ofList s)) = .ok ns ∧ ns.Nodup ∧
      ∀ n, (n ∈ ns ↔ Spec.Happened (Spec.PutsOnLayer cs.length n s) ops) ∧
        (n ∈ ns ↔ .ofList s ∈ (Dict.get (afterP cs directed noEdge false ops).nodeToLayers n).getD []) := by
  have hp := after_pinv hcs directed noEdge false ops
  have hpar := after_params hcs directed noEdge false ops
  obtain ⟨-, -, s2, s3, -⟩ := after_spec hcs directed noEdge false ops
  obtain ⟨c, hc⟩ := Option.isSome_iff_exists.1 ((s2 _).2 hL)
  have hl : s.length = cs.length := by
    obtain ⟨s', e, h, -⟩ := hL
    cases ofList_inj' e; exact h
  have hk := hp.core.kids _ _ hc
  have hkid : ∀ n, n ∈ c.slices.headD [] ↔ (afterP cs directed noEdge false ops).kid (.ofList s) n := by
    intro n
    constructor
    · intro h; exact ⟨c, hc, h⟩
    · rintro ⟨c', h1, h2⟩; rw [hc] at h1; cases h1; exact h2
  refine ⟨c.slices.headD [], ?_, ?_, fun n => ⟨?_, ?_⟩⟩
  · simp only [iterNodes, hpar.2.2.2.1, Bool.false_eq_true, if_false, hc]
  · have := hk.inv.r.snodup
    have hs := MNet.headD_of_inv hk.inv.r hk.asp
    exact this _ (by rw [hs]; simp)
  · rw [hkid, s3 rfl s n hl]
  · rw [hkid]
    exact hp.regs hpar.2.2.2.1 _ _ ((s2 _).2 hL)

/-- **C25.** The node-layers iterated are exactly those in the network, once each. -/
theorem C25_node_layers [Zero W] [IntNames α] {cs : List (Coupling α W)} (hcs : cs ≠ []) (directed : Bool) (noEdge : W)
    (aligned : Bool) (ops : List (POp α W)) :
    ∃ l, (afterP cs directed noEdge aligned ops).view.nodeLayers = .ok l ∧ l.Nodup ∧
      ∀ u, u ∈ l ↔ Spec.HasNodeLayer cs.length aligned ops u :=
  after_nodeLayers hcs directed noEdge aligned ops

example : Spec.HasLayer 1 false samplePlex (.ofList [10]) := by
  obtain ⟨-, -, s2, -⟩ := after_spec (cs := [.categorical (1 : Int)]) (by simp) false 0 false samplePlex
  exact (s2 _).1 (by decide)
example : (afterP [.categorical (1 : Int)] false 0 false samplePlex).iterNodes (some (.el 10)) = .ok [1, 2] := by decide

end Pymnet
