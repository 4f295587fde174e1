import Verif.Props.Transforms2

/-! Properties C28, C29: `subnet`. -/

set_option linter.unusedSectionVars false
set_option linter.unusedSimpArgs false

namespace Pymnet

open Py

variable {α W : Type} [DecidableEq α] [DecidableEq W]

variable {m : MNet α W} {d : Nat} {z : W} {dir al : Bool} {S : Nat → α → Prop} {NL : List α → Prop}
  {R : List α → List α → W}

theorem mem_selected (h : Spec.Looks m d z dir al S NL R) {sel : List (Option (List α))} (hs : sel.length = d + 1)
    {a : List α} (ha : a ∈ product m.slices) : a ∈ product (selSets m.slices sel) ↔ Spec.Selected sel a := by
  have hsl : m.slices.length = d + 1 := by rw [h.inv.r.slen, h.aspects_eq]
  have hlen : a.length = d + 1 := (h.sound.length_of_mem ha).trans (congrArg (· + 1) h.aspects_eq)
  rw [mem_product_get, length_selSets (by omega)]
  unfold Spec.Selected
  have ha2 := ((h.mem_product a).1 ha).2
  constructor
  · rintro ⟨-, g⟩ i x l hx hl
    obtain ⟨s, o, h1, h2, h3⟩ := (mem_selSets i x).1 (g i x hx)
    rw [hl] at h2; cases h2; exact h3
  · intro g
    refine ⟨by omega, fun i x hx => (mem_selSets i x).2 ?_⟩
    have hi : i < d + 1 := by have := (List.getElem?_eq_some_iff.1 hx).1; omega
    have hS := (h.inSlice (by omega) x).2 (ha2 i x hx)
    obtain ⟨s, e1, e2⟩ := hS
    refine ⟨s, sel[i], e1, by simp [hs, hi], ?_⟩
    cases ho : sel[i] with
    | none => exact e2
    | some l => exact g i x l hx (by rw [List.getElem?_eq_getElem (by omega), ho])

open Classical in
/-- **C28.** `subnet` of a general network has the selected node-layers of the network, reads the
network's value for links between selected node-layers and `noEdge` otherwise. Its elementary layers (and,
in node-aligned networks, its nodes) are the selected ones of the network. In networks that are not
node-aligned, its nodes are those that are on a selected node-layer. With `nolinks`, there are no links. -/
theorem C28_subnet_partial (h : Spec.Looks m d z dir al S NL R) {sel : List (Option (List α))} (hs : sel.length = d + 1)
    (nolinks : Bool) :
    ∃ m', m.subnet sel nolinks = .ok m' ∧
      Spec.Looks m' d z dir al
        (fun k x => if al = false ∧ k = 0 then ∃ nl, NL nl ∧ Spec.Selected sel nl ∧ nl[0]? = some x
          else S k x ∧ ∀ l, sel[k]? = some (some l) → x ∈ l)
        (fun nl => NL nl ∧ Spec.Selected sel nl)
        (fun u v => if nolinks = false ∧ Spec.Selected sel u ∧ Spec.Selected sel v then R u v else z) := by
  have h1 : m.aspects = d := h.aspects_eq
  have h2 : m.noEdge = z := h.noEdge_eq
  have h3 : m.directed = dir := h.directed_eq
  have h4 : m.fic = al := h.aligned_eq
  obtain ⟨m', e, hb⟩ := subnet_spec h.inv (fic_pos h) (by rw [h1]; exact hs) nolinks
  rw [h1, h2, h3, h4] at hb
  have hnl : ∀ nl, (nl ∈ m.nodeLayers ∧ nl ∈ product (selSets m.slices sel)) ↔ (NL nl ∧ Spec.Selected sel nl) := by
    intro nl
    rw [h.nodeLayers.2]
    exact and_congr_right fun hn => mem_selected h hs (h.nl_product hn)
  have hS : ∀ k ≤ d, ∀ x, (if al = false ∧ k = 0 then
            ∃ nl ∈ m.nodeLayers, nl ∈ product (selSets m.slices sel) ∧ nl[0]? = some x
          else selName m.slices sel k x ∧ x ∈ m.slices.getD k []) ↔ (if al = false ∧ k = 0 then ∃ nl, NL nl ∧ Spec.Selected sel nl ∧ nl[0]? = some x
          else S k x ∧ ∀ l, sel[k]? = some (some l) → x ∈ l) := by
    intro k hk x
    by_cases hc : al = false ∧ k = 0
    · rw [if_pos hc, if_pos hc]
      refine exists_congr fun nl => ?_
      rw [← and_assoc, ← and_assoc, hnl]
    · rw [if_neg hc, if_neg hc, ← h.inSlice hk]
      have hsl : m.slices.length = d + 1 := by rw [h.inv.r.slen, h.aspects_eq]
      have e1 : m.slices[k]? = some m.slices[k] := List.getElem?_eq_getElem (by omega)
      have e2 : sel[k]? = some sel[k] := List.getElem?_eq_getElem (by omega)
      have e3 : m.slices.getD k [] = m.slices[k] := by rw [List.getD_eq_getElem?_getD, e1]; rfl
      unfold selName MNet.inSlice
      rw [e1, e2, e3]
      constructor
      · rintro ⟨⟨s, o, he1, he2, g⟩, hx⟩
        cases he1; cases he2
        refine ⟨⟨_, rfl, hx⟩, fun l hl => ?_⟩
        injection hl with hl
        rw [hl] at g; exact g
      · rintro ⟨⟨s, he, hx⟩, g⟩
        cases he
        refine ⟨⟨_, _, rfl, rfl, ?_⟩, hx⟩
        cases ho : sel[k] with
        | none => exact hx
        | some l => exact g l (by rw [ho])
  refine ⟨m', e, (hb.looks h.al0 ?_).congr hS (fun nl => ?_) (fun u v hu hv => ?_)⟩
  · rintro - nl hn
    exact h.nl_length ((hnl nl).1 hn).1
  · cases al with
    | false => simp only [Bool.false_eq_true, if_false]; exact hnl nl
    | true =>
      rw [if_pos rfl, h.nl_aligned]
      unfold Spec.AllNodeLayers Spec.Selected
      constructor
      · rintro ⟨hl, g⟩
        have g' : ∀ (i : Nat) x, nl[i]? = some x → S i x ∧ ∀ l, sel[i]? = some (some l) → x ∈ l := by
          intro i x hx
          have := (hS i (by have := (List.getElem?_eq_some_iff.1 hx).1; omega) x).1 (g i x hx)
          rwa [if_neg (by simp)] at this
        exact ⟨⟨hl, fun i x hx => (g' i x hx).1⟩, fun i x l hx hl => (g' i x hx).2 l hl⟩
      · rintro ⟨⟨hl, g⟩, g'⟩
        refine ⟨hl, fun i x hx => (hS i (by have := (List.getElem?_eq_some_iff.1 hx).1; omega) x).2 ?_⟩
        rw [if_neg (by simp)]
        exact ⟨g i x hx, fun l hl => g' i x l hx hl⟩
  · rw [h.reads_eq hu hv]
    by_cases hR : R u v = z
    · rw [hR]; simp
    · have := h.linked hu hv hR
      simp only [mem_selected h hs this.1.1, mem_selected h hs this.2.1]

/-- The property C28 is false for nodes that are on no layer of a network that is not node-aligned:
a selected node of the network is not in the subnet. -/
theorem C28_false : ∃ (m m' : MNet Nat Int), m = after 1 0 false false (.addNode 5 none :: transOps) ∧ 5 ∈ m.iterNodes none ∧
    m.subnet [some [1, 2, 5], none] false = .ok m' ∧ 5 ∉ m'.iterNodes none :=
  ⟨_, _, rfl, by decide, rfl, by decide⟩

example : ∃ m', (after 1 0 false true transOps).subnet [some [2, 1, 7, 9], some [10]] false = .ok m' ∧
    m'.iterNodes none = [2, 1, 9] ∧ m'.view.readItem [1, 2, 10] = .ok (.weight 5) ∧
    m'.view.readItem [1, 2, 11] = .ok (.weight 0) := ⟨_, rfl, by decide, by decide, by decide⟩

/-! ### C29 -/

/-- **C29.** `subnet` with everything selected looks like the network, and is `==` to it (for node-aligned
and for one-aspect networks). Missing: nodes on no layer of a network that is not node-aligned
(`C29_false`), equality of networks with two or more aspects that are not node-aligned. -/
theorem C29_copy_partial (h : Spec.Looks m d z dir al S NL R)
    (hn : al = false → ∀ x, S 0 x → ∃ nl, NL nl ∧ nl[0]? = some x) :
    ∃ m', m.subnet (List.replicate (d + 1) none) false = .ok m' ∧ Spec.Looks m' d z dir al S NL R ∧
      (al = true ∨ d = 1 → m'.eq m = .ok true ∧ m.eq m' = .ok true) := by
  obtain ⟨m', e, hl⟩ := C28_subnet_partial h (sel := List.replicate (d + 1) none) (by simp) false
  have hsel : ∀ nl : List α, Spec.Selected (List.replicate (d + 1) none) nl := by
    intro nl i x l _ hl
    rw [List.getElem?_replicate] at hl
    split at hl <;> cases hl
  have hl' : Spec.Looks m' d z dir al S NL R := by
    refine hl.congr (fun k hk x => ?_) (fun nl => ?_) (fun u v _ _ => ?_)
    · split
      · rename_i hc
        obtain ⟨ha, rfl⟩ := hc
        constructor
        · rintro ⟨nl, h1, -, h2⟩
          exact ((h.mem_product nl).1 (h.nl_product h1)).2 0 x h2
        · intro hx
          obtain ⟨nl, h1, h2⟩ := hn ha x hx
          exact ⟨nl, h1, hsel nl, h2⟩
      · refine and_iff_left fun l hl => ?_
        rw [List.getElem?_replicate] at hl
        split at hl <;> cases hl
    · exact and_iff_left (hsel nl)
    · rw [if_pos ⟨rfl, hsel u, hsel v⟩]
  exact ⟨m', e, hl', fun hc => ⟨hl'.eq h hc, h.eq hl' hc⟩⟩

example : ∃ m', (after 1 0 true true transOps).subnet [none, none] false = .ok m' ∧
    m'.eq (after 1 0 true true transOps) = .ok true := ⟨_, rfl, by decide⟩

/-- The property C29 is false for a network that is not node-aligned and has a node on no layer. -/
theorem C29_false : ∃ m', (after 1 0 false false transOps).subnet [none, none] false = .ok m' ∧
    m'.eq (after 1 0 false false transOps) = .ok false := ⟨_, rfl, by decide⟩

end Pymnet
