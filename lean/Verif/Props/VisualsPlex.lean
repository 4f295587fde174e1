import Verif.Model.VisualsPlex
import Verif.Props.Visuals
import Verif.Props.TransformsPlex

/-! Property C126 for multiplex networks: the figure that `draw` makes. -/

namespace Pymnet

open Py MPlex

set_option linter.unusedSectionVars false

variable {α W K O : Type} [DecidableEq α] [DecidableEq W] [Field K] [LinearOrder K] [LinearOrder O]

theorem plex_iterLayers [Zero W] {c : Coupling α W} (directed : Bool) (z : W) (aligned : Bool) (ops : List (POp α W)) :
    (afterP [c] directed z aligned ops).iterLayers.Nodup ∧
    ∀ L, L ∈ (afterP [c] directed z aligned ops).iterLayers ↔ ∃ l, Spec.HasLayer 1 aligned ops (.el l) ∧ L = .el l := by
  have hcs : [c] ≠ [] := by simp
  have hp := after_pinv hcs directed z aligned ops
  have hpar := after_params hcs directed z aligned ops
  obtain ⟨-, s1, -⟩ := after_spec hcs directed z aligned ops
  have hlen : (afterP [c] directed z aligned ops).slices.length = 2 := by rw [hp.core.slen, hpar.1]; rfl
  have ha : (afterP [c] directed z aligned ops).aspects = 1 := hpar.1
  obtain ⟨N, Ls, hsl⟩ : ∃ N Ls, (afterP [c] directed z aligned ops).slices = [N, Ls] := by
    match hm : (afterP [c] directed z aligned ops).slices with
    | [a, b] => exact ⟨a, b, rfl⟩
    | [] => rw [hm] at hlen; simp at hlen
    | [_] => rw [hm] at hlen; simp at hlen
    | _ :: _ :: _ :: _ => rw [hm] at hlen; simp at hlen
  have e : (afterP [c] directed z aligned ops).iterLayers = Ls.map LKey.el := by
    unfold MPlex.iterLayers
    rw [ha, if_neg (by omega), if_pos rfl, hsl]
    rfl
  have hmem : ∀ x, x ∈ Ls ↔ Spec.HasLayer 1 aligned ops (.el x) := by
    intro x
    have h1 := s1 1 x (le_refl _)
    have h0 : (afterP [c] directed z aligned ops).inSlice 1 x ↔ x ∈ Ls := by
      unfold MPlex.inSlice
      rw [hsl]
      simp
    rw [← h0, h1]
    constructor
    · intro h
      refine ⟨[x], rfl, rfl, fun k y hk => ?_⟩
      match k, hk with
      | 0, hk => cases hk; exact h
    · rintro ⟨s, hs, hl, h⟩
      match s, hl with
      | [y], _ => cases hs; exact h 0 x rfl
  rw [e]
  refine ⟨(hp.core.snodup Ls (by rw [hsl]; simp)).map fun a b hab => by cases hab; rfl, fun L => ?_⟩
  simp only [List.mem_map]
  constructor
  · rintro ⟨x, hx, rfl⟩; exact ⟨x, (hmem x).1 hx, rfl⟩
  · rintro ⟨x, hx, rfl⟩; exact ⟨x, (hmem x).2 hx, rfl⟩

/-- **C126 (partial), multiplex networks** with one aspect and a categorical coupling, or node-aligned ones with an ordinal coupling: the figure
has each layer, node-layer, intra-layer link and coupling link, and no others. Missing: the direction of links, which is lost
(`C126_false`), and the other couplings. -/
theorem C126_multiplex_partial [Zero W] [LawfulIntNames α] [IsStrictOrderedRing K] {c : Coupling α W} {directed aligned : Bool} {ops : List (POp α W)}
    (hU : Spec.Usable [c] aligned ops) (hs : Spec.NoIntraSelf ops) (hal : aligned = true ∨ ∃ w, c = .categorical w)
    (order : LKey α → O) (ncoords : Dict α (K × K)) (nlcoords : Dict (α ⊕ List α) (K × K)) (rand : List α → K × K) (size : List α → K) :
    ∃ f, (afterP [c] directed 0 aligned ops).figure order ncoords nlcoords rand size = .ok f ∧
      Spec.Shows f directed 0 (fun _ l => Spec.HasLayer 1 aligned ops (.el l)) (Spec.HasNodeLayer 1 aligned ops)
        (Spec.weight [c] directed aligned ops) order ncoords nlcoords ∧
      ∀ a b, (a, b) ∈ f.edges ↔ Spec.HasNodeLayer 1 aligned ops a ∧ Spec.HasNodeLayer 1 aligned ops b ∧
        (Spec.Linked [c] directed aligned ops a b ∨ directed = true ∧ Spec.Linked [c] directed aligned ops b a) := by
  have hcs : [c] ≠ [] := by simp
  have hal' : aligned = true ∨ ∃ w, [c] = [.categorical w] := hal.imp id fun ⟨w, hw⟩ => ⟨w, by rw [hw]⟩
  have hS := main_sound (directed := directed) hU hs hal'
  have hpar := after_params hcs directed 0 aligned ops
  obtain ⟨l1, l2⟩ := plex_iterLayers (c := c) directed 0 aligned ops
  have hprod : ∀ u, u ∈ product (afterP [c] directed 0 aligned ops).view.slices ↔ _ := after_product hcs directed 0 aligned ops
  obtain ⟨f, nls, e, e1, e2, e3, e4, e5⟩ := drawFigure_ok hS hpar.1 (ls := (afterP [c] directed 0 aligned ops).iterLayers) (by
    intro nl hnl
    obtain ⟨n, s, rfl, hl, -, hL⟩ := (hprod nl).1 hnl
    match s, hl with
    | [l], _ => exact (l2 _).2 ⟨l, hL, rfl⟩) order ncoords nlcoords rand size
  obtain ⟨nls', n1, n2, n3⟩ := after_nodeLayers hcs directed 0 aligned ops
  have : nls = nls' := by
    have h : (afterP [c] directed 0 aligned ops).nodeLayers = .ok nls := e1
    rw [h] at n1; cases n1; rfl
  subst this
  have hnl2 : ∀ nl ∈ nls, ∃ n l, nl = [n, l] := by
    intro nl hnl
    obtain ⟨n, s, rfl, hl, -⟩ := (n3 nl).1 hnl
    match s, hl with
    | [l], _ => exact ⟨n, l, rfl⟩
  have hmap : f.nodes.map (fun n => n.nl) = nls := by
    rw [e3]
    clear e1 e3 n1 n2 n3
    induction nls with
    | nil => rfl
    | cons a t ih =>
      obtain ⟨n, l, rfl⟩ := hnl2 a (by simp)
      rw [List.flatMap_cons, List.map_append, ih fun x hx => hnl2 x (by simp [hx])]
      rfl
  have hz : (afterP [c] directed 0 aligned ops).view.noEdge = 0 := hpar.2.2.1
  have hd : (afterP [c] directed 0 aligned ops).view.directed = directed := hpar.2.1
  have hedges : ∀ a b, (a, b) ∈ f.edges ↔ Spec.HasNodeLayer 1 aligned ops a ∧ Spec.HasNodeLayer 1 aligned ops b ∧
      (Spec.weight [c] directed aligned ops a b ≠ 0 ∨ directed = true ∧ Spec.weight [c] directed aligned ops b a ≠ 0) := by
    intro a b
    rw [e5, hz]
    constructor
    · rintro ⟨ha, hb, hR⟩
      have hreg : Spec.HasNodeLayer 1 aligned ops a ∧ Spec.HasNodeLayer 1 aligned ops b := by
        rcases hR with hR | hR
        · exact after_closed hcs directed aligned ops hs ha hb hR
        · exact (after_closed hcs directed aligned ops hs hb ha hR).symm
      refine ⟨hreg.1, hreg.2, ?_⟩
      have r1 := main_R (directed := directed) hU hreg.1 hreg.2
      have r2 := main_R (directed := directed) hU hreg.2 hreg.1
      rw [r1, r2] at hR
      rcases hR with hR | hR
      · exact .inl hR
      · cases directed with
        | true => exact .inr ⟨rfl, hR⟩
        | false =>
          left
          rw [← r1, hS.sym hd a ha b hb, r2]
          exact hR
    · rintro ⟨ha, hb, hR⟩
      have r1 := main_R (directed := directed) hU ha hb
      have r2 := main_R (directed := directed) hU hb ha
      refine ⟨(reg_cases hcs directed 0 aligned ops ha).1, (reg_cases hcs directed 0 aligned ops hb).1, ?_⟩
      rw [r1, r2]
      exact hR.imp id fun h => h.2
  refine ⟨f, e, ⟨⟨?_, ?_⟩, ?_, ?_, ?_, e4, hedges⟩, ?_⟩
  · rw [e2, List.nodup_reverse]
    exact (List.perm_insertionSort _ _).nodup_iff.2 l1
  · intro L; rw [e2, List.mem_reverse, List.mem_insertionSort, l2]
  · intro l l' hl hl' ho gap hg
    exact z_lt_of_order e2 ((l2 _).2 ⟨l, hl, rfl⟩) ((l2 _).2 ⟨l', hl', rfl⟩) ho hg
  · rw [hmap]; exact ⟨n2, n3⟩
  · intro fn hfn n l hnl
    rw [e3, List.mem_flatMap] at hfn
    obtain ⟨a, ha, hfn⟩ := hfn
    obtain ⟨n', l', rfl⟩ := hnl2 a ha
    simp only [figNodes, List.mem_singleton] at hfn
    subst hfn
    cases hnl
    constructor
    · intro c hc; simp [nodeXY, hc]
    · intro hc c hc'; simp [nodeXY, hc, hc']
  · intro a b
    rw [hedges]
    constructor
    · rintro ⟨ha, hb, h⟩
      exact ⟨ha, hb, h.imp (after_weight hcs directed aligned ops hU ha hb).2.1 fun h => ⟨h.1, (after_weight hcs directed aligned ops hU hb ha).2.1 h.2⟩⟩
    · rintro ⟨ha, hb, h⟩
      exact ⟨ha, hb, h.imp (after_weight hcs directed aligned ops hU ha hb).2.2 fun h => ⟨h.1, (after_weight hcs directed aligned ops hU hb ha).2.2 h.2⟩⟩

/-- a history that meets the hypotheses: two layers, three nodes, three intra-layer links -/
def drawnPlex : List (POp Int Int) := [.setItem [1, 2, 10, 10] 1, .setItem [2, 3, 11, 11] 4, .setItem [1, 3, 11, 11] 2]

example : Spec.Usable [.categorical (1 : Int)] false drawnPlex ∧ Spec.NoIntraSelf drawnPlex := by
  refine ⟨⟨by simp, ?_, ?_⟩, ?_⟩
  · intro c hc
    rw [List.mem_singleton.1 hc]
    exact ⟨1, by decide, .inl rfl⟩
  · intro d w x h
    match d, h with
    | 0, h => cases h
  · intro L i w h
    simp [drawnPlex] at h

example : ∃ f : Figure Int ℚ, (afterP [.categorical (1 : Int)] false 0 false drawnPlex).figure (fun L => L.toList.headD 0) [] [] (fun _ => (0, 0))
      (fun _ => 0) = .ok f ∧ f.layers = [.el 11, .el 10] ∧ f.nodes.length = 5 ∧ f.edges.length = 10 ∧ ([2, 10], [2, 11]) ∈ f.edges :=
  ⟨_, rfl, by decide, by decide, by decide, by decide⟩

end Pymnet
