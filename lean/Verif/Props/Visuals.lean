import Verif.Proofs.VisualsNet
import Verif.Props.Transforms
import Mathlib.Tactic.NormNum

/-! C124-C129: layouts and figures. -/

set_option linter.unusedSectionVars false
set_option linter.unusedSimpArgs false

namespace Pymnet

open Py

section

variable {κ K : Type} [DecidableEq κ] [Field K] [LinearOrder K] [IsStrictOrderedRing K]

/-! ### C124 -/

/-- **C124 (partial).** If the coordinates differ on both axes, `normalize_coordinates` returns coordinates of the same keys that arise by
stretching and shifting and fill the unit square, in place or not. Missing: a box of another size, for which the property is false
(`C124_false_box`). -/
theorem C124_normalize_partial {coords : Dict κ (K × K)} (hn : (Dict.keys coords).Nodup)
    (hx : ∃ k1 x1 y1 k2 x2 y2, Dict.get coords k1 = some (x1, y1) ∧ Dict.get coords k2 = some (x2, y2) ∧ x1 ≠ x2)
    (hy : ∃ k1 x1 y1 k2 x2 y2, Dict.get coords k1 = some (x1, y1) ∧ Dict.get coords k2 = some (x2, y2) ∧ y1 ≠ y2) (box : K × K) (inplace : Bool) :
    ∃ new, normalizeCoordinates coords box inplace = .ok new ∧ Spec.Rescales coords new ∧ Spec.FillsUnit new := by
  obtain ⟨k1, x1, y1, k2, x2, y2, g1, g2, hx⟩ := hx
  obtain ⟨k3, x3, y3, k4, x4, y4, g3, g4, hy⟩ := hy
  exact normalize_ok hn ⟨k1, _, k2, _, g1, g2, hx⟩ ⟨k3, _, k4, _, g3, g4, hy⟩ box inplace

/-- **C124.** If all coordinates are the same on one axis, a `ZeroDivisionError` is raised. -/
theorem C124_flat {coords : Dict κ (K × K)} (hn : (Dict.keys coords).Nodup) (hne : coords ≠ [])
    (h : (∀ k1 x1 y1 k2 x2 y2, Dict.get coords k1 = some (x1, y1) → Dict.get coords k2 = some (x2, y2) → x1 = x2) ∨
      ∀ k1 x1 y1 k2 x2 y2, Dict.get coords k1 = some (x1, y1) → Dict.get coords k2 = some (x2, y2) → y1 = y2) (box : K × K) (inplace : Bool) :
    normalizeCoordinates coords box inplace = .error .zeroDivisionError :=
  normalize_flat hn hne (h.imp (fun h k1 c1 k2 c2 => h k1 c1.1 c1.2 k2 c2.1 c2.2) fun h k1 c1 k2 c2 => h k1 c1.1 c1.2 k2 c2.1 c2.2) box inplace

/-- **C124.** No coordinates: a `TypeError`. -/
theorem C124_empty (box : K × K) (inplace : Bool) : normalizeCoordinates ([] : Dict κ (K × K)) box inplace = .error .typeError := rfl

/-- three points, used below -/
def threePoints : Dict Nat (ℚ × ℚ) := [(1, (0, 0)), (2, (2, 4)), (3, (1, 1))]

theorem normalize_threePoints (box : ℚ × ℚ) (inplace : Bool) :
    normalizeCoordinates threePoints box inplace = .ok [(1, (0, 0)), (2, (1, 1)), (3, (1 / 2, 1 / 4))] := by
  cases inplace <;>
  norm_num [normalizeCoordinates, threePoints, coordBounds, updMin, updMax, Dict.keys, forE, normStep, Dict.get, Dict.set]

/-- **C124** is false for boxes of another size: the greatest coordinate should be that of the box, but it is 1. -/
theorem C124_false_box : ¬ ∀ (coords : Dict Nat (ℚ × ℚ)) (box : ℚ × ℚ) (inplace : Bool) new, (Dict.keys coords).Nodup → 0 < box.1 → 0 < box.2 →
    normalizeCoordinates coords box inplace = .ok new → ∃ k y, Dict.get new k = some (box.1, y) := by
  intro hall
  obtain ⟨k, y, h⟩ := hall threePoints (2, 2) false _ (by decide) (by norm_num) (by norm_num) (normalize_threePoints _ _)
  have := Dict.mem_of_get h
  norm_num at this

end

example : ∃ k1 x1 y1 k2 x2 y2, Dict.get threePoints k1 = some (x1, y1) ∧ Dict.get threePoints k2 = some (x2, y2) ∧ y1 ≠ y2 :=
  ⟨1, 0, 0, 2, 2, 4, rfl, rfl, by norm_num⟩
example : (Dict.keys threePoints).Nodup := by decide

/-! ### C125 -/

section

variable {α W K : Type} [DecidableEq α] [DecidableEq W] [Field K] [LinearOrder K] [IsStrictOrderedRing K] {m : MNet α W} {d : Nat} {z : W}
  {dir al : Bool} {S : Nat → α → Prop} {NL : List α → Prop} {R : List α → List α → W}

/-- **C125 (partial).** The Fruchterman-Reingold layout of a network that has nodes, whatever the starting coordinates, the fixed nodes, the
number of iterations and the square root: it gives coordinates to exactly the nodes, they fill the unit square and fixed nodes keep their
relative positions, or it ends with a `ZeroDivisionError`. Missing: fully interconnected networks with several aspects, networks with nodes on no layer, other boxes, and
that fixed nodes stay where they are. These are false (`C125_aligned_aspects`, `C125_false_no_layer`, `C125_false_box`,
`C125_false_fixed`). -/
theorem C125_layout_partial [AddCommMonoid W] (h : Spec.Looks m d 0 dir al S NL R) (hd : 1 ≤ d) (hal : al = true → d = 1)
    (hon : al = false → ∀ n, S 0 n → ∃ s, NL (n :: s)) (hne : ∃ n, S 0 n) (sqrt : K → K) (nodeDist : Option K)
    (hdist : ∀ x, nodeDist = some x → 0 < x) (box : K × K) (nodeCoords : Dict α (K × K)) (rand : α → K × K) (fixed : List α) (iterations : Nat) :
    m.fr sqrt nodeDist box nodeCoords rand fixed iterations = .error .zeroDivisionError ∨
    ∃ r, m.fr sqrt nodeDist box nodeCoords rand fixed iterations = .ok r ∧ (Dict.keys r).Nodup ∧ (∀ n, n ∈ Dict.keys r ↔ S 0 n) ∧
      Spec.FillsUnit r ∧ Spec.KeepsShape (fun n => n ∈ fixed ∧ S 0 n) nodeCoords r :=
  h.fr_or hd hal hon hne sqrt nodeDist hdist box nodeCoords rand fixed iterations

/-- **C125.** A network with one node has no layout. -/
theorem C125_one_node [AddCommMonoid W] (h : Spec.Looks m d 0 dir al S NL R) (hd : 1 ≤ d) (hal : al = true → d = 1)
    (hon : al = false → ∀ n, S 0 n → ∃ s, NL (n :: s)) {x : α} (hx : ∀ n, S 0 n ↔ n = x) (sqrt : K → K) (nodeDist : Option K)
    (hdist : ∀ x, nodeDist = some x → 0 < x) (box : K × K) (nodeCoords : Dict α (K × K)) (rand : α → K × K) (fixed : List α) (iterations : Nat) :
    m.fr sqrt nodeDist box nodeCoords rand fixed iterations = .error .zeroDivisionError := by
  rcases h.fr_or hd hal hon ⟨x, (hx x).2 rfl⟩ sqrt nodeDist hdist box nodeCoords rand fixed iterations with h | ⟨r, -, -, h2, h3, -⟩
  · exact h
  · exfalso
    obtain ⟨k, y, hk⟩ := h3.left
    obtain ⟨k', y', hk'⟩ := h3.right
    have e := (hx k).1 ((h2 k).1 (Dict.mem_keys.2 (by rw [hk]; rfl)))
    have e' := (hx k').1 ((h2 k').1 (Dict.mem_keys.2 (by rw [hk']; rfl)))
    rw [e, ← e', hk'] at hk
    simp at hk

/-- **C125.** Fully interconnected networks with more than one aspect have no layout: an `AssertionError` is raised. -/
theorem C125_aligned_aspects [AddCommMonoid W] (h : Spec.Looks m d 0 dir true S NL R) (hd : 2 ≤ d) (sqrt : K → K) (nodeDist : Option K)
    (box : K × K) (nodeCoords : Dict α (K × K)) (rand : α → K × K) (fixed : List α) (iterations : Nat) :
    m.fr sqrt nodeDist box nodeCoords rand fixed iterations = .error .assertionError := by
  obtain ⟨m', e, hm'⟩ := C26_aggregate h (asp := [1]) (by simp) (by simp; omega)
  have hm0 : m'.aspects ≠ 0 := by rw [hm'.aspects_eq]; simp; omega
  have hasp : ¬ m.aspects < 1 := by rw [h.aspects_eq]; omega
  simp only [MNet.fr, MNet.frNet, if_neg hasp, h.aligned_eq, if_true, e, ne_eq, hm0, not_false_eq_true]

end

/-- two nodes on a layer -/
def layoutOps : List (Op Nat Int) := [.addNode 1 (some (.el 10)), .addNode 2 (some (.el 10))]

theorem frNet_layoutOps : (after 1 (0 : Int) false false layoutOps).frNet = .ok ⟨[1, 2], [], [(1, [.el 10]), (2, [.el 10])]⟩ := rfl

theorem fr_fixed (sqrt : ℚ → ℚ) (box : ℚ × ℚ) : (after 1 (0 : Int) false false layoutOps).fr sqrt (some 1) box [(1, (0, 0)), (2, (2, 4))] (fun _ => (0, 0))
    [1, 2] 1 = .ok [(1, (0, 0)), (2, (1, 1))] := by
  simp only [MNet.fr, frNet_layoutOps]
  norm_num [frLayout, frDist, frLoop, frStep, frStart, forE, spring, repulse, moveNode, addForce, addDelta, normalizeCoordinates, coordBounds,
    updMin, updMax, normStep, Dict.keys, Dict.get, Dict.set]

/-- **C125** is false for other boxes: the coordinates do not reach the bound of the box. -/
theorem C125_false_box : ¬ ∀ (ops : List (Op Nat Int)) (sqrt : ℚ → ℚ) (box : ℚ × ℚ) (nodeCoords : Dict Nat (ℚ × ℚ)) (rand : Nat → ℚ × ℚ)
    (fixed : List Nat) (iterations : Nat) r, 0 < box.1 → 0 < box.2 →
    (after 1 (0 : Int) false false ops).fr sqrt (some 1) box nodeCoords rand fixed iterations = .ok r → ∃ k y, Dict.get r k = some (box.1, y) := by
  intro hall
  obtain ⟨k, y, h⟩ := hall layoutOps id (2, 4) _ _ _ _ _ (by norm_num) (by norm_num) (fr_fixed id (2, 4))
  have := Dict.mem_of_get h
  norm_num at this

/-- **C125** is false for fixed nodes: they are moved when the coordinates are normalised. -/
theorem C125_false_fixed : ¬ ∀ (ops : List (Op Nat Int)) (sqrt : ℚ → ℚ) (box : ℚ × ℚ) (nodeCoords : Dict Nat (ℚ × ℚ)) (rand : Nat → ℚ × ℚ)
    (fixed : List Nat) (iterations : Nat) r, 0 < box.1 → 0 < box.2 →
    (after 1 (0 : Int) false false ops).fr sqrt (some 1) box nodeCoords rand fixed iterations = .ok r →
    ∀ n ∈ fixed, ∀ c, Dict.get nodeCoords n = some c → Dict.get r n = some c := by
  intro hall
  have := hall layoutOps id (2, 4) _ _ _ _ _ (by norm_num) (by norm_num) (fr_fixed id (2, 4)) 2 (by simp) (2, 4) (by simp [Dict.get])
  simp [Dict.get] at this

/-- **C125** is false for networks with a node that is on no layer: a `KeyError` is raised. -/
theorem C125_false_no_layer : ∃ ops : List (Op Nat Int), ∀ (sqrt : ℚ → ℚ) (box : ℚ × ℚ) (nodeCoords : Dict Nat (ℚ × ℚ)) (rand : Nat → ℚ × ℚ),
    (after 1 (0 : Int) false false ops).fr sqrt (some 1) box nodeCoords rand [] 100 = .error .keyError := by
  refine ⟨[.addNode 1 (some (.el 10)), .addNode 2 none], fun sqrt box nodeCoords rand => ?_⟩
  have e : (after 1 (0 : Int) false false [.addNode 1 (some (.el 10)), .addNode 2 none]).frNet = .ok ⟨[1, 2], [], [(1, [.el 10])]⟩ := rfl
  simp only [MNet.fr, e]
  norm_num [frLayout, frDist, frLoop, frStep, forE, repulse, Dict.get]

example : ∃ n, n ∈ (after 1 (0 : Int) false false layoutOps).slices.headD [] := ⟨1, by decide⟩
example : ∀ n ∈ (after 1 (0 : Int) false false layoutOps).slices.headD [], ∃ s, (n :: s) ∈ (after 1 (0 : Int) false false layoutOps).nodeLayers := by
  intro n hn
  have : n = 1 ∨ n = 2 := by rw [show (after 1 (0 : Int) false false layoutOps).slices.headD [] = [1, 2] from rfl] at hn; simpa using hn
  rcases this with rfl | rfl <;> exact ⟨[10], by decide⟩

/-! ### C126 -/

section

variable {α W K O : Type} [DecidableEq α] [DecidableEq W] [Field K] [LinearOrder K] [LinearOrder O] {m : MNet α W} {d : Nat} {z : W}
  {dir al : Bool} {S : Nat → α → Prop} {NL : List α → Prop} {R : List α → List α → W}

theorem looks_iterLayers (h : Spec.Looks m 1 z dir al S NL R) : m.iterLayers.Nodup ∧ (∀ L, L ∈ m.iterLayers ↔ ∃ l, S 1 l ∧ L = .el l) := by
  have hlen := h.slices_length
  obtain ⟨N, Ls, hsl⟩ : ∃ N Ls, m.slices = [N, Ls] := by
    match hm : m.slices with
    | [a, b] => exact ⟨a, b, rfl⟩
    | [] => rw [hm] at hlen; simp at hlen
    | [_] => rw [hm] at hlen; simp at hlen
    | _ :: _ :: _ :: _ => rw [hm] at hlen; simp at hlen
  have e : m.iterLayers = Ls.map LKey.el := by
    rw [MNet.iterLayers_toList h.inv.r (by rw [h.aspects_eq]), hsl]
    simp only [List.drop_succ_cons, List.drop_zero, product, List.map_flatMap, List.map_cons, List.map_nil]
    rw [View.flatMap_single]; rfl
  rw [e]
  refine ⟨(h.inv.r.snodup Ls (by rw [hsl]; simp)).map fun a b hab => by cases hab; rfl, fun L => ?_⟩
  simp only [List.mem_map]
  have hm := fun x => h.slice_mem (a := 1) (s := Ls) (by rw [hsl]; rfl) x
  constructor
  · rintro ⟨x, hx, rfl⟩; exact ⟨x, (hm x).1 hx, rfl⟩
  · rintro ⟨x, hx, rfl⟩; exact ⟨x, (hm x).2 hx, rfl⟩

/-- What a figure shows of a network with one aspect. -/
structure Spec.Shows (f : Figure α K) (dir : Bool) (z : W) (S : Nat → α → Prop) (NL : List α → Prop) (R : List α → List α → W) (order : LKey α → O)
    (ncoords : Dict α (K × K)) (nlcoords : Dict (α ⊕ List α) (K × K)) : Prop where
  /-- each layer once -/
  layers : f.layers.Nodup ∧ ∀ L, L ∈ f.layers ↔ ∃ l, S 1 l ∧ L = .el l
  /-- layers that come earlier in the order are higher -/
  stacked : ∀ l l', S 1 l → S 1 l' → order (.el l) < order (.el l') → ∀ gap : K, 0 < gap → f.z gap (.el l') < f.z gap (.el l)
  /-- each node-layer once -/
  nodes : (f.nodes.map fun n => n.nl).Nodup ∧ ∀ nl, nl ∈ (f.nodes.map fun n => n.nl) ↔ NL nl
  /-- it is placed at its coordinates, or at those of its node -/
  placed : ∀ fn ∈ f.nodes, ∀ n l, fn.nl = [n, l] → (∀ c, Dict.get nlcoords (.inr [n, l]) = some c → (fn.x, fn.y) = c) ∧
    (Dict.get nlcoords (.inr [n, l]) = none → ∀ c, Dict.get ncoords n = some c → (fn.x, fn.y) = c)
  /-- each link is drawn once from each end; in a directed network also in the opposite direction -/
  edges : f.edges.Nodup ∧ ∀ a b, (a, b) ∈ f.edges ↔ NL a ∧ NL b ∧ (R a b ≠ z ∨ dir = true ∧ R b a ≠ z)

/-- **C126 (partial).** `draw` makes a figure of every network with one aspect that has each of its layers, node-layers and links, and no
others. Missing: the direction of links, which is lost (`C126_false`). -/
theorem C126_figure_partial [IsStrictOrderedRing K] (h : Spec.Looks m 1 z dir al S NL R) (order : LKey α → O) (ncoords : Dict α (K × K))
    (nlcoords : Dict (α ⊕ List α) (K × K)) (rand : List α → K × K) (size : List α → K) :
    ∃ f, m.figure order ncoords nlcoords rand size = .ok f ∧ Spec.Shows f dir z S NL R order ncoords nlcoords := by
  obtain ⟨l1, l2⟩ := looks_iterLayers h
  have hlen : ∀ a ∈ product m.view.slices, a.length = 2 := fun a ha => (h.sound.length_of_mem ha).trans (congrArg (· + 1) h.aspects_eq)
  obtain ⟨f, nls, e, e1, e2, e3, e4, e5⟩ := drawFigure_ok h.sound h.aspects_eq (ls := m.iterLayers) (by
    intro nl hnl
    have hl := hlen nl hnl
    match nl, hl with
    | [n, l], _ =>
      rw [l2]
      exact ⟨l, ((h.mem_product _).1 hnl).2 1 l rfl, rfl⟩) order ncoords nlcoords rand size
  have hnls : nls = m.nodeLayers := by cases e1; rfl
  have hmem : ∀ L, L ∈ f.layers ↔ ∃ l, S 1 l ∧ L = .el l := by
    intro L; rw [e2, List.mem_reverse, List.mem_insertionSort, l2]
  have hnl2 : ∀ nl ∈ nls, ∃ n l, nl = [n, l] := by
    intro nl hnl
    have := h.nl_length ((h.nodeLayers.2 nl).1 (hnls ▸ hnl))
    match nl, this with
    | [n, l], _ => exact ⟨n, l, rfl⟩
  have hmap : f.nodes.map (fun n => n.nl) = nls := by
    rw [e3]
    clear e1 e3 hnls
    induction nls with
    | nil => rfl
    | cons a t ih =>
      obtain ⟨n, l, rfl⟩ := hnl2 a (by simp)
      rw [List.flatMap_cons, List.map_append, ih fun x hx => hnl2 x (by simp [hx])]
      rfl
  refine ⟨f, e, ⟨?_, hmem⟩, ?_, ?_, ?_, e4, ?_⟩
  · rw [e2, List.nodup_reverse]
    exact (List.perm_insertionSort _ _).nodup_iff.2 l1
  · intro l l' hl hl' ho gap hg
    exact z_lt_of_order e2 ((l2 _).2 ⟨l, hl, rfl⟩) ((l2 _).2 ⟨l', hl', rfl⟩) ho hg
  · rw [hmap, hnls]; exact h.nodeLayers
  · intro fn hfn n l hnl
    rw [e3, List.mem_flatMap] at hfn
    obtain ⟨a, ha, hfn⟩ := hfn
    obtain ⟨n', l', rfl⟩ := hnl2 a ha
    simp only [figNodes, List.mem_singleton] at hfn
    subst hfn
    cases hnl
    constructor
    · intro c hc; simp [nodeXY, hc]
    · intro hc c hc'; simp [nodeXY, hc, hc']
  · intro a b
    rw [e5]
    have hz : m.view.noEdge = z := h.noEdge_eq
    rw [hz]
    constructor
    · rintro ⟨ha, hb, hR⟩
      rw [h.reads_eq (hlen a ha) (hlen b hb), h.reads_eq (hlen b hb) (hlen a ha)] at hR
      rcases hR with hR | hR
      · have := h.linked (hlen a ha) (hlen b hb) hR
        exact ⟨this.1.2, this.2.2, Or.inl hR⟩
      · have := h.linked (hlen b hb) (hlen a ha) hR
        refine ⟨this.2.2, this.1.2, ?_⟩
        cases dir with
        | true => exact Or.inr ⟨rfl, hR⟩
        | false => left; rw [h.sym (hlen a ha) (hlen b hb)]; exact hR
    · rintro ⟨ha, hb, hR⟩
      have ha' := h.nl_product ha
      have hb' := h.nl_product hb
      refine ⟨ha', hb', ?_⟩
      rw [h.reads_eq (hlen a ha') (hlen b hb'), h.reads_eq (hlen b hb') (hlen a ha')]
      exact hR.imp id fun h => h.2

/-- **C126.** Other numbers of aspects: an `AssertionError`. -/
theorem C126_aspects (h : Spec.Looks m d z dir al S NL R) (hd : d ≠ 1) (order : LKey α → O) (ncoords : Dict α (K × K))
    (nlcoords : Dict (α ⊕ List α) (K × K)) (rand : List α → K × K) (size : List α → K) :
    m.figure order ncoords nlcoords rand size = .error .assertionError := by
  have : m.view.aspects ≠ 1 := by rw [show m.view.aspects = d from h.aspects_eq]; exact hd
  simp only [MNet.figure, drawFigure, if_pos this]

/-- **C126** is false for directed networks: a link is also drawn in the direction in which there is none. -/
theorem C126_false : ¬ ∀ (ops : List (Op Nat Int)) (f : Figure Nat ℚ),
    (after 1 (0 : Int) true false ops).figure (fun _ => (0 : Nat)) [] [] (fun _ => (0, 0)) (fun _ => 0) = .ok f →
    ∀ a b, (a, b) ∈ f.edges → (after 1 (0 : Int) true false ops).reads a b ≠ 0 := by
  intro hall
  have hl := network_looks 1 (0 : Int) true false [.setItem [1, 2, 10, 10] 1]
  obtain ⟨f, e, hs⟩ := C126_figure_partial (K := ℚ) hl (fun _ => (0 : Nat)) [] [] (fun _ => (0, 0)) (fun _ => 0)
  refine hall _ f e [2, 10] [1, 10] ((hs.edges.2 _ _).2 ⟨(hl.nodeLayers.2 _).1 (by decide), (hl.nodeLayers.2 _).1 (by decide), Or.inr ⟨rfl, ?_⟩⟩) (by decide)
  rw [← hl.reads_eq (by rfl) (by rfl)]
  decide

example : 5 ≤ (after 1 (0 : Int) false false transOps).nodeLayers.length := by decide

/-! ### C127 -/

/-- **C127.** The coordinates of a figure are stretched and shifted into the unit square, on each axis in the same way for all nodes, and
nothing else is changed. If there is no padding, all nodes have size 0 and their coordinates on one axis are the same, a
`ZeroDivisionError` is raised instead. -/
theorem C127_figure_normalize [IsStrictOrderedRing K] {f : Figure α K} {padding : K} (hp : 0 ≤ padding) (hs : ∀ n ∈ f.nodes, 0 ≤ n.size) :
    (∃ f' a b c d, f.normalize padding = .ok f' ∧ 0 < a ∧ 0 < c ∧ f'.layers = f.layers ∧ f'.edges = f.edges ∧
      f'.nodes = f.nodes.map (fun n => { n with x := a * n.x + b, y := c * n.y + d }) ∧
      ∀ n ∈ f'.nodes, (0 ≤ n.x ∧ n.x ≤ 1) ∧ 0 ≤ n.y ∧ n.y ≤ 1) ∨
    (f.normalize padding = .error .zeroDivisionError ∧ padding = 0 ∧ f.nodes ≠ [] ∧ (∀ n ∈ f.nodes, n.size = 0) ∧
      ((∀ n ∈ f.nodes, ∀ n' ∈ f.nodes, n.x = n'.x) ∨ ∀ n ∈ f.nodes, ∀ n' ∈ f.nodes, n.y = n'.y)) :=
  figure_normalize hp hs

end

/-- a figure with one layer, two nodes and a link -/
def sampleFigure : Figure Nat ℚ := ⟨[.el 10], [⟨[1, 10], 0, 0, 1⟩, ⟨[2, 10], 3, 1, 1⟩], [([1, 10], [2, 10]), ([2, 10], [1, 10])]⟩

example : ∀ n ∈ sampleFigure.nodes, 0 ≤ n.size := by simp [sampleFigure]

/-! ### C128 -/

/-- **C128** is false: in figures drawn with the backend three.js the ends of an edge should be where its nodes are, but the second and
third coordinates of nodes, and only of nodes, are multiplied by 10. -/
theorem C128_false : ¬ ∀ (f : Figure Nat ℚ) (layergap S : ℚ), 0 < layergap → 0 < S → ∀ n ∈ f.nodes, (∃ e ∈ f.edges, e.1 = n.nl) →
    threejsEnd f layergap S n = threejsNode f layergap S n := by
  intro hall
  have := hall sampleFigure 1 1 (by norm_num) (by norm_num) ⟨[2, 10], 3, 1, 1⟩ (by simp [sampleFigure]) ⟨([2, 10], [1, 10]), by simp [sampleFigure], rfl⟩
  simp only [threejsEnd, threejsNode, Prod.mk.injEq] at this
  norm_num at this

/-- **C128 (partial).** The ends are where the nodes are exactly for the nodes on the lower edge of the lowest layer. -/
theorem C128_ends_partial {α K : Type} [DecidableEq α] [Field K] [LinearOrder K] [IsStrictOrderedRing K] (f : Figure α K) {layergap S : K}
    (hg : 0 < layergap) (hS : 0 < S) {n : FigNode α K} :
    threejsEnd f layergap S n = threejsNode f layergap S n ↔ n.y = 0 ∧ f.layers.idxOf (layerOfNl n.nl) = 0 := by
  simp only [threejsEnd, threejsNode, Figure.z, Prod.mk.injEq, true_and]
  have key : ∀ t : K, S * t = 10 * S * t ↔ t = 0 := by
    intro t
    constructor
    · intro h
      have h9 : (9 * S) * t = 0 := by linarith
      rcases mul_eq_zero.1 h9 with h | h
      · exfalso; linarith
      · exact h
    · rintro rfl; simp
  rw [key, key, mul_eq_zero, or_iff_left hg.ne', Nat.cast_eq_zero]

/-! ### C129 -/

section

variable {α W K : Type} [DecidableEq α] [DecidableEq W] [Field K] [LinearOrder K] [IsStrictOrderedRing K] {m : MNet α W} {d : Nat} {z : W}
  {dir al : Bool} {S : Nat → α → Prop} {NL : List α → Prop} {R : List α → List α → W}

/-- **C129 (partial).** `get_layout` with the layout "random" gives coordinates to exactly the nodes, or, if nodes are not aligned, to
exactly the node-layers. Missing: the layout "fr" without aligned nodes, which gives no coordinates to node-layers (`C129_false`). -/
theorem C129_random_partial [AddCommMonoid W] (h : Spec.Looks m d z dir al S NL R) (nx : MNet α W → Dict α (K × K)) (rand : α → K × K)
    (randNl : List α → K × K) (sqrt : K → K) (randFr : α → K × K) :
    (∃ nc, m.getLayout .random true nx rand randNl sqrt randFr = .ok (nc, []) ∧ (Dict.keys nc).Nodup ∧ ∀ n, n ∈ Dict.keys nc ↔ S 0 n) ∧
    ∃ nlc, m.getLayout .random false nx rand randNl sqrt randFr = .ok ([], nlc) ∧ (Dict.keys nlc).Nodup ∧
      ∀ k, k ∈ Dict.keys nlc ↔ ∃ nl, NL nl ∧ k = .inr nl := by
  refine ⟨⟨_, rfl, ?_, fun n => ?_⟩, ⟨_, rfl, ?_, fun k => ?_⟩⟩
  · rw [keys_foldl_set _ h.headD.1]; exact h.headD.1
  · rw [keys_foldl_set _ h.headD.1]; exact h.headD.2 n
  · rw [keys_foldl_inr _ h.nodeLayers.1]
    exact h.nodeLayers.1.map fun a b hab => by cases hab; rfl
  · rw [keys_foldl_inr _ h.nodeLayers.1, List.mem_map]
    constructor
    · rintro ⟨nl, h1, rfl⟩; exact ⟨nl, (h.nodeLayers.2 nl).1 h1, rfl⟩
    · rintro ⟨nl, h1, rfl⟩; exact ⟨nl, (h.nodeLayers.2 nl).2 h1, rfl⟩

/-- **C129.** `get_layout` with the layout "fr" and aligned nodes. -/
theorem C129_fr_partial [AddCommMonoid W] (h : Spec.Looks m d 0 dir al S NL R) (hd : 1 ≤ d) (hal : al = true → d = 1)
    (hon : al = false → ∀ n, S 0 n → ∃ s, NL (n :: s)) (hne : ∃ n, S 0 n) (nx : MNet α W → Dict α (K × K)) (rand : α → K × K)
    (randNl : List α → K × K) (sqrt : K → K) (randFr : α → K × K) :
    m.getLayout .fr true nx rand randNl sqrt randFr = .error .zeroDivisionError ∨
    ∃ nc, m.getLayout .fr true nx rand randNl sqrt randFr = .ok (nc, []) ∧ (Dict.keys nc).Nodup ∧ (∀ n, n ∈ Dict.keys nc ↔ S 0 n) ∧
      Spec.FillsUnit nc := by
  rcases h.fr_or hd hal hon hne sqrt none (by simp) (1, 1) [] randFr [] 100 with e | ⟨r, e, h1, h2, h3, -⟩
  · left; simp only [MNet.getLayout, if_true, e]
  · right; exact ⟨r, by simp only [MNet.getLayout, if_true, e], h1, h2, h3⟩

/-- **C129** is false for the layout "fr" without aligned nodes: whatever the network, no node-layer gets coordinates, and so `draw` places all of
them at random. -/
theorem C129_false [AddCommMonoid W] (m : MNet α W) (nx : MNet α W → Dict α (K × K)) (rand : α → K × K) (randNl : List α → K × K)
    (sqrt : K → K) (randFr : α → K × K) {ncoords : Dict α (K × K)} {nlcoords : Dict (α ⊕ List α) (K × K)}
    (e : m.getLayout .fr false nx rand randNl sqrt randFr = .ok (ncoords, nlcoords)) :
    (∀ nl, Dict.get nlcoords (.inr nl) = none) ∧ ∀ (random : List α → K × K) n nl, nodeXY ncoords nlcoords random n nl = random nl := by
  have key : ncoords = [] ∧ ∀ nl, Dict.get nlcoords (.inr nl) = none := by
    simp only [MNet.getLayout, Bool.false_eq_true, if_false] at e
    split at e
    · cases e
    · cases e
      refine ⟨rfl, fun nl => ?_⟩
      rw [Dict.get_eq_none]
      simp [Dict.keys]
  refine ⟨key.2, fun random n nl => ?_⟩
  simp only [nodeXY, key.2 nl, key.1, Dict.get]

/-- **C129.** The layouts of networkx are not available without aligned nodes. -/
theorem C129_nx [AddCommMonoid W] (m : MNet α W) (nx : MNet α W → Dict α (K × K)) (rand : α → K × K) (randNl : List α → K × K) (sqrt : K → K)
    (randFr : α → K × K) : m.getLayout .nx false nx rand randNl sqrt randFr = .error .exception := rfl

end

end Pymnet
