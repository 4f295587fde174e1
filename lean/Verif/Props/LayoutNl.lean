import Verif.Proofs.LayoutNl
import Verif.Props.Visuals

/-! C148: the Fruchterman-Reingold layout that gives coordinates to node-layers (`alignedNodes=False`). -/

set_option linter.unusedSectionVars false

namespace Pymnet

open Py

section

variable {α W K : Type} [DecidableEq α] [DecidableEq W] [Field K] [LinearOrder K] [IsStrictOrderedRing K] {m : MNet α W} {d : Nat}
  {dir : Bool} {S : Nat → α → Prop} {NL : List α → Prop} {R : List α → List α → W}

/-- the coordinates the caller gives to a node-layer: its own, or those of its node -/
def Spec.Given (nodelayerCoords : Dict (List α) (K × K)) (nodeCoords : Dict α (K × K)) (nl : List α) (x y : K) : Prop :=
  Dict.get nodelayerCoords nl = some (x, y) ∨
    Dict.get nodelayerCoords nl = none ∧ ∃ n t, nl = n :: t ∧ Dict.get nodeCoords n = some (x, y)

theorem frNlStart_given {box : K × K} {nlc : Dict (List α) (K × K)} {nc : Dict α (K × K)} {rand : List α → K × K} {nl : List α} {x y : K}
    (h : Spec.Given nlc nc nl x y) : frNlStart box nlc nc rand nl = (x, y) := by
  rcases h with h | ⟨h, n, t, rfl, h'⟩
  · simp only [frNlStart, h]
  · simp only [frNlStart, h, List.head?_cons, Option.bind_some, h']

/-- **C148 (partial).** The layout of a network that is not fully interconnected and has node-layers, with any number of aspects: it gives coordinates
to exactly the node-layers, they fill the unit square, and fixed node-layers with given coordinates keep their relative positions; or it ends with a
`ZeroDivisionError`. Missing: fully interconnected networks, for which it is false (`C148_false_interconnected`). -/
theorem C148_layout_partial [AddCommMonoid W] (h : Spec.Looks m d 0 dir false S NL R) (hd : 1 ≤ d) (hne : ∃ nl, NL nl) (all : α) (sqrt : K → K)
    (nodeDist : Option K) (hdist : ∀ x, nodeDist = some x → 0 < x) (box : K × K) (nodelayerCoords : Option (Dict (List α) (K × K)))
    (nodeCoords : Dict α (K × K)) (rand : List α → K × K) (fixed : List (List α)) (iterations : Nat) :
    m.frNl all sqrt nodeDist box nodelayerCoords nodeCoords rand fixed iterations = .error .zeroDivisionError ∨
    ∃ r, m.frNl all sqrt nodeDist box nodelayerCoords nodeCoords rand fixed iterations = .ok r ∧ (Dict.keys r).Nodup ∧
      (∀ nl, nl ∈ Dict.keys r ↔ NL nl) ∧ Spec.FillsUnit r ∧
      ∃ a b c d : K, 0 < a ∧ 0 < c ∧ ∀ nl x y, nl ∈ fixed → NL nl → Spec.Given (nodelayerCoords.getD []) nodeCoords nl x y →
        Dict.get r nl = some (a * x + b, c * y + d) := by
  obtain ⟨net, e, hok, hm⟩ := h.frNlNet hd all
  obtain ⟨x, hx⟩ := hne
  have hne' : net.nls ≠ [] := List.ne_nil_of_mem ((hm x).2 hx)
  have hc : ¬ (1 ≤ m.aspects ∧ m.fic = true ∧ nodelayerCoords.isSome) := by
    rintro ⟨-, h1, -⟩
    rw [h.aligned_eq] at h1; cases h1
  simp only [MNet.frNl, if_neg hc, e]
  rcases frNlLayout_or hok hne' sqrt nodeDist hdist box (frNlStart box (nodelayerCoords.getD []) nodeCoords rand) fixed iterations with
    h | ⟨r, h1, h2, h3, a, b, c, d, ha, hc, h4⟩
  · exact Or.inl h
  · refine Or.inr ⟨r, h1, by rw [h2]; exact hok.nodup, fun n => by rw [h2]; exact hm n, h3, a, b, c, d, ha, hc, fun nl x y hf hnl hg => ?_⟩
    rw [h4 nl hf ((hm nl).2 hnl), frNlStart_given hg]

/-- **C148.** The layout of a fully interconnected network with one aspect: the coordinates are those of node-layers of a network with the nodes
of this one and the single layer "all". -/
theorem C148_interconnected [AddCommMonoid W] (h : Spec.Looks m 1 0 dir true S NL R) (hne : ∃ n, S 0 n) (all : α) (sqrt : K → K)
    (nodeDist : Option K) (hdist : ∀ x, nodeDist = some x → 0 < x) (box : K × K) (nodeCoords : Dict α (K × K)) (rand : List α → K × K)
    (fixed : List (List α)) (iterations : Nat) :
    m.frNl all sqrt nodeDist box none nodeCoords rand fixed iterations = .error .zeroDivisionError ∨
    ∃ r, m.frNl all sqrt nodeDist box none nodeCoords rand fixed iterations = .ok r ∧ (Dict.keys r).Nodup ∧
      (∀ nl, nl ∈ Dict.keys r ↔ ∃ n, S 0 n ∧ nl = [n, all]) ∧ Spec.FillsUnit r := by
  obtain ⟨net, e, hok, hm⟩ := h.frNlNet_aligned all
  obtain ⟨x, hx⟩ := hne
  have hne' : net.nls ≠ [] := List.ne_nil_of_mem ((hm [x, all]).2 ⟨x, hx, rfl⟩)
  simp only [MNet.frNl, Option.isSome_none, Bool.false_eq_true, and_false, if_false, e]
  rcases frNlLayout_or hok hne' sqrt nodeDist hdist box (frNlStart box ((none : Option (Dict (List α) (K × K))).getD []) nodeCoords rand) fixed iterations with
    h | ⟨r, h1, h2, h3, -⟩
  · exact Or.inl h
  · exact Or.inr ⟨r, h1, by rw [h2]; exact hok.nodup, fun n => by rw [h2]; exact hm n, h3⟩

/-- **C148** is false for fully interconnected networks: if no layer has the name "all", no node-layer gets coordinates. -/
theorem C148_false_interconnected [AddCommMonoid W] (h : Spec.Looks m 1 0 dir true S NL R) (all : α) (hall : ¬ S 1 all) (sqrt : K → K)
    (nodeDist : Option K) (hdist : ∀ x, nodeDist = some x → 0 < x) (box : K × K) (nodeCoords : Dict α (K × K)) (rand : List α → K × K)
    (fixed : List (List α)) (iterations : Nat) {r : Dict (List α) (K × K)}
    (e : m.frNl all sqrt nodeDist box none nodeCoords rand fixed iterations = .ok r) {nl : List α} (hnl : NL nl) : Dict.get r nl = none := by
  have hp := (h.mem_product nl).1 (h.nl_product hnl)
  have hl := h.nl_length hnl
  match nl, hl, hp with
  | [n, l], _, hp =>
    rcases C148_interconnected h ⟨n, hp.2 0 n rfl⟩ all sqrt nodeDist hdist box nodeCoords rand fixed iterations with h' | ⟨r', e', -, h2, -⟩
    · rw [e] at h'; cases h'
    · rw [e] at e'; cases e'
      rw [Dict.get_eq_none, h2]
      rintro ⟨n', -, heq⟩
      have : l = all := by simpa using (List.cons.inj heq).2
      exact hall (this ▸ hp.2 1 l rfl)

/-- **C148.** Coordinates of node-layers cannot be given for a fully interconnected network: an `AssertionError` is raised. -/
theorem C148_interconnected_given [AddCommMonoid W] (h : Spec.Looks m d 0 dir true S NL R) (hd : 1 ≤ d) (all : α) (sqrt : K → K)
    (nodeDist : Option K) (box : K × K) (nodelayerCoords : Dict (List α) (K × K)) (nodeCoords : Dict α (K × K)) (rand : List α → K × K)
    (fixed : List (List α)) (iterations : Nat) :
    m.frNl all sqrt nodeDist box (some nodelayerCoords) nodeCoords rand fixed iterations = .error .assertionError := by
  have h1 : 1 ≤ m.aspects := by rw [h.aspects_eq]; exact hd
  have h2 : m.fic = true := h.aligned_eq
  simp [MNet.frNl, h1, h2]

/-- **C148.** A network without node-layers has no layout: a `TypeError` is raised. -/
theorem C148_empty [AddCommMonoid W] (h : Spec.Looks m d 0 dir false S NL R) (hd : 1 ≤ d) (hno : ∀ nl, ¬ NL nl) (all : α) (sqrt : K → K)
    {nodeDist : K} (hdist : 0 < nodeDist) (box : K × K) (nodelayerCoords : Option (Dict (List α) (K × K)))
    (nodeCoords : Dict α (K × K)) (rand : List α → K × K) (fixed : List (List α)) (iterations : Nat) :
    m.frNl all sqrt (some nodeDist) box nodelayerCoords nodeCoords rand fixed (iterations + 1) = .error .typeError := by
  obtain ⟨net, e, hok, hm⟩ := h.frNlNet hd all
  have h0 : net.nls = [] := List.eq_nil_iff_forall_not_mem.2 fun nl hnl => hno nl ((hm nl).1 hnl)
  have h1 : net.edges = [] := List.eq_nil_iff_forall_not_mem.2 fun p hp => by have := (hok.ends p hp).1; rw [h0] at this; simp at this
  have h2 : net.pairs = [] := List.eq_nil_iff_forall_not_mem.2 fun p hp => by have := (hok.pairs p hp).1; rw [h0] at this; simp at this
  have hc : ¬ (1 ≤ m.aspects ∧ m.fic = true ∧ nodelayerCoords.isSome) := by
    rintro ⟨-, h1, -⟩
    rw [h.aligned_eq] at h1; cases h1
  simp [MNet.frNl, if_neg hc, e, frNlLayout, frDist, hdist, frNlLoop, frNlStep, h0, h1, h2, forE, Dict.keys, normalizeCoordinates, coordBounds]

end

/-- the layout of a network with two nodes on two layers, both fixed -/
theorem frNl_fixed : (after 1 (0 : Int) false false [.addNode 1 (some (.el 10)), .addNode 2 (some (.el 20))]).frNl 99 (fun x : ℚ => x) (some 1) (1, 1)
    (some [([1, 10], (3, 5))]) [(2, (4, 9))] (fun _ => (0, 0)) [[1, 10], [2, 20]] 1 = .ok [([1, 10], (0, 0)), ([2, 20], (1, 1))] := by
  have e : (after 1 (0 : Int) false false [.addNode 1 (some (.el 10)), .addNode 2 (some (.el 20))]).frNlNet 99 =
      .ok ⟨2, [[1, 10], [2, 20]], [], [([1, 10], [1, 10]), ([2, 20], [2, 20])]⟩ := rfl
  have h1 : (after 1 (0 : Int) false false [.addNode 1 (some (.el 10)), .addNode 2 (some (.el 20))]).fic = false := rfl
  simp only [MNet.frNl, e, h1]
  norm_num [frNlLayout, frDist, frNlLoop, frNlStep, frNlStart, forE, springNl, repulseNl, moveNode, addForce, addDelta, normalizeCoordinates, coordBounds,
    updMin, updMax, normStep, Dict.keys, Dict.get, Dict.set]

/-- the layout of a fully interconnected network with the nodes 1 and 2 and the layer 10; 99 is "all" -/
theorem frNl_interconnected : (after 1 (0 : Int) false true [.addNode 1 (some (.el 10)), .addNode 2 (some (.el 10))]).frNl 99 (fun x : ℚ => x) (some 1)
    (1, 1) none [(1, (3, 5)), (2, (4, 9))] (fun _ => (0, 0)) [[1, 99], [2, 99]] 1 = .ok [([1, 99], (0, 0)), ([2, 99], (1, 1))] := by
  have e : (after 1 (0 : Int) false true [.addNode 1 (some (.el 10)), .addNode 2 (some (.el 10))]).frNlNet 99 =
      .ok ⟨2, [[1, 99], [2, 99]], [], [([1, 99], [1, 99]), ([1, 99], [2, 99]), ([2, 99], [1, 99]), ([2, 99], [2, 99])]⟩ := rfl
  simp only [MNet.frNl, e]
  norm_num [frNlLayout, frDist, frNlLoop, frNlStep, frNlStart, forE, springNl, repulseNl, moveNode, addForce, addDelta, normalizeCoordinates, coordBounds,
    updMin, updMax, normStep, Dict.keys, Dict.get, Dict.set]

example : Spec.Given [([1, 10], ((3 : ℚ), (5 : ℚ)))] [(2, (4, 9))] [2, 20] 4 9 := Or.inr ⟨by decide, 2, [20], rfl, by decide⟩

end Pymnet
