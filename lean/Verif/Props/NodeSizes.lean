import Verif.Model.NodeSizes
import Verif.Props.Net
import Mathlib.Analysis.Real.Sqrt
import Mathlib.Tactic.FieldSimp

/-! Property C147: the sizes and labels of nodes in figures. -/

namespace Pymnet

set_option linter.unusedSectionVars false

open Py

section sizes

variable {α W : Type} [DecidableEq α] [DecidableEq W]

/-- The number of nodes that the calls of a history named. -/
noncomputable def Spec.namedNodes (aspects : ℕ) (ops : List (Op α W)) : ℕ := {x | ∃ op ∈ ops, Spec.NamesNode aspects x op}.ncard

theorem slices_length (aspects : ℕ) (noEdge : W) (directed aligned : Bool) (ops : List (Op α W)) :
    ((after aspects noEdge directed aligned ops).view.slices.headD []).length = Spec.namedNodes aspects ops := by
  obtain ⟨h1, h2⟩ := C08_nodes aspects noEdge directed aligned ops
  have e : (after aspects noEdge directed aligned ops).view.slices.headD [] = (after aspects noEdge directed aligned ops).iterNodes none := rfl
  rw [e]
  unfold Spec.namedNodes
  rw [← List.toFinset_card_of_nodup h1, ← Set.ncard_coe_finset]
  congr 1
  ext x
  simp only [Finset.mem_coe, List.mem_toFinset, h2, Set.mem_ofPred_eq]

theorem namedNodes_pos (aspects : ℕ) (noEdge : W) (directed aligned : Bool) {ops : List (Op α W)} {x : α} {op : Op α W} (hop : op ∈ ops)
    (hx : Spec.NamesNode aspects x op) : 0 < Spec.namedNodes aspects ops := by
  rw [← slices_length aspects noEdge directed aligned]
  exact List.length_pos_of_mem (((C08_nodes aspects noEdge directed aligned ops).2 x).2 ⟨op, hop, hx⟩)

theorem sqrtLen_ne {aspects : ℕ} {noEdge : W} {directed aligned : Bool} {ops : List (Op α W)} (hn : 0 < Spec.namedNodes aspects ops) :
    sqrtLen Real.sqrt (after aspects noEdge directed aligned ops).view = Real.sqrt (Spec.namedNodes aspects ops) ∧
    Real.sqrt (Spec.namedNodes aspects ops) ≠ 0 := by
  unfold sqrtLen
  rw [slices_length]
  refine ⟨rfl, (Real.sqrt_pos.2 ?_).ne'⟩
  exact_mod_cast hn

variable (aspects : ℕ) (noEdge : W) (directed aligned : Bool) (ops : List (Op α W))

open Classical in
/-- **C147.** The rule "scaled" without modifiers – the default of `draw` – gives all nodes that are not in the dictionary the size
`scalecoeff` (or 1) divided by the square root of the number of nodes of the network. -/
theorem C147_scaled (hn : 0 < Spec.namedNodes aspects ops) (d : Dict (List α) (Option ℝ)) (default : Option ℝ)
    (layerName : α → ℝ) (name : List α → ℝ) (c : Option ℝ) (item : List α) (hd : item ∉ Dict.keys d) (i : Option ℕ) :
    nodeSize Real.sqrt d (some { rule := some .scaled, scalecoeff := c }) default (after aspects noEdge directed aligned ops).view
      layerName name item i = (.ok (some (c.getD 1 / Real.sqrt (Spec.namedNodes aspects ops))), i) := by
  obtain ⟨e, hne⟩ := sqrtLen_ne (noEdge := noEdge) (directed := directed) (aligned := aligned) hn
  have hl : lookupPlain d item = none := by unfold lookupPlain; rw [Dict.get_eq_none.2 hd]
  cases c <;>
  simp [nodeSize, nodeSizeAssigner, hl, Assigner.getByRule, propscaleV, divV, e, hne, Assigner.modify, modF, modMapping, Assigner.modScale]

/-- **C147.** So the squares of the sizes of all nodes add up to the square of the coefficient, whatever the number of nodes. -/
theorem C147_area (hn : 0 < Spec.namedNodes aspects ops) (c : ℝ) :
    (Spec.namedNodes aspects ops : ℝ) * (c / Real.sqrt (Spec.namedNodes aspects ops)) ^ 2 = c ^ 2 := by
  have h0 : (Spec.namedNodes aspects ops : ℝ) ≠ 0 := by exact_mod_cast hn.ne'
  rw [div_pow, Real.sq_sqrt (Nat.cast_nonneg _)]
  field_simp

/-- **C147.** The rule "degree" with "propscale", a function "f" and a constant "scaleby" in an undirected network: the function is applied to
the number of neighbours times `propscale` divided by the square root of the number of nodes, and its value is multiplied last. -/
theorem C147_degree (hn : 0 < Spec.namedNodes aspects ops) (d : Dict (List α) (Option ℝ)) (default : Option ℝ)
    (layerName : α → ℝ) (name : List α → ℝ) (c s : ℝ) (f : Option ℝ → Option ℝ) (y : ℝ) (item : List α) (hd : item ∉ Dict.keys d)
    (hy : f (some ((({b | Spec.read aspects false noEdge ops item b ≠ noEdge}.ncard : ℕ) : ℝ) * c / Real.sqrt (Spec.namedNodes aspects ops))) = some y)
    (i : Option ℕ) :
    nodeSize Real.sqrt d (some { rule := some .degree, propscale := some c, f := some f, scaleby := some (.const s) }) default
      (after aspects noEdge false aligned ops).view layerName name item i = (.ok (some (y * s)), i) := by
  obtain ⟨e, hne⟩ := sqrtLen_ne (noEdge := noEdge) (directed := false) (aligned := aligned) hn
  have hl : lookupPlain d item = none := by unfold lookupPlain; rw [Dict.get_eq_none.2 hd]
  have hdeg := C04_deg_undirected aspects noEdge aligned ops item (dims := none) trivial
  have hset : {b | Spec.read aspects false noEdge ops item b ≠ noEdge ∧ Spec.Allowed none b} = {b | Spec.read aspects false noEdge ops item b ≠ noEdge} := by
    ext b
    simp [Spec.Allowed]
  rw [hset] at hdeg
  simp [nodeSize, nodeSizeAssigner, nodeSpecial, hl, Assigner.getByRule, hdeg, propscaleV, divV, e, hne, timesV, Assigner.modify, modF, modMapping,
    Assigner.modScale, hy]

end sizes

section others

variable {α W V : Type} [DecidableEq α] [DecidableEq V] [Field V] (sqrt : V → V) (d : Dict (List α) (Option V)) (default : Option V)
  (v : View α W) (layerName : α → V) (name : List α → V) {item : List α} (i : Option ℕ)

/-- **C147.** Sizes in the dictionary are used as they are: neither rules nor "propscale" change them. -/
theorem C147_dict (p : Option (PropRule V)) {x : V} (h : Dict.get d item = some (some x)) :
    nodeSize sqrt d p default v layerName name item i = (.ok (some x), i) := by
  simp [nodeSize, nodeSizeAssigner, lookupPlain, h]

/-- **C147.** The labels: the rule "nodename" (the default) gives the name of the node and the rule "layer" that of the layer. -/
theorem C147_labels (nodeName : α → V) {n l : α} {t : List α} (h : (n :: l :: t) ∉ Dict.keys d) :
    (nodeLabelAssigner d (some { rule := some .nodename }) default v layerName name nodeName).get (n :: l :: t) i = (.ok (some (nodeName n)), i) ∧
    (nodeLabelAssigner d (some { rule := some .layer }) default v layerName name nodeName).get (n :: l :: t) i = (.ok (some (layerName l)), i) := by
  have hl : lookupPlain d (n :: l :: t) = none := by unfold lookupPlain; rw [Dict.get_eq_none.2 h]
  constructor <;>
  simp [nodeLabelAssigner, Assigner.get, hl, Assigner.getByRule, nodeSpecial, Assigner.modify, modF, modMapping, Assigner.modScale]

/-- **C147 is false** for the documented rule "name": for node sizes it is unknown, whatever the modifiers (for example a function that
computes a size from the name). -/
theorem C147_false_name (p : PropRule V) (hp : p.rule = some .name) (h : item ∉ Dict.keys d) :
    nodeSize sqrt d (some p) default v layerName name item i = (.error .exception, i) := by
  have hl : lookupPlain d item = none := by unfold lookupPlain; rw [Dict.get_eq_none.2 h]
  simp [nodeSize, nodeSizeAssigner, hl, hp]

/-- **C147 is false** for the documented rule "order", for which the first object gets the value 0: without "sequence" it raises. -/
theorem C147_false_order (p : PropRule V) (hp : p.rule = some .order) (hs : p.sequence = none) (h : item ∉ Dict.keys d) :
    nodeSize sqrt d (some p) default v layerName name item i = (.error .assertionError, i) := by
  have hl : lookupPlain d item = none := by unfold lookupPlain; rw [Dict.get_eq_none.2 h]
  simp [nodeSize, nodeSizeAssigner, nodeSpecial, hl, hp, Assigner.getByRule, orderValue, hs]

/-- **C147 is false** for the rule "f", which all assigners accept: the function is never called. The size is `None`, and with "propscale" there
is a `TypeError`. -/
theorem C147_false_f (p : PropRule V) (hp : p.rule = some .f) (h : item ∉ Dict.keys d) :
    (p.propscale = none → p.mapping = false → p.scaleby = none → nodeSize sqrt d (some p) default v layerName name item i = (.ok none, i)) ∧
    (p.propscale ≠ none → nodeSize sqrt d (some p) default v layerName name item i = (.error .typeError, i)) := by
  have hl : lookupPlain d item = none := by unfold lookupPlain; rw [Dict.get_eq_none.2 h]
  constructor
  · intro h1 h2 h3
    cases hf : p.f <;>
    simp [nodeSize, nodeSizeAssigner, nodeSpecial, hl, hp, Assigner.getByRule, propscaleV, h1, Assigner.modify, modF, modMapping, h2,
      Assigner.modScale, h3, hf]
  · intro h1
    cases hc : p.propscale with
    | none => exact absurd hc h1
    | some c => simp [nodeSize, nodeSizeAssigner, nodeSpecial, hl, hp, Assigner.getByRule, propscaleV, hc, timesV]

end others

/-! ### Examples -/

/-- four nodes, three of them on layer 10 -/
def sizeOps : List (Op Nat Int) := [.setItem [1, 2, 10, 10] 1, .setItem [1, 3, 10, 11] 1, .addNode 4 (some (.el 11))]

/-- the hypothesis on the number of nodes holds, and there are four nodes -/
example : 0 < Spec.namedNodes 1 sizeOps := by
  rw [← slices_length 1 0 false false]
  decide
example : Spec.namedNodes 1 sizeOps = 4 := by
  rw [← slices_length 1 0 false false]
  decide

/-- sizes of the model: with a square root of 4, the size of node 1 by degree 2 and `propscale` 3 is 2 · 3 / 2 -/
example : nodeSize (fun x : ℚ => x / 2) [] (some { rule := some .degree, propscale := some 3 }) none (after 1 (0 : Int) false false sizeOps).view
    (fun _ => 0) (fun _ => 0) [1, 10] none = (.ok (some 3), none) := by
  decide +kernel
example : nodeSize (fun x : ℚ => x / 2) [([1, 10], some 7)] (some { rule := some .scaled, scalecoeff := some (1 / 5) }) none
    (after 1 (0 : Int) false false sizeOps).view (fun _ => 0) (fun _ => 0) [2, 10] none = (.ok (some (1 / 10)), none) := by
  decide +kernel

end Pymnet
