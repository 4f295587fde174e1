import Verif.Props.Clustering2
import Verif.Proofs.CycleCoef
import Mathlib.Data.Rat.Floor

/-! Properties C79–C83: elementary cycles and alternating walker clustering coefficients of multiplex networks. -/

set_option linter.unusedSectionVars false
set_option linter.unusedSimpArgs false

namespace Pymnet

open Py MPlex

namespace Spec

/-- Two nodes are linked in a layer of an undirected one-aspect multiplex network after a history. -/
def LinkedIn {α W : Type} [DecidableEq α] [Zero W] (aligned : Bool) (ops : List (POp α W)) (i j l : α) : Prop :=
  tensor aligned ops i j l ≠ 0

/-- The node-layers meant by the arguments `node` and `layer` (`None`: all). -/
def Meant {α : Type} (node layer : Option α) (u : α × α) : Prop := (∀ n ∈ node, u.1 = n) ∧ ∀ l ∈ layer, u.2 = l

end Spec

section

variable {α K : Type} [DecidableEq α] [Field K] [LinearOrder K] [IsStrictOrderedRing K] [FloorRing K] [LawfulIntNames α]
  {w : K} {aligned : Bool} {ops : List (POp α K)} {N B : Finset α} {M : α → Finset α}

theorem linked_ne (hs : Spec.NoIntraSelf ops) (h : Spec.Sets aligned ops N B M) (i j l : α)
    (hl : Spec.LinkedIn aligned ops i j l) : i ≠ j := by
  rintro rfl
  exact hl ((plexL (c := .categorical 1) hs h.nodes h.layers h.inLayer).self i l)

theorem linkOf_eq : LinkOf (fun i j l => Spec.readP 1 false aligned ops [l] i j) = Spec.LinkedIn aligned ops := rfl

theorem mem_filter' {β : Type} {p : β → Prop} {i : DecidablePred p} {s : Finset β} {a : β} :
    a ∈ @Finset.filter β p i s ↔ a ∈ s ∧ p a := Finset.mem_filter

theorem elem_nodes (p : MPlex α K) (hf : p.fic = true) (layer : Option α) (a : View α K) :
    p.elementaryCycles none layer (some a) = p.sumAnet p.view.nodes layer a := by
  cases layer <;> exact if_pos ⟨hf, .inl rfl⟩

theorem elem_agg (p : MPlex α K) (hf : p.fic = true) (layer : Option α) {m : MNet α K} (e : p.view.aggregate [1] false = .ok m) :
    p.elementaryCycles none layer none = p.sumAnet p.view.nodes layer m.view := by
  cases layer
  all_goals
    refine (if_pos ⟨hf, .inr rfl⟩).trans ?_
    rw [e]; rfl

theorem elem_node (p : MPlex α K) (hf : p.fic = true) (n : α) (a : View α K) :
    p.elementaryCycles (some n) none (some a) = p.sumAnet [n] none a := if_pos ⟨hf, .inl rfl⟩

/-- Internal: the arguments of `elementary_cycles`. -/
theorem meant_eq (node layer : Option α) (hn : ∀ n ∈ node, n ∈ N) (hl : ∀ l ∈ layer, l ∈ B) :
    ∃ X Y : Finset α, X ⊆ B ∧ Y ⊆ N ∧ (node = none → Y = N) ∧ (∀ n, node = some n → Y = {n}) ∧ (layer = none → X = B) ∧
      (∀ l, layer = some l → X = {l}) ∧ ∀ link : α → α → α → Prop,
      Spec.cycleSums N B M link (fun u => u.1 ∈ Y ∧ u.2 ∈ X) = Spec.cycleSums N B M link (Spec.Meant node layer) := by
  classical
  refine ⟨layer.elim B fun l => {l}, node.elim N fun n => {n}, ?_, ?_, ?_, ?_, ?_, ?_, ?_⟩
  · cases layer with
    | none => exact Finset.Subset.refl _
    | some l => simpa using hl l rfl
  · cases node with
    | none => exact Finset.Subset.refl _
    | some n => simpa using hn n rfl
  · rintro rfl; rfl
  · rintro n rfl; rfl
  · rintro rfl; rfl
  · rintro l rfl; rfl
  · intro link
    unfold Spec.cycleSums
    refine List.map_congr_left fun r _ => ?_
    refine Finset.sum_congr (Finset.ext fun u => ?_) fun _ _ => rfl
    rw [mem_filter', mem_filter']
    refine and_congr_right fun hu => ?_
    have hu' : u.1 ∈ N ∧ u.2 ∈ B := by
      unfold Spec.nodeLayers at hu
      exact Finset.mem_product.1 (mem_filter'.1 hu).1
    cases node <;> cases layer <;> simp [Spec.Meant, hu'.1, hu'.2]

/-- **C79** On an undirected one-aspect multiplex network with categorical couplings, node-aligned or not and with
any weights, `elementary_cycles` of a node and a layer (and `cc_cycle_vector_bf`, which it calls) returns for each
of the ten kinds of cycles `aaa, aacac, acaac, acaca, acacac, afa, afcac, acfac, acfca, acfcac` the number of closed
walks around the node-layer whose steps are: `a` along a link in the layer, `c` to the same node in another layer,
`f` to another node of the layer. -/
theorem C79_node_layer (hw : w ≠ 0) (hs : Spec.NoIntraSelf ops) (h : Spec.Sets aligned ops N B M) (n : α) {l : α} (hl : l ∈ B)
    (anet : Option (View α K)) :
    ∃ v, (afterP [.categorical w] false 0 aligned ops).elementaryCycles (some n) (some l) anet = .ok v ∧
      (afterP [.categorical w] false 0 aligned ops).cyclesBf n l = .ok v ∧
      v.toList = Spec.cycleCounts N B M (Spec.LinkedIn aligned ops) (n, l) := by
  obtain ⟨v, h1, h2⟩ := (cycL hw hs h.nodes h.layers h.inLayer).cyclesBf hl n
  exact ⟨v, h1, h1, h2⟩

/-- **C79** Without a node or a layer, `elementary_cycles` returns the sums over all node-layers meant. This holds
with any weights if the network is not node-aligned, or if only the layer is left out and no aggregated network is
given. -/
theorem C79_sums (hw : w ≠ 0) (hs : Spec.NoIntraSelf ops) (h : Spec.Sets aligned ops N B M) {node layer : Option α}
    (hn : ∀ n ∈ node, n ∈ N) (hl : ∀ l ∈ layer, l ∈ B) {anet : Option (View α K)}
    (ha : aligned = false ∨ (node ≠ none ∧ anet = none)) :
    ∃ v, (afterP [.categorical w] false 0 aligned ops).elementaryCycles node layer anet = .ok v ∧
      v.toList = Spec.cycleSums N B M (Spec.LinkedIn aligned ops) (Spec.Meant node layer) := by
  have hc := cycL hw hs h.nodes h.layers h.inLayer
  obtain ⟨X, Y, hX, hY, y1, y2, x1, x2, hm⟩ := meant_eq (M := M) node layer hn hl
  obtain ⟨ls, l1, l2, l3⟩ := hc.base.lay.layers
  have key : ∀ (ls ns : List α), ls.Nodup → (∀ x, x ∈ ls ↔ x ∈ X) → ns.Nodup → (∀ x, x ∈ ns ↔ x ∈ Y) →
      ∃ v, (afterP [.categorical w] false 0 aligned ops).sumBf ls ns = .ok v ∧
        v.toList = Spec.cycleSums N B M (Spec.LinkedIn aligned ops) (Spec.Meant node layer) := by
    intro ls ns a1 a2 a3 a4
    exact ⟨_, hc.sumBf hX a1 a2 a3 a4, by rw [hc.sum_filter hX hY, ← hm]; rfl⟩
  have hfic : (afterP [Coupling.categorical w] false 0 aligned ops).fic = aligned := (after_params (cs := [.categorical w]) (by simp) false 0 aligned ops).2.2.2.1
  have hb : ¬ ((afterP [Coupling.categorical w] false 0 aligned ops).fic = true ∧ (anet.isSome ∨ node = none)) := by
    rw [hfic]
    rintro ⟨rfl, h1⟩
    rcases ha with ha | ⟨ha, rfl⟩
    · cases ha
    · rcases h1 with h1 | h1
      · cases h1
      · exact ha h1
  cases node with
  | none =>
    cases layer with
    | none =>
      unfold elementaryCycles
      dsimp only
      rw [if_neg hb, l1, ok_bind]
      exact key _ _ l2 (by rw [x1 rfl]; exact l3) hc.base.lay.nodup (by rw [y1 rfl]; exact hc.base.lay.mem)
    | some l =>
      unfold elementaryCycles
      dsimp only
      rw [if_neg hb]
      exact key [l] _ (by simp) (by rw [x2 l rfl]; simp) hc.base.lay.nodup (by rw [y1 rfl]; exact hc.base.lay.mem)
  | some n =>
    cases layer with
    | none =>
      unfold elementaryCycles
      dsimp only
      rw [if_neg hb, l1, ok_bind]
      exact key _ [n] l2 (by rw [x1 rfl]; exact l3) (by simp) (by rw [y2 n rfl]; simp)
    | some l =>
      unfold elementaryCycles
      dsimp only
      have e := hc.sumBf hX (ls := [l]) (ns := [n]) (by simp) (by rw [x2 l rfl]; simp) (by simp) (Y := Y) (by rw [y2 n rfl]; simp)
      refine ⟨_, hc.bf_cyc (hl l rfl) n, ?_⟩
      rw [← hm, ← linkOf_eq, ← hc.sum_filter hX hY, x2 l rfl, y2 n rfl, Finset.sum_singleton, Finset.sum_singleton]

/-- Internal: the aggregated network of a node-aligned network without weights. -/
theorem anetOf (hw : w ≠ 0) (hU : Spec.Usable [.categorical w] true ops) (hs : Spec.NoIntraSelf ops)
    (h : Spec.Sets true ops N B M) (h1 : ∀ i j, ∀ l ∈ B, Spec.tensor true ops i j l = 0 ∨ Spec.tensor true ops i j l = 1) :
    ∃ m' wt, (afterP [.categorical w] false 0 true ops).view.aggregate [1] false = .ok m' ∧
      AnetOf (afterP [.categorical w] false 0 true ops) m'.view N B M (fun i j l => Spec.readP 1 false true ops [l] i j) wt := by
  obtain ⟨m', wt, e, g1, g2, -, g4⟩ := plexAgg hU hs (.inl rfl) h
  refine ⟨m', wt, e, ⟨cycL hw hs h.nodes h.layers h.inLayer, (after_params (cs := [.categorical w]) (by simp) false 0 true ops).2.2.2.1, ?_, g1, g2, g4⟩⟩
  exact fun i j l hl => h1 i j l hl

/-- **C81 (partial)** On a node-aligned network with categorical couplings and without weights (every link weighs 1),
the counts from the aggregated network are the same: `cc_cycle_vector_anet` counts the closed walks around the
node-layer, or around all node-layers of the node if no layer is given.

Missing: weights (see `C81_false_weights`). -/
theorem C81_anet_partial (hw : w ≠ 0) (hU : Spec.Usable [.categorical w] true ops) (hs : Spec.NoIntraSelf ops)
    (h : Spec.Sets true ops N B M) (h1 : ∀ i j, ∀ l ∈ B, Spec.tensor true ops i j l = 0 ∨ Spec.tensor true ops i j l = 1)
    {n : α} (hn : n ∈ N) {layer : Option α} (hl : ∀ l ∈ layer, l ∈ B) :
    ∃ m' v, (afterP [.categorical w] false 0 true ops).view.aggregate [1] false = .ok m' ∧
      (afterP [.categorical w] false 0 true ops).cyclesAnet n layer m'.view = .ok v ∧
      v.toList = Spec.cycleSums N B M (Spec.LinkedIn true ops) (Spec.Meant (some n) layer) := by
  obtain ⟨m', wt, e, ha⟩ := anetOf hw hU hs h h1
  obtain ⟨X, Y, hX, hY, y1, y2, x1, x2, hm⟩ := meant_eq (M := M) (some n) layer (by simpa using hn) hl
  cases layer with
  | none =>
    obtain ⟨v, v1, v2⟩ := ha.cyclesAnet_none hn
    refine ⟨m', v, e, v1, ?_⟩
    rw [← hm, ← linkOf_eq, ← ha.cyc.sum_filter hX hY, x1 rfl, y2 n rfl, v2, cyc_toList]
    refine List.map_congr_left fun r _ => ?_
    simp only [Finset.sum_singleton, Finset.sum_apply]
    rfl
  | some l =>
    obtain ⟨v, v1, v2⟩ := ha.cyclesAnet (hl l rfl) hn
    refine ⟨m', v, e, v1, ?_⟩
    rw [← hm, ← linkOf_eq, ← ha.cyc.sum_filter hX hY, x2 l rfl, y2 n rfl, v2, cyc_toList]
    refine List.map_congr_left fun r _ => ?_
    simp only [Finset.sum_singleton]
    rfl

/-- **C81 (partial)** The same for `elementary_cycles` with the aggregated network given or not, and any choice of
node and layer. -/
theorem C81_elementary_partial (hw : w ≠ 0) (hU : Spec.Usable [.categorical w] true ops) (hs : Spec.NoIntraSelf ops)
    (h : Spec.Sets true ops N B M) (h1 : ∀ i j, ∀ l ∈ B, Spec.tensor true ops i j l = 0 ∨ Spec.tensor true ops i j l = 1)
    {node layer : Option α} (hn : ∀ n ∈ node, n ∈ N) (hl : ∀ l ∈ layer, l ∈ B) :
    ∃ m', (afterP [.categorical w] false 0 true ops).view.aggregate [1] false = .ok m' ∧
      ∀ anet, anet = none ∨ anet = some m'.view →
      ∃ v, (afterP [.categorical w] false 0 true ops).elementaryCycles node layer anet = .ok v ∧
        v.toList = Spec.cycleSums N B M (Spec.LinkedIn true ops) (Spec.Meant node layer) := by
  obtain ⟨m', wt, e, ha⟩ := anetOf hw hU hs h h1
  obtain ⟨X, Y, hX, hY, y1, y2, x1, x2, hm⟩ := meant_eq (M := M) node layer hn hl
  refine ⟨m', e, fun anet hanet => ?_⟩
  have key : ∀ ns : List α, ns.Nodup → (∀ x, x ∈ ns ↔ x ∈ Y) →
      ∃ v, (afterP [.categorical w] false 0 true ops).sumAnet ns layer m'.view = .ok v ∧
        v.toList = Spec.cycleSums N B M (Spec.LinkedIn true ops) (Spec.Meant node layer) := by
    intro ns a3 a4
    rw [← hm, ← linkOf_eq, ← ha.cyc.sum_filter hX hY]
    cases layer with
    | none => rw [x1 rfl]; exact ⟨_, ha.sumAnet hY a3 a4, rfl⟩
    | some l => rw [x2 l rfl]; exact ⟨_, ha.sumAnetL (hl l rfl) hY a3 a4, rfl⟩
  by_cases hb : anet = some m'.view ∨ node = none
  · cases node with
    | none =>
      obtain ⟨v, v1, v2⟩ := key _ ha.cyc.base.lay.nodup (by rw [y1 rfl]; exact ha.cyc.base.lay.mem)
      refine ⟨v, ?_, v2⟩
      rcases hanet with rfl | rfl
      · rw [elem_agg _ ha.al _ e, v1]
      · rw [elem_nodes _ ha.al, v1]
    | some n =>
      have hb' : anet = some m'.view := hb.resolve_right (by simp)
      subst hb'
      cases layer with
      | none =>
        obtain ⟨v, v1, v2⟩ := key [n] (by simp) (by rw [y2 n rfl]; simp)
        exact ⟨v, by rw [elem_node _ ha.al, v1], v2⟩
      | some l =>
        refine ⟨_, ha.cyc.bf_cyc (hl l rfl) n, ?_⟩
        rw [← hm, ← linkOf_eq, ← ha.cyc.sum_filter hX hY, x2 l rfl, y2 n rfl, Finset.sum_singleton, Finset.sum_singleton]
  · rw [not_or] at hb
    exact C79_sums hw hs h hn hl (.inr ⟨hb.2, hanet.resolve_right hb.1⟩)

/-! ### The coefficients -/

/-- **C80** `lcc_aw` is the alternating walker coefficient of the cycles around the node-layer, whatever the weights
of the links: with `w3=None` the quotient of the weights of the closed and of the possible cycles (0 if none is
possible), otherwise the weighted sum of the three parts; with `returnCVector` the three parts. -/
theorem C80_lcc_aw (hw : w ≠ 0) (hs : Spec.NoIntraSelf ops) (h : Spec.Sets aligned ops N B M) (n : α) {l : α} (hl : l ∈ B)
    (w1 w2 : K) (w3 : Option K) (anet : Option (View α K)) :
    (afterP [.categorical w] false 0 aligned ops).lccAw n l w1 w2 w3 anet =
      .ok (Spec.aw w1 w2 w3 (Spec.cycleCounts N B M (Spec.LinkedIn aligned ops) (n, l))) ∧
    (afterP [.categorical w] false 0 aligned ops).lccAwVector n l anet =
      .ok (Spec.awParts (Spec.cycleCounts N B M (Spec.LinkedIn aligned ops) (n, l))) := by
  obtain ⟨v, h1, -, h2⟩ := C79_node_layer hw hs h n hl anet
  constructor
  · unfold lccAw; rw [h1, ok_bind, awValue_eq, h2]; rfl
  · unfold lccAwVector; rw [h1, ok_bind, awVector_eq, h2]; rfl

/-- **C80** With `w1, w2 ≥ 0` the coefficient is between 0 and 1, and between 0 and `w1+w2+w3` if `w3 ≥ 0` is given;
each of the three parts is between 0 and 1. This holds around each node-layer, around each node and for the whole
network. -/
theorem C80_range (hs : Spec.NoIntraSelf ops) (h : Spec.Sets aligned ops N B M) {w1 w2 : K} {w3 : Option K} (h1 : 0 ≤ w1)
    (h2 : 0 ≤ w2) (h3 : ∀ x ∈ w3, 0 ≤ x) {c : List Int}
    (hc : (∃ u, c = Spec.cycleCounts N B M (Spec.LinkedIn aligned ops) u) ∨
      ∃ P, c = Spec.cycleSums N B M (Spec.LinkedIn aligned ops) P) :
    (0 ≤ Spec.aw w1 w2 w3 c ∧ Spec.aw w1 w2 w3 c ≤ Spec.awMax w1 w2 w3) ∧
      (0 ≤ (Spec.awParts c : K × K × K).1 ∧ (Spec.awParts c : K × K × K).1 ≤ 1) ∧
      (0 ≤ (Spec.awParts c : K × K × K).2.1 ∧ (Spec.awParts c : K × K × K).2.1 ≤ 1) ∧
      (0 ≤ (Spec.awParts c : K × K × K).2.2 ∧ (Spec.awParts c : K × K × K).2.2 ≤ 1) := by
  have hg : GoodC c := by
    rcases hc with ⟨u, rfl⟩ | ⟨P, rfl⟩
    · exact good_counts (linked_ne hs h) u
    · exact good_sums (linked_ne hs h) P
  exact ⟨aw_range h1 h2 h3 hg, part_range hg.c1, part_range hg.c2, part_range hg.c3⟩

/-- **C80** `lcc_aw` is in the range. -/
theorem C80_lcc_aw_range (hw : w ≠ 0) (hs : Spec.NoIntraSelf ops) (h : Spec.Sets aligned ops N B M) (n : α) {l : α} (hl : l ∈ B)
    {w1 w2 : K} {w3 : Option K} (h1 : 0 ≤ w1) (h2 : 0 ≤ w2) (h3 : ∀ x ∈ w3, 0 ≤ x) (anet : Option (View α K)) :
    ∃ x, (afterP [.categorical w] false 0 aligned ops).lccAw n l w1 w2 w3 anet = .ok x ∧ 0 ≤ x ∧ x ≤ Spec.awMax w1 w2 w3 :=
  ⟨_, (C80_lcc_aw hw hs h n hl w1 w2 w3 anet).1, (C80_range hs h h1 h2 h3 (.inl ⟨_, rfl⟩)).1⟩

/-- **C80** `sncc_aw` (without an aggregated network) and `sncc_aw_layercost` are the coefficient of all cycles
around the node-layers of a node; so is `sncc_aw_seplayers`, but it returns `undefined` if no cycle of a kind with
positive weight is possible. -/
theorem C80_sncc_aw (hw : w ≠ 0) (hs : Spec.NoIntraSelf ops) (h : Spec.Sets aligned ops N B M) {n : α} (hn : n ∈ N)
    (w1 w2 : K) (w3 : Option K) {c : List Int}
    (hc : c = Spec.cycleSums N B M (Spec.LinkedIn aligned ops) (Spec.Meant (some n) none)) :
    (afterP [.categorical w] false 0 aligned ops).snccAw n w1 w2 w3 none = .ok (Spec.aw w1 w2 w3 c) ∧
    (afterP [.categorical w] false 0 aligned ops).snccAwVector n none = .ok (Spec.awParts c) ∧
    (afterP [.categorical w] false 0 aligned ops).snccLayercost n w1 w2 = .ok (Spec.aw w1 w2 none c) ∧
    ∀ x, (afterP [.categorical w] false 0 aligned ops).snccSeplayers n w1 w2 x = .ok
      (if ((Spec.possibleSums c).1 = 0 ∧ 0 < w1) ∨ ((Spec.possibleSums c).2.1 = 0 ∧ 0 < w2) ∨
          ((Spec.possibleSums c).2.2 = 0 ∧ 0 < x) then none else some (Spec.aw w1 w2 (some x) c)) := by
  have ha : aligned = false ∨ (some n ≠ none ∧ (none : Option (View α K)) = none) := .inr ⟨by simp, rfl⟩
  obtain ⟨v, h1, h2⟩ := C79_sums hw hs h (node := some n) (layer := none) (by simpa using hn) (by simp) ha
  obtain ⟨ls, l1, -⟩ := (cycL hw hs h.nodes h.layers h.inLayer).base.lay.layers
  have hb : ¬ ((afterP [Coupling.categorical w] false 0 aligned ops).fic = true ∧
      ((none : Option (View α K)).isSome ∨ some n = none)) := by simp
  have hv : (afterP [Coupling.categorical w] false 0 aligned ops).sumBf ls [n] = .ok v := by
    rw [← h1]
    unfold elementaryCycles
    dsimp only
    rw [if_neg hb, l1, ok_bind]
  rw [← hc] at h2
  refine ⟨?_, ?_, ?_, ?_⟩
  · unfold snccAw; rw [h1, ok_bind, awValue_eq, h2]; rfl
  · unfold snccAwVector; rw [h1, ok_bind, awVector_eq, h2]; rfl
  · unfold snccLayercost
    rw [l1, ok_bind, hv, ok_bind]
    refine congrArg Except.ok ((if_div _ _).trans ?_)
    simp only [Spec.aw, Spec.cycleWeight, closedOf_eq, possibleOf_eq, h2]
    congr 1 <;> ring
  · intro x
    unfold snccSeplayers
    rw [l1, ok_bind, hv, ok_bind]
    refine congrArg Except.ok ?_
    have e := awValue_eq w1 w2 (some x) v
    simp only [awValue, closedOf_eq, possibleOf_eq, h2] at e
    simp only [closedOf_eq, possibleOf_eq, h2]
    by_cases h1 : (Spec.possibleSums c).1 = 0 ∧ 0 < w1 <;> by_cases h2 : (Spec.possibleSums c).2.1 = 0 ∧ 0 < w2 <;>
      by_cases h3 : (Spec.possibleSums c).2.2 = 0 ∧ 0 < x <;> simp [h1, h2, h3, e]

/-- Internal: sums over node-layers. -/
theorem sum_over {β : Type} [AddCommMonoid β] (hM : ∀ l ∈ B, M l ⊆ N) (g : α × α → β) :
    ∑ l ∈ B, ∑ n ∈ M l, g (n, l) = ∑ u ∈ Spec.nodeLayers N B M, g u := by
  classical
  unfold Spec.nodeLayers
  rw [Finset.sum_filter, Finset.sum_product_right]
  refine Finset.sum_congr rfl fun l hl => ?_
  refine Eq.trans ?_ (Finset.sum_subset (hM l hl) fun n _ hn => if_neg hn)
  exact Finset.sum_congr rfl fun n hn => (if_pos hn).symm

/-- **C80** `avg_lcc_aw` is the mean of `lcc_aw` over all node-layers; it raises ZeroDivisionError if and only if
there is none. -/
theorem C80_avg_lcc_aw (hw : w ≠ 0) (hs : Spec.NoIntraSelf ops) (h : Spec.Sets aligned ops N B M) (w1 w2 : K) (w3 : Option K) :
    (afterP [.categorical w] false 0 aligned ops).avgLccAw w1 w2 w3 =
      if Spec.nodeLayers N B M = ∅ then .error .zeroDivisionError
      else .ok ((∑ u ∈ Spec.nodeLayers N B M,
        Spec.aw w1 w2 w3 (Spec.cycleCounts N B M (Spec.LinkedIn aligned ops) u)) / (Spec.nodeLayers N B M).card) := by
  have hc := cycL hw hs h.nodes h.layers h.inLayer
  obtain ⟨ls, l1, l2, l3⟩ := hc.base.lay.layers
  have e : (afterP [Coupling.categorical w] false 0 aligned ops).avgSum w1 w2 w3 =
      .ok (∑ u ∈ Spec.nodeLayers N B M,
        Spec.aw w1 w2 w3 (Spec.cycleCounts N B M (Spec.LinkedIn aligned ops) u), ((Spec.nodeLayers N B M).card : K)) := by
    unfold avgSum
    rw [l1, ok_bind]
    have := forE_fin (f := fun (s : K × K) l => do
        let c ← (afterP [Coupling.categorical w] false 0 aligned ops).layerNet l
        forE (fun (s : K × K) n => do
          let x ← (afterP [Coupling.categorical w] false 0 aligned ops).lccAw n l w1 w2 w3 none
          pure (s.1 + x, s.2 + 1)) c.view.nodes s) (g := fun l => ∑ n ∈ M l,
      ((Spec.aw w1 w2 w3 (Spec.cycleCounts N B M (Spec.LinkedIn aligned ops) (n, l)), (1 : K)) : K × K)) l2 l3 (by
        intro l hl s
        obtain ⟨c, hc1, hc2, -⟩ := hc.child l hl
        rw [hc1, ok_bind]
        refine forE_fin hc2.nodup hc2.mem (fun n _ s => ?_) s
        rw [(C80_lcc_aw hw hs h n hl w1 w2 w3 none).1, ok_bind]
        rfl) (0, 0)
    rw [this]
    refine congrArg Except.ok ?_
    rw [sum_over hc.sub (fun u => ((Spec.aw w1 w2 w3 (Spec.cycleCounts N B M (Spec.LinkedIn aligned ops) u), (1 : K)) : K × K))]
    refine Prod.ext ?_ ?_
    · simp [Prod.fst_sum]
    · simp [Prod.snd_sum]
  unfold avgLccAw
  rw [e, ok_bind]
  unfold divE
  by_cases h0 : Spec.nodeLayers N B M = ∅
  · rw [if_pos h0, if_pos (by rw [h0]; simp)]
  · rw [if_neg h0, if_neg (by
      rw [Nat.cast_eq_zero, Finset.card_eq_zero]
      exact h0)]

/-- **C80** The mean is in the range too. -/
theorem C80_avg_lcc_aw_range (hw : w ≠ 0) (hs : Spec.NoIntraSelf ops) (h : Spec.Sets aligned ops N B M)
    (h0 : (Spec.nodeLayers N B M).Nonempty) {w1 w2 : K} {w3 : Option K} (h1 : 0 ≤ w1) (h2 : 0 ≤ w2) (h3 : ∀ x ∈ w3, 0 ≤ x) :
    ∃ x, (afterP [.categorical w] false 0 aligned ops).avgLccAw w1 w2 w3 = .ok x ∧ 0 ≤ x ∧ x ≤ Spec.awMax w1 w2 w3 := by
  refine ⟨_, by rw [C80_avg_lcc_aw hw hs h, if_neg h0.ne_empty], ?_⟩
  have hr := fun u => (C80_range (w3 := w3) hs h h1 h2 h3 (c := Spec.cycleCounts N B M (Spec.LinkedIn aligned ops) u)
    (.inl ⟨u, rfl⟩)).1
  have hp : (0 : K) < (Spec.nodeLayers N B M).card := by exact_mod_cast h0.card_pos
  refine ⟨div_nonneg (Finset.sum_nonneg fun u _ => (hr u).1) hp.le, ?_⟩
  rw [div_le_iff₀ hp]
  refine (Finset.sum_le_sum fun u _ => (hr u).2).trans ?_
  rw [Finset.sum_const, nsmul_eq_mul, mul_comm]

/-- **C80** `gcc_moreno2_seplayers` is the coefficient of all cycles of the network, where the cycles that are not
their own reversal are counted twice. -/
theorem C80_moreno2 (hw : w ≠ 0) (hs : Spec.NoIntraSelf ops) (h : Spec.Sets aligned ops N B M) (w1 w2 : K) (w3 : Option K) :
    (afterP [.categorical w] false 0 aligned ops).gccMoreno2 w1 w2 w3 =
      .ok (Spec.aw w1 w2 w3 (Spec.bothWays (Spec.cycleSums N B M (Spec.LinkedIn aligned ops) (Spec.Meant none none)))) := by
  have hc := cycL hw hs h.nodes h.layers h.inLayer
  obtain ⟨ls, l1, l2, l3⟩ := hc.base.lay.layers
  obtain ⟨X, Y, hX, hY, y1, -, x1, -, hm⟩ := meant_eq (N := N) (B := B) (M := M) none none (by simp) (by simp)
  have e : (afterP [Coupling.categorical w] false 0 aligned ops).moreno2Sum =
      .ok (cycT (LinkOf fun i j l => Spec.readP 1 false aligned ops [l] i j) (∑ l ∈ B, ∑ n ∈ M l, around N B M n l)) := by
    unfold moreno2Sum
    rw [l1, ok_bind, cyc_zero (link := LinkOf fun i j l => Spec.readP 1 false aligned ops [l] i j), ← zero_add (Finset.sum _ _)]
    refine forE_cyc l2 l3 (fun l hl g => ?_) 0
    obtain ⟨c, hc1, hc2, -⟩ := hc.child l hl
    rw [hc1, ok_bind]
    refine forE_cyc hc2.nodup hc2.mem (fun n _ g => ?_) g
    rw [hc.bf_cyc hl, ok_bind]; rfl
  have e2 : (cycT (LinkOf fun i j l => Spec.readP 1 false aligned ops [l] i j) (∑ l ∈ B, ∑ n ∈ M l, around N B M n l)).toList =
      Spec.cycleSums N B M (Spec.LinkedIn aligned ops) (Spec.Meant none none) := by
    rw [cyc_toList]
    unfold Spec.cycleSums
    refine List.map_congr_left fun r _ => ?_
    simp only [Finset.sum_apply]
    rw [sum_over hc.sub fun u => around N B M u.1 u.2 r]
    refine Finset.sum_congr (Finset.ext fun u => ?_) fun _ _ => rfl
    rw [mem_filter']
    simp [Spec.Meant]
  unfold gccMoreno2
  rw [e, ok_bind, ← e2]
  generalize cycT (LinkOf fun i j l => Spec.readP 1 false aligned ops [l] i j) (∑ l ∈ B, ∑ n ∈ M l, around N B M n l) = v
  exact congrArg Except.ok (awValue_eq w1 w2 w3
    (⟨v.aaa, 2 * v.aacac, 2 * v.acaac, v.acaca, 2 * v.acacac, v.afa, 2 * v.afcac, 2 * v.acfac, v.acfca, 2 * v.acfcac⟩ : Cycles))

/-- **C82 (partial)** `gcc_aw` is the coefficient of all cycles of the network: with any weights of links if the
network is not node-aligned, with links of weight 1 if it is. So is `sncc_aw` with the aggregated network.

Missing: node-aligned networks with weights (see `C82_false_weights`). -/
theorem C82_gcc_aw_partial (hw : w ≠ 0) (hU : Spec.Usable [.categorical w] aligned ops) (hs : Spec.NoIntraSelf ops)
    (h : Spec.Sets aligned ops N B M)
    (h1 : aligned = true → ∀ i j, ∀ l ∈ B, Spec.tensor aligned ops i j l = 0 ∨ Spec.tensor aligned ops i j l = 1)
    (w1 w2 : K) (w3 : Option K) :
    (afterP [.categorical w] false 0 aligned ops).gccAw w1 w2 w3 =
      .ok (Spec.aw w1 w2 w3 (Spec.cycleSums N B M (Spec.LinkedIn aligned ops) (Spec.Meant none none))) ∧
    (afterP [.categorical w] false 0 aligned ops).gccAwVector =
      .ok (Spec.awParts (Spec.cycleSums N B M (Spec.LinkedIn aligned ops) (Spec.Meant none none))) ∧
    (aligned = true → ∃ m', (afterP [.categorical w] false 0 aligned ops).view.aggregate [1] false = .ok m' ∧
      ∀ n ∈ N, (afterP [.categorical w] false 0 aligned ops).snccAw n w1 w2 w3 (some m'.view) =
        .ok (Spec.aw w1 w2 w3 (Spec.cycleSums N B M (Spec.LinkedIn aligned ops) (Spec.Meant (some n) none)))) := by
  have key : ∃ v, (afterP [.categorical w] false 0 aligned ops).elementaryCycles none none none = .ok v ∧
      v.toList = Spec.cycleSums N B M (Spec.LinkedIn aligned ops) (Spec.Meant none none) := by
    cases aligned with
    | false => exact C79_sums hw hs h (by simp) (by simp) (.inl rfl)
    | true =>
      obtain ⟨m', -, e⟩ := C81_elementary_partial hw hU hs h (h1 rfl) (node := none) (layer := none) (by simp) (by simp)
      exact e none (.inl rfl)
  obtain ⟨v, v1, v2⟩ := key
  refine ⟨?_, ?_, ?_⟩
  · unfold gccAw; rw [v1, ok_bind, awValue_eq, v2]; rfl
  · unfold gccAwVector; rw [v1, ok_bind, awVector_eq, v2]; rfl
  · rintro rfl
    obtain ⟨m', -, e, -⟩ := anetOf hw hU hs h (h1 rfl)
    refine ⟨m', e, fun n hn => ?_⟩
    obtain ⟨m2, e2, e3⟩ := C81_elementary_partial hw hU hs h (h1 rfl) (node := some n) (layer := none) (by simpa using hn) (by simp)
    rw [e] at e2; cases e2
    obtain ⟨v, v1, v2⟩ := e3 _ (.inr rfl)
    unfold snccAw; rw [v1, ok_bind, awValue_eq, v2]; rfl

end

/-! ### Concrete networks -/

section concreteCycles

example : ∃ N B M, Spec.Sets false plexQ N B M := exists_sets (.categorical 1) false plexQ

/-- A node-aligned network with three layers of links of weight 1. -/
def alignedQ : List (POp Int ℚ) :=
  [.setItem [1, 2, 10] 1, .setItem [1, 3, 10] 1, .setItem [2, 3, 10] 1, .setItem [1, 2, 11] 1, .setItem [2, 3, 11] 1,
   .setItem [3, 4, 11] 1, .setItem [1, 3, 12] 1, .setItem [2, 4, 12] 1]

theorem alignedQ_noSelf : Spec.NoIntraSelf alignedQ := by
  intro L i w h
  simp only [alignedQ, List.mem_cons, reduceCtorEq, List.not_mem_nil, or_false] at h

example : ∃ N B M, Spec.Sets true alignedQ N B M := exists_sets (.categorical 1) true alignedQ


example : (afterP [.categorical 1] false 0 false plexQ).cyclesBf 3 10 = .ok ⟨2, 1, 1, 2, 0, 2, 1, 3, 2, 0⟩ ∧
    (afterP [.categorical 1] false 0 true alignedQ).cyclesBf 3 10 = .ok ⟨2, 2, 1, 2, 2, 2, 4, 4, 4, 4⟩ ∧
    (afterP [.categorical 1] false 0 true alignedQ).elementaryCycles (some 3) none none =
      .ok ⟨2, 4, 4, 4, 6, 4, 12, 12, 8, 12⟩ ∧
    (afterP [.categorical 1] false 0 true alignedQ).elementaryCycles none none none =
      .ok ⟨6, 12, 12, 12, 18, 10, 32, 32, 20, 32⟩ ∧
    (afterP [.categorical 1] false 0 true alignedQ).lccAw 3 10 (1 / 2) (1 / 2) none none = .ok (1 / 2) ∧
    (afterP [.categorical 1] false 0 true alignedQ).avgLccAw (1 / 2) (1 / 2) none = .ok (13 / 27) ∧
    (afterP [.categorical 1] false 0 true alignedQ).snccAw 3 (1 / 2) (1 / 2) none none = .ok (5 / 12) ∧
    (afterP [.categorical 1] false 0 true alignedQ).snccSeplayers 3 (1 / 3) (1 / 3) (1 / 3) = .ok (some (11 / 24)) ∧
    (afterP [.categorical 1] false 0 true alignedQ).gccMoreno2 (1 / 2) (1 / 2) none = .ok (17 / 37) ∧
    (afterP [.categorical 1] false 0 true alignedQ).gccAw (1 / 2) (1 / 2) none = .ok (10 / 21) ∧
    (afterP [.categorical 1] false 0 false plexQ).gccAw (1 / 2) (1 / 2) none ≠
      (afterP [.categorical 1] false 0 true plexQ).gccAw (1 / 2) (1 / 2) none := by decide +kernel

example : Spec.Usable [.categorical (1 : ℚ)] true alignedQ :=
  ⟨by simp, fun c hc => ⟨1, by norm_num, .inl (by simpa using hc)⟩, fun d w x h => by
    match d, h with
    | 0, h => simp at h⟩

/-- Five links of the given weight on three layers, node-aligned. -/
def weightedQ (x : ℚ) : List (POp Int ℚ) :=
  [.setItem [1, 2, 10] x, .setItem [1, 3, 10] x, .setItem [2, 3, 10] x, .setItem [1, 2, 11] x, .setItem [1, 3, 12] x]

/-- **C81 is false with weights**: the counts from the aggregated network change with the weights although the links
are the same, and become negative; the counts without it do not. -/
theorem C81_false_weights :
    (∃ m', (afterP [.categorical 1] false 0 true (weightedQ (1 / 2))).view.aggregate [1] false = .ok m' ∧
      (afterP [.categorical 1] false 0 true (weightedQ (1 / 2))).elementaryCycles (some 1) none (some m'.view) =
        .ok ⟨2, 0, 0, -2, 0, 2, 2, 2, 4, 2⟩) ∧
    (afterP [.categorical 1] false 0 true (weightedQ (1 / 2))).elementaryCycles (some 1) none none =
      (afterP [.categorical 1] false 0 true (weightedQ 1)).elementaryCycles (some 1) none none ∧
    (afterP [.categorical 1] false 0 true (weightedQ 1)).elementaryCycles (some 1) none none =
      .ok ⟨2, 2, 2, 0, 2, 2, 6, 6, 4, 6⟩ :=
  ⟨of_ok (by decide +kernel), by decide +kernel⟩

/-- **C82 is false with weights**: on a node-aligned network with weights 2, `gcc_aw` is 2, not between 0 and 1. -/
theorem C82_false_weights : ∃ ops : List (POp Int ℚ), Spec.NoIntraSelf ops ∧
    (afterP [.categorical 1] false 0 true ops).gccAw (1 / 2) (1 / 2) none = .ok 2 := by
  refine ⟨weightedQ 2, ?_, by decide +kernel⟩
  intro L i w h
  simp only [weightedQ, List.mem_cons, reduceCtorEq, List.not_mem_nil, or_false] at h

/-- **C83 is false of ordinal couplings**: in a node-aligned network whose layers are not neighbours in the order
there is no coupling link at all, yet cycles that change the layer are counted. -/
theorem C83_false_ordinal : ∃ ops : List (POp Int ℚ),
    (∀ i ∈ (afterP [.ordinal 1] false 0 true ops).view.nodes,
      (afterP [.ordinal 1] false 0 true ops).view.num [i, i, 10, 12] = .ok 0) ∧
    (afterP [.ordinal 1] false 0 true ops).view.layers1 = .ok [10, 12] ∧
    (afterP [.ordinal 1] false 0 true ops).elementaryCycles (some 1) (some 10) none = .ok ⟨2, 0, 0, 0, 0, 2, 0, 0, 2, 0⟩ :=
  ⟨[.setItem [1, 2, 10] 1, .setItem [1, 3, 10] 1, .setItem [2, 3, 10] 1, .setItem [1, 2, 12] 1], by decide +kernel⟩

end concreteCycles

end Pymnet
