import Verif.Proofs.Ucinet
import Verif.Proofs.ErLayers
import Verif.Props.Prune

/-! Reading and writing files: C98, C99, C100, C101. -/

set_option linter.unusedSectionVars false
set_option linter.unusedSimpArgs false

namespace Pymnet

open Py MPlex

variable {α W : Type} [DecidableEq α] [DecidableEq W] [Zero W]

/-! ### C98: `read_edge_files` -/

section
variable {int : Text → Option α} {float : Text → Option W} {lines : List Text} {es : List (α × α × α × W)}
  {ignoreSelf : Bool}

/-- **C98.** `read_edge_files` of lines `layer from to weight`, if self-links are ignored or there are none: the
multiplex network has the layers and nodes of the lines that are not self-links, every such line's nodes are on its
layer (on every layer, if fully interconnected), and the weight of a link is that of its last line, in the layer, and
in either direction if undirected. -/
theorem C98_edge_files (hl : List.Forall₂ (Spec.EdgeLine int float) lines es)
    (hself : ignoreSelf = true ∨ ∀ e ∈ es, e.2.1 ≠ e.2.2.1) (layerFile nodeFile : Option (List Text)) (c : Coupling α W)
    (fic dir : Bool) :
    ∃ ops, readEdgeFiles int float lines layerFile nodeFile c fic dir ignoreSelf = .ok (afterP [c] dir 0 fic ops) ∧
      Spec.Content dir fic ops
        (fun x => ∃ e ∈ es, e.2.1 ≠ e.2.2.1 ∧ (x = e.2.1 ∨ x = e.2.2.1))
        (fun s => ∃ e ∈ es, e.2.1 ≠ e.2.2.1 ∧ s = e.1)
        (fun x s => if fic = true then (∃ e ∈ es, e.2.1 ≠ e.2.2.1 ∧ (x = e.2.1 ∨ x = e.2.2.1)) ∧ ∃ e ∈ es, e.2.1 ≠ e.2.2.1 ∧ s = e.1
          else ∃ e ∈ es, e.2.1 ≠ e.2.2.1 ∧ s = e.1 ∧ (x = e.2.1 ∨ x = e.2.2.1))
        (Spec.lastEntry dir es) := by
  obtain ⟨p, h1, h2⟩ := readEdgeFiles_ok (c := c) (dir := dir) (al := fic) hl hself (Holds.init c dir fic)
  obtain ⟨ops, rfl, h3⟩ := h2.content
  exact ⟨ops, h1, h3⟩

/-- Internal: a line that raises ends the reading. -/
theorem readEdgeFiles_stop (hl : List.Forall₂ (Spec.EdgeLine int float) lines es)
    (hself : ignoreSelf = true ∨ ∀ e ∈ es, e.2.1 ≠ e.2.2.1) {line : Text} {c : Coupling α W} {dir fic : Bool} {err : Err}
    (hbad : ∀ p, Holds p c dir fic es → readEdgeLine int float ignoreSelf p line = .error err)
    (rest : List Text) (layerFile nodeFile : Option (List Text)) :
    readEdgeFiles int float (lines ++ line :: rest) layerFile nodeFile c fic dir ignoreSelf = .error err := by
  obtain ⟨p, h1, h2⟩ := readEdgeFiles_ok (c := c) (dir := dir) (al := fic) hl hself (Holds.init c dir fic)
  have happ : ∀ (l : List Text) (q : MPlex α W), forE (readEdgeLine int float ignoreSelf) l q = .ok p →
      forE (readEdgeLine int float ignoreSelf) (l ++ line :: rest) q = .error err := by
    intro l
    induction l with
    | nil =>
      intro q hq
      obtain rfl := Except.ok.inj hq
      rw [List.nil_append, forE, hbad _ (by simpa using h2)]
    | cons x l ih =>
      intro q hq
      rw [List.cons_append, forE]
      rw [forE] at hq
      cases hx : readEdgeLine int float ignoreSelf q x with
      | error e => rw [hx] at hq; cases hq
      | ok q' => rw [hx] at hq; exact ih q' hq
  exact happ lines _ h1

/-- **C98**, lines that are not of the form `layer from to weight` (after lines that are): `ValueError`. -/
theorem C98_bad_line (hl : List.Forall₂ (Spec.EdgeLine int float) lines es)
    (hself : ignoreSelf = true ∨ ∀ e ∈ es, e.2.1 ≠ e.2.2.1) {line : Text} (hbad : ¬ ∃ e, Spec.EdgeLine int float line e)
    (rest : List Text) (layerFile nodeFile : Option (List Text)) (c : Coupling α W) (fic dir : Bool) :
    readEdgeFiles int float (lines ++ line :: rest) layerFile nodeFile c fic dir ignoreSelf = .error .valueError := by
  refine readEdgeFiles_stop hl hself (fun p _ => ?_) rest layerFile nodeFile
  unfold readEdgeLine
  split
  · rename_i a b c' d hw
    split
    · rename_i l f t w h1 h2 h3 h4
      exact absurd ⟨(l, f, t, w), a, b, c', d, hw ▸ fields_words line, h1, h2, h3, h4⟩ hbad
    · rfl
  · rfl

/-- **C98 is false of the code** for `ignoreSelfLink=False`, which is meant to keep the self-links: every line with a
self-link raises `KeyError`. -/
theorem C98_false_selflinks (hl : List.Forall₂ (Spec.EdgeLine int float) lines es) (hself : ∀ e ∈ es, e.2.1 ≠ e.2.2.1)
    {line : Text} {l x : α} {w : W} (hline : Spec.EdgeLine int float line (l, x, x, w)) (rest : List Text)
    (layerFile nodeFile : Option (List Text)) (c : Coupling α W) (fic dir : Bool) :
    readEdgeFiles int float (lines ++ line :: rest) layerFile nodeFile c fic dir false = .error .keyError := by
  refine readEdgeFiles_stop hl (Or.inr hself) (fun p hp => ?_) rest layerFile nodeFile
  obtain ⟨a, b, c', d, hf, h1, h2, h3, h4⟩ := hline
  unfold readEdgeLine
  rw [words_fields hf]
  simp only [h1, h2, h3, h4, ne_eq, not_true_eq_false, or_true, if_true]
  exact hp.self x l w

/-- **C98 is false of the code** for the layer and node files: a node or a layer that is only listed in these files is
not in the network. -/
theorem C98_false_files (hl : List.Forall₂ (Spec.EdgeLine int float) lines es)
    (hself : ignoreSelf = true ∨ ∀ e ∈ es, e.2.1 ≠ e.2.2.1) (layerFile nodeFile : Option (List Text)) (c : Coupling α W)
    (fic dir : Bool) {x : α} (hx : ∀ e ∈ es, x ≠ e.2.1 ∧ x ≠ e.2.2.1) {s : α} (hs : ∀ e ∈ es, s ≠ e.1) :
    ∃ p ns, readEdgeFiles int float lines layerFile nodeFile c fic dir ignoreSelf = .ok p ∧ p.iterNodes none = .ok ns ∧ x ∉ ns ∧
      .el s ∉ p.iterLayers := by
  obtain ⟨ops, h1, h2⟩ := C98_edge_files hl hself layerFile nodeFile c fic dir
  obtain ⟨ns, h3, -, h4⟩ := C25_nodes (cs := [c]) (by simp) dir 0 fic ops
  refine ⟨_, ns, h1, h3, fun h => ?_, fun h => ?_⟩
  · obtain ⟨e, he, -, h | h⟩ := (h2.nodes_iff x).1 ((h4 x).1 h)
    · exact (hx e he).1 h
    · exact (hx e he).2 h
  · obtain ⟨e, he, -, h⟩ := (h2.layers_iff s).1 (((C25_layers (cs := [c]) (by simp) dir 0 fic ops).2.2 _).1 h)
    exact hs e he h

end

/-- A parser of digits, for the examples. -/
def digits (t : Text) : Option Int := if Text.isDigits t then some (Text.toNat t) else none

example : List.Forall₂ (Spec.EdgeLine digits digits) ["1 2 3 4\n".toList, " 1\t3 3 5".toList, "2 3 2 6".toList]
    [(1, 2, 3, 4), (1, 3, 3, 5), (2, 3, 2, 6)] := by
  have key : ∀ {line : Text} {e : Int × Int × Int × Int} {l f t w : Text}, Text.words line = [l, f, t, w] → digits l = some e.1 →
      digits f = some e.2.1 → digits t = some e.2.2.1 → digits w = some e.2.2.2 → Spec.EdgeLine digits digits line e :=
    fun h h1 h2 h3 h4 => ⟨_, _, _, _, h ▸ fields_words _, h1, h2, h3, h4⟩
  refine .cons (key (l := "1".toList) (f := "2".toList) (t := "3".toList) (w := "4".toList) ?_ ?_ ?_ ?_ ?_)
    (.cons (key (l := "1".toList) (f := "3".toList) (t := "3".toList) (w := "5".toList) ?_ ?_ ?_ ?_ ?_)
    (.cons (key (l := "2".toList) (f := "3".toList) (t := "2".toList) (w := "6".toList) ?_ ?_ ?_ ?_ ?_) .nil)) <;> decide +kernel

example : ((readEdgeFiles digits digits ["1 2 3 4\n".toList, " 1\t3 3 5".toList, "2 3 2 6".toList] none none
    (.categorical (1 : Int)) true false true).toOption.map fun p => (p.slices, p.iterLayers)) =
    some ([[2, 3], [1, 2]], [.el 1, .el 2]) := by decide +kernel
example : ¬ ∃ e : Int × Int × Int × Int, Spec.EdgeLine digits digits "1 2 3".toList e := by
  rintro ⟨e, a, b, c, d, h, -⟩
  have := words_fields h
  revert this
  simp [Text.words, Text.wordsFrom, Text.isSpace]

/-! ### The links of a layer -/

/-- Internal: `net.A[layer].edges` of a multiplex network with one aspect. -/
theorem layer_links (c : Coupling α W) (dir al : Bool) (z : W) (ops : List (POp α W)) {s : α} (hs : Spec.HasLayer 1 al ops (.el s)) :
    ∃ k ps, (afterP [c] dir z al ops).child? (.el s) = some k ∧ Spec.EachOnce dir (Spec.readP 1 dir al ops [s]) ps ∧
      k.view.edges = .ok (ps.map fun p => ([p.1, p.2], Spec.readP 1 dir al ops [s] p.1 p.2)) ∧
      ∀ p ∈ ps, Spec.HasNodeLayer 1 al ops [p.1, s] ∧ Spec.HasNodeLayer 1 al ops [p.2, s] := by
  obtain ⟨k, k1, k2, k3, k4, k5, k6, k7, k8, k9⟩ := layer_facts (cs := [c]) (dir := dir) (z := z) (by simp) (s := [s]) hs
  obtain ⟨ps, e1, e2, e3, e4, e5⟩ := k2.edges
  rw [k4, k6] at *
  have hmem : ∀ a, a ∈ product k.view.slices ↔ ∃ i, a = [i] ∧ Spec.HasNodeLayer 1 al ops [i, s] := k8
  have hlink : ∀ i j, k.reads [i] [j] ≠ 0 → [i] ∈ product k.view.slices ∧ [j] ∈ product k.view.slices := by
    intro i j hij
    have hi := (builtX_after [c] dir z al ops).child (by simp) (s := [s])
      ((hasLayer_LYs (cs := [c]) (fun _ _ _ _ => Iff.rfl) [s]).1 hs)
    obtain ⟨k', c1, c2, c3, c4, c5, c6, c7, c8⟩ := hi
    rw [show LKey.ofList [s] = .el s from rfl] at c1 k1
    rw [k1] at c1
    obtain rfl := Option.some.inj c1
    obtain ⟨w, hw⟩ := Option.isSome_iff_exists.1 ((MNet.reads_ne_noEdge c2.l [i] [j]).1 (by rw [c5]; exact hij))
    exact ⟨(MNet.reg_iff c2.r _).1 (c2.reg _ _ w hw).1, (MNet.reg_iff c2.r _).1 (c2.reg _ _ w hw).2⟩
  obtain ⟨f, hf⟩ : ∃ f : List α × List α → α × α, ∀ i j, f ([i], [j]) = (i, j) :=
    ⟨fun p => match p with | ([i], [j]) => (i, j) | _ => (s, s), fun _ _ => rfl⟩
  have hform : ∀ p ∈ ps, ∃ i j, p = ([i], [j]) ∧ Spec.HasNodeLayer 1 al ops [i, s] ∧ Spec.HasNodeLayer 1 al ops [j, s] := by
    intro p hp
    obtain ⟨h1, h2, -⟩ := e3 p hp
    obtain ⟨i, hi, hi'⟩ := (hmem _).1 h1
    obtain ⟨j, hj, hj'⟩ := (hmem _).1 h2
    exact ⟨i, j, Prod.ext hi hj, hi', hj'⟩
  have hin : ∀ i j, (i, j) ∈ ps.map f ↔ ([i], [j]) ∈ ps := by
    intro i j
    constructor
    · intro h
      obtain ⟨p, hp, e⟩ := List.mem_map.1 h
      obtain ⟨a, b, rfl, -⟩ := hform p hp
      rw [hf] at e
      cases e
      exact hp
    · intro h; exact List.mem_map.2 ⟨_, h, hf i j⟩
  refine ⟨k, ps.map f, k1, ⟨?_, ?_, ?_, ?_, ?_⟩, ?_, ?_⟩
  · rw [List.nodup_map_iff_inj_on e2]
    intro p hp q hq e
    obtain ⟨a, b, rfl, -⟩ := hform p hp
    obtain ⟨a', b', rfl, -⟩ := hform q hq
    rw [hf, hf] at e
    cases e; rfl
  · rintro ⟨i, j⟩ hp
    have := (e3 _ ((hin i j).1 hp)).2.2
    rw [k9] at this
    exact this
  · intro hd i j hij
    have hij' : k.reads [i] [j] ≠ 0 := by rw [k9]; exact hij
    exact (hin i j).2 (e4 hd _ (hlink i j hij').1 _ (hlink i j hij').2 hij')
  · intro hd i j hij
    have hij' : k.reads [i] [j] ≠ 0 := by rw [k9]; exact hij
    rw [hin, hin]
    exact (e5 hd).1 _ (hlink i j hij').1 _ (hlink i j hij').2 hij'
  · intro hd i j hij h1
    rw [hin] at h1 ⊢
    exact (e5 hd).2 _ _ (by simpa using hij) h1
  · rw [e1, List.map_map]
    congr 1
    apply List.map_congr_left
    intro p hp
    obtain ⟨a, b, rfl, -⟩ := hform p hp
    simp only [Function.comp, hf, View.tuple, k9]
    rfl
  · rintro ⟨i, j⟩ hp
    obtain ⟨a, b, e, h⟩ := hform _ ((hin i j).1 hp)
    simp only [Prod.mk.injEq, List.cons.injEq, and_true] at e
    rw [e.1, e.2]
    exact h

/-- Internal: the dict of positions. -/
theorem indexDict_get {β : Type} [DecidableEq β] (l : List β) (hl : l.Nodup) : ∀ (k : Nat) (d : Dict β Nat), (∀ x ∈ l, Dict.get d x = none) →
    ∀ x, Dict.get (indexDict l k d) x = if x ∈ l then some (k + l.idxOf x) else Dict.get d x := by
  induction l with
  | nil => intro k d _ x; simp [indexDict]
  | cons y l ih =>
    intro k d hd x
    rw [List.nodup_cons] at hl
    rw [indexDict, ih hl.2 (k + 1) (Dict.set d y k) (fun z hz => by
      rw [Dict.get_set, if_neg (by rintro rfl; exact hl.1 hz)]; exact hd z (by simp [hz]))]
    by_cases hxy : x = y
    · subst hxy
      rw [if_neg hl.1, Dict.get_set, if_pos rfl]
      simp
    · by_cases hx : x ∈ l
      · rw [if_pos hx, if_pos (by simp [hx]), List.idxOf_cons_ne _ (Ne.symm hxy)]
        congr 1; omega
      · rw [if_neg hx, if_neg (by simp [hx, hxy]), Dict.get_set, if_neg (Ne.symm hxy)]

/-- Internal. -/
theorem index_get {β : Type} [DecidableEq β] {l : List β} (hl : l.Nodup) {x : β} (hx : x ∈ l) :
    Dict.get (indexDict l 0 []) x = some (l.idxOf x) := by
  rw [indexDict_get l hl 0 [] (fun _ _ => rfl), if_pos hx, Nat.zero_add]

/-- Internal: the elements with the tag of one member of the list. -/
theorem filter_flatMap {β γ : Type} [DecidableEq β] {l : List β} (hl : l.Nodup) (g : β → List γ) (tag : γ → Nat)
    (ht : ∀ x ∈ l, ∀ y ∈ g x, tag y = l.idxOf x) {k : Nat} {x : β} (hx : l[k]? = some x) :
    (l.flatMap g).filter (fun y => tag y = k) = g x := by
  suffices h : ∀ (l' : List β), l'.Nodup → (∀ x ∈ l', x ∈ l) → (l'.flatMap g).filter (fun y => tag y = k) = if x ∈ l' then g x else [] by
    rw [h l hl (fun _ h => h), if_pos (List.mem_of_getElem? hx)]
  have hk : l.idxOf x = k := by
    obtain ⟨h1, h2⟩ := List.getElem?_eq_some_iff.1 hx
    rw [← h2]; exact hl.idxOf_getElem k h1
  intro l' hl' hsub
  induction l' with
  | nil => simp
  | cons y l' ih =>
    rw [List.nodup_cons] at hl'
    rw [List.flatMap_cons, List.filter_append, ih hl'.2 fun z hz => hsub z (by simp [hz])]
    have hy := hsub y (by simp)
    by_cases hxy : x = y
    · subst hxy
      rw [if_neg hl'.1, if_pos (by simp), List.append_nil, List.filter_eq_self]
      intro z hz
      simpa using (ht x hy z hz).trans hk
    · have : (g y).filter (fun z => tag z = k) = [] := by
        rw [List.filter_eq_nil_iff]
        intro z hz
        have := ht y hy z hz
        simp only [decide_eq_true_eq]
        intro e
        rw [e, ← hk] at this
        exact hxy ((List.idxOf_inj (hsub y (by simp) |> fun _ => List.mem_of_getElem? hx)).1 this)
      rw [this, List.nil_append]
      by_cases hx' : x ∈ l'
      · rw [if_pos hx', if_pos (by simp [hx'])]
      · rw [if_neg hx', if_neg (by simp [hx', hxy])]

/-! ### C99: `write_json` -/

/-- **C99.** `write_json` of a multiplex network with one aspect: the nodes and the layers are listed once each; the links
of every layer are listed once each, under the position of the layer, with the positions of their nodes and their weight;
no other links are listed. -/
theorem C99_json (c : Coupling α W) (dir al : Bool) (z : W) (ops : List (POp α W)) :
    ∃ J, writeJson (afterP [c] dir z al ops) = .ok J ∧ J.nodes.Nodup ∧
      (∀ x, x ∈ J.nodes ↔ Spec.Happened (Spec.NamesNodeP 1 al x) ops) ∧ J.layers.Nodup ∧
      (∀ L, L ∈ J.layers ↔ ∃ s, L = .el s ∧ Spec.HasLayer 1 al ops (.el s)) ∧
      (∀ e ∈ J.links, e.2.2.2 < J.layers.length) ∧
      ∀ k s, J.layers[k]? = some (.el s) → ∃ ps, Spec.EachOnce dir (Spec.readP 1 dir al ops [s]) ps ∧
        (J.links.filter fun e => e.2.2.2 = k).map (fun e => (J.nodes[e.1]?, J.nodes[e.2.1]?, e.2.2.1)) =
          ps.map fun p => (some p.1, some p.2, Spec.readP 1 dir al ops [s] p.1 p.2) := by
  obtain ⟨ns, n1, n2, n3⟩ := C25_nodes (cs := [c]) (by simp) dir z al ops
  obtain ⟨l1, l2, l3⟩ := C25_layers (cs := [c]) (by simp) dir z al ops
  have hpar := after_params (cs := [c]) (by simp) dir z al ops
  set p := afterP [c] dir z al ops with hp
  have hform : ∀ L, L ∈ p.iterLayers ↔ ∃ s, L = .el s ∧ Spec.HasLayer 1 al ops (.el s) := by
    intro L
    rw [l3]
    constructor
    · intro h
      obtain ⟨s, rfl, hlen, h'⟩ := id h
      match s, hlen with
      | [s], _ => exact ⟨s, rfl, h⟩
    · rintro ⟨s, rfl, h⟩; exact h
  have hnode : ∀ s i, Spec.HasNodeLayer 1 al ops [i, s] → i ∈ ns := by
    intro s i h
    rw [n3]
    obtain ⟨h1, -⟩ := reg_cases (cs := [c]) (by simp) dir z al ops h
    obtain ⟨n, t, e, -, h2, -⟩ := (after_product (cs := [c]) (by simp) dir z al ops _).1 h1
    cases e
    exact h2
  have hlayer : ∀ L ∈ p.iterLayers, ∃ ps, ∀ s, L = .el s → Spec.EachOnce dir (Spec.readP 1 dir al ops [s]) ps ∧
      (∀ q ∈ ps, q.1 ∈ ns ∧ q.2 ∈ ns) ∧
      jsonLayer p (indexDict ns 0 []) (indexDict p.iterLayers 0 []) L = .ok (ps.map fun q =>
        (ns.idxOf q.1, ns.idxOf q.2, Spec.readP 1 dir al ops [s] q.1 q.2, p.iterLayers.idxOf L)) := by
    intro L hL
    obtain ⟨s, rfl, hs⟩ := (hform L).1 hL
    obtain ⟨k, ps, k1, k2, k3, k4⟩ := layer_links c dir al z ops hs
    refine ⟨ps, fun s' e => ?_⟩
    obtain rfl : s = s' := by cases e; rfl
    have hmem : ∀ q ∈ ps, q.1 ∈ ns ∧ q.2 ∈ ns := fun q hq => ⟨hnode s _ (k4 q hq).1, hnode s _ (k4 q hq).2⟩
    refine ⟨k2, hmem, ?_⟩
    unfold jsonLayer
    rw [k1]
    simp only [k3]
    rw [View.collect_ok (g := fun e : List α × W => match e with
      | (a :: b :: _, w) => [(ns.idxOf a, ns.idxOf b, w, p.iterLayers.idxOf (.el s))]
      | _ => [])]
    · rw [List.flatMap_map]
      simp only
      rw [View.flatMap_single]
    · intro e he
      obtain ⟨q, hq, rfl⟩ := List.mem_map.1 he
      rw [index_get l2 hL]
      simp only [jsonLink]
      rw [index_get n2 (hmem q hq).1, index_get n2 (hmem q hq).2]
  choose! ps hps using hlayer
  set g : LKey α → List (Nat × Nat × W × Nat) := fun L => match L with
    | .el s => (ps (.el s)).map fun q => (ns.idxOf q.1, ns.idxOf q.2, Spec.readP 1 dir al ops [s] q.1 q.2, p.iterLayers.idxOf (.el s))
    | _ => [] with hg
  have hcol : View.collect (jsonLayer p (indexDict ns 0 []) (indexDict p.iterLayers 0 [])) p.iterLayers = .ok (p.iterLayers.flatMap g) := by
    apply View.collect_ok
    intro L hL
    obtain ⟨s, rfl, -⟩ := (hform L).1 hL
    exact (hps _ hL s rfl).2.2
  have htag : ∀ L ∈ p.iterLayers, ∀ e ∈ g L, e.2.2.2 = p.iterLayers.idxOf L := by
    intro L hL e he
    obtain ⟨s, rfl, -⟩ := (hform L).1 hL
    obtain ⟨q, -, rfl⟩ := List.mem_map.1 he
    rfl
  refine ⟨⟨ns, p.iterLayers, p.iterLayers.flatMap g⟩, ?_, n2, n3, l2, hform, ?_, ?_⟩
  · unfold writeJson
    rw [if_pos (Or.inr (show p.aspects = 1 from hpar.1)), n1]
    simp only [hcol]
  · intro e he
    obtain ⟨L, hL, he⟩ := List.mem_flatMap.1 he
    rw [htag L hL e he]
    exact List.idxOf_lt_length_iff.2 hL
  · intro k s hk
    have hL : LKey.el s ∈ p.iterLayers := List.mem_of_getElem? hk
    obtain ⟨h1, h2, -⟩ := hps _ hL s rfl
    refine ⟨ps (.el s), h1, ?_⟩
    simp only
    rw [filter_flatMap l2 g (fun e => e.2.2.2) htag hk]
    simp only [hg, List.map_map]
    apply List.map_congr_left
    intro q hq
    simp only [Function.comp]
    have h3 : ∀ x ∈ ns, ns[ns.idxOf x]? = some x := fun x hx => by
      rw [List.getElem?_eq_getElem (List.idxOf_lt_length_iff.2 hx), List.getElem_idxOf]
    rw [h3 _ (h2 q hq).1, h3 _ (h2 q hq).2]

/-- **C99**, networks with more aspects: `AssertionError`. -/
theorem C99_aspects {cs : List (Coupling α W)} (hcs : 2 ≤ cs.length) (dir al : Bool) (z : W) (ops : List (POp α W)) :
    writeJson (afterP cs dir z al ops) = .error .assertionError := by
  have hpar := after_params (cs := cs) (by rintro rfl; simp at hcs) dir z al ops
  unfold writeJson
  rw [if_neg (by rw [hpar.1]; omega)]

example : writeJson (afterP [.ordinal (1 : Int)] false 0 true samplePlex) =
    .ok ⟨[1, 2, 3, 9], [.el 10, .el 11], [(0, 1, 6, 0), (0, 1, 7, 1), (1, 2, 4, 1)]⟩ := by decide +kernel

/-! ### C100: `write_edge_files` -/

/-- Internal. -/
theorem basename_spec (t : Text) : Spec.FileName t (basename t) := by
  refine ⟨fun h => ?_, (t.reverse.dropWhile (· ≠ '/')).reverse, ?_, ?_⟩
  · unfold basename at h
    rw [List.mem_reverse] at h
    have key : ∀ l : Text, '/' ∉ l.takeWhile (· ≠ '/') := by
      intro l
      induction l with
      | nil => simp
      | cons c l ih =>
        by_cases hc : c = '/'
        · simp [hc]
        · rw [List.takeWhile_cons_of_pos (by simpa using hc)]
          simp only [List.mem_cons, not_or]
          exact ⟨Ne.symm hc, ih⟩
    exact key _ h
  · unfold basename
    rw [← List.reverse_append, List.takeWhile_append_dropWhile, List.reverse_reverse]
  · cases h : t.reverse.dropWhile (· ≠ '/') with
    | nil => exact Or.inl rfl
    | cons c d =>
      right
      have key : ∀ l : Text, l.dropWhile (· ≠ '/') = c :: d → c = '/' := by
        intro l
        induction l with
        | nil => simp
        | cons x l ih =>
          by_cases hx : x = '/'
          · intro h
            rw [List.dropWhile_cons_of_neg (by simpa using hx)] at h
            cases h; exact hx
          · rw [List.dropWhile_cons_of_pos (by simpa using hx)]; exact ih
      have := key _ h
      subst this
      exact ⟨d.reverse, by simp⟩

/-- Internal: no layer file is the master file. -/
theorem edg_ne_txt (a b : Text) : a ++ ".edg".toList ≠ b ++ ".txt".toList := by
  intro h
  have := List.append_inj_right' h rfl
  exact absurd this (by decide)

section
variable (c : Coupling α W) (dir al : Bool) (z : W) (ops : List (POp α W)) (strN : α → Text) (strNat : Nat → Text)
  (strL : LKey α → Text) (strW : W → Text) (out csep rsep : Text) (weights master numeric : Bool)

/-- Internal: the layers of a network with one aspect. -/
theorem iterLayers_one (L : LKey α) : L ∈ (afterP [c] dir z al ops).iterLayers ↔ ∃ s, L = .el s ∧ Spec.HasLayer 1 al ops (.el s) := by
  rw [(C25_layers (cs := [c]) (by simp) dir z al ops).2.2]
  constructor
  · intro h
    obtain ⟨s, rfl, hlen, h'⟩ := id h
    match s, hlen with
    | [s], _ => exact ⟨s, rfl, h⟩
  · rintro ⟨s, rfl, h⟩; exact h

/-- Internal: a node of a layer is a node. -/
theorem node_of_layer {s i : α} (h : Spec.HasNodeLayer 1 al ops [i, s]) : Spec.Happened (Spec.NamesNodeP 1 al i) ops := by
  obtain ⟨h1, -⟩ := reg_cases (cs := [Coupling.categorical 0]) (by simp) false 0 al ops h
  obtain ⟨n, t, e, -, h2, -⟩ := (after_product (cs := [Coupling.categorical 0]) (by simp) false 0 al ops _).1 h1
  cases e
  exact h2

/-- **C100.** `write_edge_files` of a multiplex network with one aspect, if different layers have different texts: for
every layer a file `outputfiles+str(layer)+".edg"` is written that has, for every link of the layer, exactly one row with
its nodes (their texts, or the texts of their positions in `net`) and, if asked for, its weight. If asked for, a master
file `outputfiles+".txt"` lists the name of the file and the text of every layer. No other files are written. -/
theorem C100_edge_files (hinj : ∀ s t, Spec.HasLayer 1 al ops (.el s) → Spec.HasLayer 1 al ops (.el t) →
      strL (.el s) = strL (.el t) → s = t) :
    ∃ ns files, (afterP [c] dir z al ops).iterNodes none = .ok ns ∧
      writeEdgeFiles (afterP [c] dir z al ops) strN strNat strL strW out csep rsep weights master numeric = .ok files ∧
      (∀ s, Spec.HasLayer 1 al ops (.el s) → ∃ ps, Spec.EachOnce dir (Spec.readP 1 dir al ops [s]) ps ∧
        Dict.get files (out ++ strL (.el s) ++ ".edg".toList) = some (ps.map fun q =>
          Spec.rowText csep rsep weights (if numeric then strNat (ns.idxOf q.1) else strN q.1)
            (if numeric then strNat (ns.idxOf q.2) else strN q.2) (strW (Spec.readP 1 dir al ops [s] q.1 q.2))).flatten) ∧
      (∀ f, (Dict.get files f).isSome = true ↔ (∃ s, Spec.HasLayer 1 al ops (.el s) ∧ f = out ++ strL (.el s) ++ ".edg".toList) ∨
        (master = true ∧ f = out ++ ".txt".toList)) ∧
      (master = true → ∃ (layers : List α) (name : α → Text), layers.Nodup ∧ (∀ s, s ∈ layers ↔ Spec.HasLayer 1 al ops (.el s)) ∧
        (∀ s, Spec.FileName (out ++ strL (.el s) ++ ".edg".toList) (name s)) ∧
        Dict.get files (out ++ ".txt".toList) =
          some (layers.map fun s => name s ++ ";".toList ++ strL (.el s) ++ ";\n".toList).flatten) := by
  obtain ⟨ns, n1, n2, n3⟩ := C25_nodes (cs := [c]) (by simp) dir z al ops
  obtain ⟨l1, l2, -⟩ := C25_layers (cs := [c]) (by simp) dir z al ops
  have hpar := after_params (cs := [c]) (by simp) dir z al ops
  have hform := iterLayers_one c dir al z ops
  set p := afterP [c] dir z al ops with hp
  let node : α → Option Text :=
    if numeric then fun n => (Dict.get (indexDict ns 0 []) n).map strNat else fun n => some (strN n)
  let nm : α → Text := fun x => if numeric then strNat (ns.idxOf x) else strN x
  have hnode : ∀ x ∈ ns, node x = some (nm x) := by
    intro x hx
    simp only [node, nm]
    cases numeric with
    | false => rfl
    | true => simp only [if_true]; rw [index_get n2 hx]; rfl
  have hlayer : ∀ L ∈ p.iterLayers, ∃ ps, ∀ s, L = .el s → Spec.EachOnce dir (Spec.readP 1 dir al ops [s]) ps ∧
      ∀ files, writeLayer p node strL strW out csep rsep weights files L = .ok (Dict.set files (out ++ strL L ++ ".edg".toList)
        (ps.map fun q => Spec.rowText csep rsep weights (nm q.1) (nm q.2) (strW (Spec.readP 1 dir al ops [s] q.1 q.2))).flatten) := by
    intro L hL
    obtain ⟨s, rfl, hs⟩ := (hform L).1 hL
    obtain ⟨k, ps, k1, k2, k3, k4⟩ := layer_links c dir al z ops hs
    refine ⟨ps, fun s' e => ?_⟩
    obtain rfl : s = s' := by cases e; rfl
    refine ⟨k2, fun files => ?_⟩
    unfold writeLayer
    rw [k1]
    simp only [k3]
    rw [View.collect_ok (g := fun e : List α × W => match e with
      | (a :: b :: _, w) => [Spec.rowText csep rsep weights (nm a) (nm b) (strW w)]
      | _ => [])]
    · rw [List.flatMap_map]
      simp only
      rw [View.flatMap_single]
    · intro e he
      obtain ⟨q, hq, rfl⟩ := List.mem_map.1 he
      simp only [edgeRow]
      rw [hnode _ ((n3 _).2 (node_of_layer al ops (k4 q hq).1)), hnode _ ((n3 _).2 (node_of_layer al ops (k4 q hq).2))]
      simp only [Spec.rowText]
      cases weights <;> simp [Spec.rowText.joined', List.append_assoc]
  choose! ps hps using hlayer
  have hloop : ∃ files, forE (writeLayer p node strL strW out csep rsep weights) p.iterLayers [] = .ok files ∧
      (∀ s, LKey.el s ∈ p.iterLayers → Dict.get files (out ++ strL (.el s) ++ ".edg".toList) = some ((ps (.el s)).map fun q =>
        Spec.rowText csep rsep weights (nm q.1) (nm q.2) (strW (Spec.readP 1 dir al ops [s] q.1 q.2))).flatten) ∧
      ∀ f, (Dict.get files f).isSome = true ↔ ∃ s, LKey.el s ∈ p.iterLayers ∧ f = out ++ strL (.el s) ++ ".edg".toList := by
    refine forE_ok (P := fun pre files => (∀ s, LKey.el s ∈ pre → Dict.get files (out ++ strL (.el s) ++ ".edg".toList) =
        some ((ps (.el s)).map fun q =>
        Spec.rowText csep rsep weights (nm q.1) (nm q.2) (strW (Spec.readP 1 dir al ops [s] q.1 q.2))).flatten) ∧
      ∀ f, (Dict.get files f).isSome = true ↔ ∃ s, LKey.el s ∈ pre ∧ f = out ++ strL (.el s) ++ ".edg".toList) p.iterLayers ?_ ?_
    · refine ⟨by simp, fun f => ?_⟩
      simp [Dict.get]
    · intro pre L post files e ⟨h1, h2⟩
      have hL : L ∈ p.iterLayers := by rw [e]; simp
      obtain ⟨s, rfl, hs⟩ := (hform L).1 hL
      refine ⟨_, (hps _ hL s rfl).2 files, fun t ht => ?_, fun f => ?_⟩
      · rw [Dict.get_set]
        by_cases hts : t = s
        · subst hts
          rw [if_pos rfl]
        · rcases List.mem_append.1 ht with ht | ht
          · rw [if_neg, h1 t ht]
            intro h
            have ht' : Spec.HasLayer 1 al ops (.el t) := by
              obtain ⟨t', e', h'⟩ := (hform (.el t)).1 (by rw [e]; simp [ht])
              exact e' ▸ h'
            exact hts (hinj t s ht' hs (List.append_cancel_left (List.append_cancel_right h)).symm)
          · simp at ht; exact absurd ht hts
      · rw [Dict.get_set]
        by_cases hf : out ++ strL (.el s) ++ ".edg".toList = f
        · rw [if_pos hf]
          exact ⟨fun _ => ⟨s, by simp, hf.symm⟩, fun _ => rfl⟩
        · rw [if_neg hf, h2]
          constructor
          · rintro ⟨t, h3, h4⟩; exact ⟨t, by simp [h3], h4⟩
          · rintro ⟨t, h3, h4⟩
            rcases List.mem_append.1 h3 with h3 | h3
            · exact ⟨t, h3, h4⟩
            · simp at h3; subst h3; exact absurd h4.symm hf
  obtain ⟨files, f1, f2, f3⟩ := hloop
  have hmem : ∀ s, LKey.el s ∈ p.iterLayers ↔ Spec.HasLayer 1 al ops (.el s) := by
    intro s
    rw [hform]
    constructor
    · rintro ⟨t, e, h⟩; exact e ▸ h
    · intro h; exact ⟨s, rfl, h⟩
  have hw : writeEdgeFiles p strN strNat strL strW out csep rsep weights master numeric =
      .ok (if master then Dict.set files (out ++ ".txt".toList)
        (p.iterLayers.map fun L => basename (out ++ strL L ++ ".edg".toList) ++ ";".toList ++ strL L ++ ";\n".toList).flatten else files) := by
    unfold writeEdgeFiles
    rw [if_pos (show p.aspects = 1 from hpar.1), n1]
    simp only
    change (match forE (writeLayer p node strL strW out csep rsep weights) p.iterLayers [] with
      | .error e => Except.error e
      | .ok files => _) = _
    rw [f1]
    simp only
    cases master <;> rfl
  refine ⟨ns, _, n1, hw, fun s hs => ?_, fun f => ?_, fun hm => ?_⟩
  · refine ⟨ps (.el s), (hps _ ((hmem s).2 hs) s rfl).1, ?_⟩
    have := f2 s ((hmem s).2 hs)
    cases master with
    | false => exact this
    | true =>
      rw [if_pos rfl, Dict.get_set, if_neg (fun h => edg_ne_txt _ _ h.symm)]
      exact this
  · cases master with
    | false =>
      rw [if_neg (by simp), f3]
      simp [hmem]
    | true =>
      rw [if_pos rfl, Dict.get_set]
      by_cases hf : out ++ ".txt".toList = f
      · rw [if_pos hf]
        exact ⟨fun _ => Or.inr ⟨rfl, hf.symm⟩, fun _ => rfl⟩
      · rw [if_neg hf, f3]
        constructor
        · rintro ⟨s, h1, h2⟩; exact Or.inl ⟨s, (hmem s).1 h1, h2⟩
        · rintro (⟨s, h1, h2⟩ | ⟨-, h⟩)
          · exact ⟨s, (hmem s).2 h1, h2⟩
          · exact absurd h.symm hf
  · subst hm
    have hex : ∃ ls : List α, p.iterLayers = ls.map .el := by
      have : ∀ l : List (LKey α), (∀ L ∈ l, ∃ s, L = .el s) → ∃ ls : List α, l = ls.map .el := by
        intro l
        induction l with
        | nil => intro _; exact ⟨[], rfl⟩
        | cons L l ih =>
          intro h
          obtain ⟨s, rfl⟩ := h L (by simp)
          obtain ⟨ls, rfl⟩ := ih fun x hx => h x (by simp [hx])
          exact ⟨s :: ls, rfl⟩
      exact this _ fun L hL => by
        obtain ⟨s, e, -⟩ := (hform L).1 hL
        exact ⟨s, e⟩
    obtain ⟨ls, hls⟩ := hex
    refine ⟨ls, fun s => basename (out ++ strL (.el s) ++ ".edg".toList), ?_, fun s => ?_, fun s => basename_spec _, ?_⟩
    · rw [hls] at l2; exact l2.of_map _
    · rw [← hmem, hls]
      constructor
      · intro h; exact List.mem_map_of_mem h
      · intro h
        obtain ⟨t, ht, e⟩ := List.mem_map.1 h
        cases e; exact ht
    · rw [if_pos rfl, Dict.get_set, if_pos rfl, hls, List.map_map]
      rfl

end

/-- A text for numbers, for the examples: `n` strokes. -/
def strokes (n : Nat) : Text := List.replicate n '|'

example : writeEdgeFiles (afterP [.ordinal (1 : Int)] false 0 true samplePlex) (fun n => strokes n.toNat) strokes
    (fun L => strokes ((L.toList.headD 0).toNat - 8)) (fun w => strokes w.toNat) "a/b".toList ",".toList "\n".toList true true false =
    .ok [("a/b||.edg".toList, "|,||,||||||\n".toList), ("a/b|||.edg".toList, "|,||,|||||||\n||,|||,||||\n".toList),
      ("a/b.txt".toList, "b||.edg;||;\nb|||.edg;|||;\n".toList)] := by decide +kernel

/-- **C100**, reading the rows: if the separators are single characters that occur in none of the texts, splitting the
content of a file at the row separators gives the rows, and splitting a row at the column separators gives the texts of the
nodes and of the weight. -/
theorem C100_rows {csep rsep : Char} (hcr : csep ≠ rsep) {weights : Bool} {rows : List (Text × Text × Text)}
    (h : ∀ r ∈ rows, (csep ∉ r.1 ∧ csep ∉ r.2.1 ∧ csep ∉ r.2.2) ∧ rsep ∉ r.1 ∧ rsep ∉ r.2.1 ∧ rsep ∉ r.2.2) :
    ((Text.splitOn rsep (rows.map fun r => Spec.rowText [csep] [rsep] weights r.1 r.2.1 r.2.2).flatten).dropLast.map (Text.splitOn csep)) =
      rows.map fun r => if weights then [r.1, r.2.1, r.2.2] else [r.1, r.2.1] := by
  have key : Text.splitOn rsep (rows.map fun r => Spec.rowText [csep] [rsep] weights r.1 r.2.1 r.2.2).flatten =
      (rows.map fun r => Spec.rowText [csep] [] weights r.1 r.2.1 r.2.2) ++ [[]] := by
    induction rows with
    | nil => rfl
    | cons r rows ih =>
      obtain ⟨-, h1, h2, h3⟩ := h r (by simp)
      have hrow : Spec.rowText [csep] [rsep] weights r.1 r.2.1 r.2.2 = Spec.rowText [csep] [] weights r.1 r.2.1 r.2.2 ++ [rsep] := by
        simp [Spec.rowText]
      have hno : rsep ∉ Spec.rowText [csep] [] weights r.1 r.2.1 r.2.2 := by
        cases weights <;> simp [Spec.rowText, Spec.rowText.joined', h1, h2, h3, Ne.symm hcr]
      rw [List.map_cons, List.flatten_cons, hrow, List.append_assoc, List.singleton_append, splitOn_sep hno,
        ih fun x hx => h x (by simp [hx])]
      rfl
  rw [key, List.dropLast_concat, List.map_map]
  apply List.map_congr_left
  intro r hr
  obtain ⟨⟨h1, h2, h3⟩, -⟩ := h r hr
  cases weights with
  | false =>
    simp only [Function.comp, Spec.rowText, Spec.rowText.joined', Bool.false_eq_true, if_false, List.append_nil]
    rw [List.append_assoc, List.singleton_append, splitOn_sep h1, splitOn_word h2]
  | true =>
    simp only [Function.comp, Spec.rowText, Spec.rowText.joined', if_true, List.append_nil]
    rw [List.append_assoc, List.singleton_append, splitOn_sep h1, List.append_assoc, List.singleton_append, splitOn_sep h2,
      splitOn_word h3]

example : ((Text.splitOn '\n' "1,2,3\n2,4,1\n".toList).dropLast.map (Text.splitOn ',')) =
    [["1".toList, "2".toList, "3".toList], ["2".toList, "4".toList, "1".toList]] := by decide +kernel

instance : DecidablePred Spec.Blank := fun t => by unfold Spec.Blank; infer_instance

/-- **C100 is false of the code** as a pair of inverse functions: the rows written by `write_edge_files` with the default
separators have no column for the layer, and `read_edge_files` raises `ValueError` on every non-empty file. -/
theorem C100_false_roundtrip {int : Text → Option α} {float : Text → Option W} {weights : Bool} {r : Text × Text × Text}
    {rows : List (Text × Text × Text)} (h : Spec.Word r.1 ∧ Spec.Word r.2.1 ∧ Spec.Word r.2.2)
    (layerFile nodeFile : Option (List Text)) (c : Coupling α W) (fic dir ignoreSelf : Bool) :
    readEdgeFiles int float ((r :: rows).map fun r => Spec.rowText "\t".toList "\n".toList weights r.1 r.2.1 r.2.2) layerFile nodeFile c
      fic dir ignoreSelf = .error .valueError := by
  rw [List.map_cons]
  obtain ⟨h1, h2, h3⟩ := h
  have hb : Spec.Blank "\n".toList := by decide
  have ht : ∀ c t', ("\t".toList ++ t' : Text) = c :: t' → Text.isSpace c = true := by
    intro c t' e; cases e; decide
  have last : ∀ {w : Text}, Spec.Word w → Spec.Fields ("\t".toList ++ (w ++ "\n".toList)) [w] := fun hw =>
    .cons (by decide) hw (by intro c t e; cases e; decide) (.nil hb)
  have hf : ∃ ws, ws.length ≤ 3 ∧ Spec.Fields (Spec.rowText "\t".toList "\n".toList weights r.1 r.2.1 r.2.2) ws := by
    cases weights with
    | false =>
      refine ⟨[r.1, r.2.1], by simp, ?_⟩
      have : Spec.rowText "\t".toList "\n".toList false r.1 r.2.1 r.2.2 = [] ++ (r.1 ++ ("\t".toList ++ (r.2.1 ++ "\n".toList))) := by
        simp [Spec.rowText, Spec.rowText.joined']
      rw [this]
      exact .cons (by simp [Spec.Blank]) h1 (by intro c t e; cases e; decide) (last h2)
    | true =>
      refine ⟨[r.1, r.2.1, r.2.2], by simp, ?_⟩
      have : Spec.rowText "\t".toList "\n".toList true r.1 r.2.1 r.2.2 =
          [] ++ (r.1 ++ ("\t".toList ++ (r.2.1 ++ ("\t".toList ++ (r.2.2 ++ "\n".toList))))) := by
        simp [Spec.rowText, Spec.rowText.joined']
      rw [this]
      exact .cons (by simp [Spec.Blank]) h1 (by intro c t e; cases e; decide)
        (.cons (by decide) h2 (by intro c t e; cases e; decide) (last h3))
  obtain ⟨ws, hlen, hf⟩ := hf
  refine C98_bad_line (lines := []) (es := []) .nil (Or.inr (by simp)) ?_ _ layerFile nodeFile c fic dir
  rintro ⟨e, a, b, c', d, hf', -⟩
  have h4 := (words_fields hf).symm.trans (words_fields hf')
  rw [h4] at hlen
  simp at hlen

/-- **C100 is false of the code** if two layers have the same text, such as the layers `1` and `"1"`: the file of one of
them overwrites the file of the other. Here the two layers have different links, and one file is written. -/
theorem C100_false_overwritten :
    let p := afterP [.categorical (1 : Int)] false 0 true
      [.setItem [((1, false) : Int × Bool), (2, false), (7, false)] 5, .setItem [(1, false), (2, false), (7, true)] 6]
    p.iterLayers = [.el (7, false), .el (7, true)] ∧
    writeEdgeFiles p (fun n => strokes n.1.toNat) strokes (fun L => strokes ((L.toList.headD (0, false)).1.toNat)) (fun w => strokes w.toNat)
      "a".toList ",".toList "\n".toList true false false = .ok [("a|||||||.edg".toList, "|,||,||||||\n".toList)] := by
  decide +kernel

/-! ### C101: `read_ucinet` -/

/-- Internal. -/
theorem lastOf_mem {β : Type} {f : Spec.Sec → Option β} {secs : List Spec.Sec} {x : β} (h : Spec.lastOf f secs = some x) :
    ∃ s ∈ secs, f s = some x := by
  unfold Spec.lastOf at h
  induction secs using List.reverseRecOn with
  | nil => cases h
  | append_singleton secs s ih =>
    rw [List.foldl_append, List.foldl_cons, List.foldl_nil] at h
    cases hs : f s with
    | some y =>
      rw [hs, Option.some_or] at h
      exact ⟨s, by simp, by rw [hs]; exact h⟩
    | none =>
      rw [hs, Option.none_or] at h
      obtain ⟨t, ht, e⟩ := ih h
      exact ⟨t, by simp [ht], e⟩

section
variable {idx : Nat → α} {name : Text → α} {float : Text → Option W} {lines data : List Text} {n nm : Nat}
  {secs : List Spec.Sec} {R : List (List Text)} {M : Nat → Nat → W}

/-- Internal: there are as many names as the sizes say. -/
theorem names_length (h : ∀ s ∈ secs, s.Ok n nm) : (Spec.colNames idx name n secs).length = n ∧
    (Spec.rowNames idx name n secs).length = n ∧ (Spec.levelNames idx name nm secs).length = nm := by
  have h1 : ∀ l, Spec.lastOf Spec.Sec.labels? secs = some l → l.length = n := by
    intro l hl
    obtain ⟨s, hs, e⟩ := lastOf_mem hl
    cases s <;> cases e
    exact (h _ hs).1
  have h2 : ∀ l, Spec.lastOf Spec.Sec.rowLabels? secs = some l → l.length = n := by
    intro l hl
    obtain ⟨s, hs, e⟩ := lastOf_mem hl
    cases s <;> cases e
    exact (h _ hs).1
  have h3 : ∀ l, Spec.lastOf Spec.Sec.colLabels? secs = some l → l.length = n := by
    intro l hl
    obtain ⟨s, hs, e⟩ := lastOf_mem hl
    cases s <;> cases e
    exact (h _ hs).1
  have h4 : ∀ l, Spec.lastOf Spec.Sec.levelLabels? secs = some l → l.length = nm := by
    intro l hl
    obtain ⟨s, hs, e⟩ := lastOf_mem hl
    cases s <;> cases e
    exact (h _ hs).1
  unfold Spec.colNames Spec.rowNames Spec.levelNames
  refine ⟨?_, ?_, ?_⟩
  · split <;> simp [*]
  · split <;> simp [*]
  · split <;> simp [*]

/-- Internal: the data without embedded labels. -/
theorem plain_rows {cols rowsN : List α} (hrn : rowsN.length = n) (hn : ∀ r < n * nm, 0 < n) (hrows : Spec.Rows n 0 data R)
    (hlen : R.length = n * nm) :
    (∀ (r : Nat) row, R[r]? = some row → takeLabel name false rowsN row = .ok (rowsN, R.getD r [])) ∧
    (∀ r < n * nm, (R.getD r []).length = n) ∧ ∀ r < n * nm, ∃ y, rowsN[r % n]? = some y ∧ rowsN[r % n]? = some y := by
  refine ⟨fun r row hr => ?_, fun r hr => ?_, fun r hr => ?_⟩
  · simp [takeLabel, List.getD, hr]
  · have h1 : R[r]? = some R[r] := List.getElem?_eq_getElem (by omega)
    rw [List.getD, h1]
    exact rows_length hrows _ (List.getElem_mem _)
  · have := Nat.mod_lt r (hn r hr)
    exact ⟨rowsN[r % n], List.getElem?_eq_getElem (by omega), List.getElem?_eq_getElem (by omega)⟩

/-- Internal. -/
theorem pos_of_lt {r n nm : Nat} (h : r < n * nm) : 0 < n := by
  rcases Nat.eq_zero_or_pos n with rfl | h'
  · simp at h
  · exact h'

/-- Internal: the layers are the levels if each has an entry. -/
theorem Content.ite_layers {fic : Bool} {ops : List (POp α W)} {nodes layers : α → Prop} {on : α → α → Prop} {w : α → α → α → W}
    (h : Spec.Content false fic ops nodes layers on w) {nodes' layers' : α → Prop} {on' : α → α → Prop}
    (h1 : ∀ x, nodes x ↔ nodes' x) (h2 : ∀ x, layers x ↔ layers' x) (h3 : ∀ x s, on x s ↔ on' x s) :
    Spec.Content false fic ops nodes' layers' on' w :=
  ⟨fun x => (h.nodes_iff x).trans (h1 x), fun x => (h.layers_iff x).trans (h2 x), fun x s => (h.on_iff x s).trans (h3 x s),
    h.weight_eq, h.noSelf⟩

/-- Internal: the content of the network read from data with several levels, with the layers spelled out. -/
theorem content_levels {fic : Bool} {ops : List (POp α W)} {cols rowsN levels : List α}
    (hent : fic = true → ∀ l ∈ levels, ∃ e ∈ Spec.entries cols rowsN levels n nm M, e.1 = l)
    (h : Spec.Content false fic ops
        (fun x => if fic = true then levels ≠ [] ∧ (x ∈ cols ∨ x ∈ rowsN) else
          ∃ e ∈ Spec.entries cols rowsN levels n nm M, x = e.2.1 ∨ x = e.2.2.1)
        (fun s => ∃ e ∈ Spec.entries cols rowsN levels n nm M, s = e.1)
        (fun x s => if fic = true then (levels ≠ [] ∧ (x ∈ cols ∨ x ∈ rowsN)) ∧ ∃ e ∈ Spec.entries cols rowsN levels n nm M, s = e.1 else
          ∃ e ∈ Spec.entries cols rowsN levels n nm M, s = e.1 ∧ (x = e.2.1 ∨ x = e.2.2.1))
        (Spec.lastEntry false (Spec.entries cols rowsN levels n nm M))) :
    Spec.Content false fic ops
        (fun x => if fic = true then levels ≠ [] ∧ (x ∈ cols ∨ x ∈ rowsN) else
          ∃ e ∈ Spec.entries cols rowsN levels n nm M, x = e.2.1 ∨ x = e.2.2.1)
        (fun s => if fic = true then s ∈ levels else ∃ e ∈ Spec.entries cols rowsN levels n nm M, s = e.1)
        (fun x s => if fic = true then (x ∈ cols ∨ x ∈ rowsN) ∧ s ∈ levels else
          ∃ e ∈ Spec.entries cols rowsN levels n nm M, s = e.1 ∧ (x = e.2.1 ∨ x = e.2.2.1))
        (Spec.lastEntry false (Spec.entries cols rowsN levels n nm M)) := by
  have hl : fic = true → ∀ s, (∃ e ∈ Spec.entries cols rowsN levels n nm M, s = e.1) ↔ s ∈ levels := by
    intro hf s
    constructor
    · rintro ⟨e, he, rfl⟩; exact (entries_level he).1
    · intro hs
      obtain ⟨e, h1, h2⟩ := hent hf s hs
      exact ⟨e, h1, h2.symm⟩
  refine Content.ite_layers h (fun x => Iff.rfl) (fun s => ?_) (fun x s => ?_)
  · cases fic with
    | false => simp
    | true => rw [if_pos rfl]; exact hl rfl s
  · cases fic with
    | false => simp
    | true =>
      rw [if_pos rfl, if_pos rfl, hl rfl]
      constructor
      · rintro ⟨⟨-, h1⟩, h2⟩; exact ⟨h1, h2⟩
      · rintro ⟨h1, h2⟩; exact ⟨⟨List.ne_nil_of_mem h2, h1⟩, h2⟩

/-- **C101 (partial)**, several levels. `read_ucinet` of a full matrix file `DL N = n NM = nm` with `nm ≠ 1`, whose header
gives labels in any of the ways and order (not all three of labels, row labels, and column labels), followed by `n` rows of
`n` fields for every level. The undirected multiplex network has, if fully interconnected, the levels as layers and all
labels as nodes, on all layers; otherwise the nodes and layers of the non-zero entries off the diagonal. The weight of a link
is the last of its entries in reading order that is not zero. Missing: if `fullyInterconnected`, every level must have an entry, see
`C101_false_empty_level`. -/
theorem C101_levels_partial (h : Spec.UciFile lines n nm secs data) (hnr : Spec.NotRedundant secs) (hnm : nm ≠ 1)
    (hrows : Spec.Rows n 0 data R) (hlen : R.length = n * nm) (c : Coupling α W) (fic : Bool)
    (hM : Spec.Values float (Spec.colNames idx name n secs) (Spec.rowNames idx name n secs) n (fun r => R.getD r []) M (n * nm))
    (hent : fic = true → ∀ l ∈ Spec.levelNames idx name nm secs, ∃ e ∈ Spec.entries (Spec.colNames idx name n secs)
      (Spec.rowNames idx name n secs) (Spec.levelNames idx name nm secs) n nm M, e.1 = l) :
    ∃ cols rows levels es, cols = Spec.colNames idx name n secs ∧ rows = Spec.rowNames idx name n secs ∧
      levels = Spec.levelNames idx name nm secs ∧ es = Spec.entries cols rows levels n nm M ∧
      ∃ ops, readUcinet idx name float c fic lines = .ok (.plex (afterP [c] false 0 fic ops)) ∧
      Spec.Content false fic ops
        (fun x => if fic = true then levels ≠ [] ∧ (x ∈ cols ∨ x ∈ rows) else ∃ e ∈ es, x = e.2.1 ∨ x = e.2.2.1)
        (fun s => if fic = true then s ∈ levels else ∃ e ∈ es, s = e.1)
        (fun x s => if fic = true then (x ∈ cols ∨ x ∈ rows) ∧ s ∈ levels else ∃ e ∈ es, s = e.1 ∧ (x = e.2.1 ∨ x = e.2.2.1))
        (Spec.lastEntry false es) := by
  refine ⟨_, _, _, _, rfl, rfl, rfl, rfl, ?_⟩
  have hok : ∀ s ∈ secs, s.Ok n nm := by obtain ⟨_, _, _, _, _, _, h, _⟩ := h; exact h
  obtain ⟨l1, l2, l3⟩ := names_length (idx := idx) (name := name) hok
  obtain ⟨t1, t2, t3⟩ := plain_rows (name := name) (cols := Spec.colNames idx name n secs) l2 (fun r hr => pos_of_lt hr) hrows hlen
  obtain ⟨p, e1, hp⟩ := rows_plex (name := name) (float := float) (c := c) (M := M) l1 l3 fic false (R := R)
    (rls := fun _ => Spec.rowNames idx name n secs) (fs := fun r => R.getD r []) hlen t1 t2 t3 hM (dataRows_rows hrows)
  obtain ⟨q, ops, e2, rfl, hc⟩ := readData_plex (rl := Spec.rowNames idx name n secs) (fun _ _ => Iff.rfl) hp hent
  refine ⟨ops, ?_, content_levels hent hc⟩
  rw [readUcinet_plain idx name float c fic h hnr]
  unfold readData
  simp only [Bool.false_eq_true, if_false]
  rw [if_pos l1, if_neg hnm, e1]
  exact e2

/-- **C101 (partial)**, one level: the undirected network without aspects whose nodes are those of the non-zero entries off the
diagonal; the weight of a link is the last of its non-zero entries in reading order. Missing: the nodes without links, see
`C101_false_isolated`. -/
theorem C101_single_partial (h : Spec.UciFile lines n 1 secs data) (hnr : Spec.NotRedundant secs)
    (hrows : Spec.Rows n 0 data R) (hlen : R.length = n) (c : Coupling α W) (fic : Bool) (level : α)
    (hM : Spec.Values float (Spec.colNames idx name n secs) (Spec.rowNames idx name n secs) n (fun r => R.getD r []) M n) :
    ∃ m es, es = Spec.entries (Spec.colNames idx name n secs) (Spec.rowNames idx name n secs) [level] n 1 M ∧
      readUcinet idx name float c fic lines = .ok (.mono m) ∧
      Spec.LooksMono m (fun x => ∃ e ∈ es, x = e.2.1 ∨ x = e.2.2.1) (Spec.lastEntry false es level) := by
  have hok : ∀ s ∈ secs, s.Ok n 1 := by obtain ⟨_, _, _, _, _, _, h, _⟩ := h; exact h
  have h1 : n * 1 = n := Nat.mul_one n
  obtain ⟨l1, l2, l3⟩ := names_length (idx := idx) (name := name) hok
  obtain ⟨t1, t2, t3⟩ := plain_rows (nm := 1) (name := name) (cols := Spec.colNames idx name n secs) l2 (fun r hr => pos_of_lt hr) hrows
    (by rw [h1]; exact hlen)
  rw [h1] at t2 t3
  obtain ⟨m, e1, hp⟩ := rows_mono (name := name) (float := float) (M := M) l1 level false (R := R) (rowsN := Spec.rowNames idx name n secs)
    (rls := fun _ => Spec.rowNames idx name n secs) (fs := fun r => R.getD r []) hlen t1 t2
    (fun r hr => by have := t3 r hr; rwa [Nat.mod_eq_of_lt hr] at this)
    (fun r k f hr h2 h3 => hM r k f hr h2 (by rw [Nat.mod_eq_of_lt hr]; exact h3)) (dataRows_rows hrows)
  refine ⟨m, _, rfl, ?_, ?_⟩
  · rw [readUcinet_plain idx name float c fic h hnr]
    unfold readData
    simp only [Bool.false_eq_true, if_false]
    rw [if_pos l1, if_pos trivial, e1]
  · have hl := BuiltM.looks hp
    refine ⟨hl.reachable, ?_, hl.reads⟩
    obtain ⟨l, a1, a2, a3⟩ := hl.nodes
    refine ⟨l, a1, a2, fun x => (a3 x).trans ⟨fun ⟨e, h1, _, h2⟩ => ⟨e, h1, h2⟩, fun ⟨e, h1, h2⟩ => ⟨e, h1, (entries_level h1).2.2.2.1, h2⟩⟩⟩

/-! #### Embedded labels -/

/-- Internal: the data with embedded labels. -/
theorem embedded_rows {rowsN : List α} (hrn : rowsN.length = n) (hrows : Spec.Rows n 1 data R) (hlen : R.length = n * nm)
    (hlab : ∀ (r : Nat) row, R[r]? = some row → ∃ t, row.head? = some t ∧ rowsN[r % n]? = some (name (Text.lower t))) :
    ∃ rls : Nat → List α, rls 0 = [] ∧
    (∀ (r : Nat) row, R[r]? = some row → takeLabel name true (rls r) row = .ok (rls (r + 1), (R.getD r []).tail)) ∧
    (∀ r < n * nm, ((R.getD r []).tail).length = n) ∧
    (∀ r < n * nm, ∃ y, (rls (r + 1))[r % n]? = some y ∧ rowsN[r % n]? = some y) ∧
    (0 < nm → ∀ x, x ∈ rls (n * nm) ↔ x ∈ rowsN) := by
  let lab : List Text → α := fun row => name (Text.lower (row.headD []))
  have hlab' : ∀ (r : Nat) row, R[r]? = some row → rowsN[r % n]? = some (lab row) := by
    intro r row hr
    obtain ⟨t, h1, h2⟩ := hlab r row hr
    cases row with
    | nil => cases h1
    | cons a row => cases h1; exact h2
  refine ⟨fun r => (R.take r).map lab, rfl, fun r row hr => ?_, fun r hr => ?_, fun r hr => ?_, fun hnm x => ?_⟩
  · obtain ⟨t, h1, -⟩ := hlab r row hr
    cases row with
    | nil => cases h1
    | cons a row =>
      simp only [takeLabel, if_true, List.take_add_one, hr, List.map_append, List.getD, Option.getD_some, List.tail_cons]
      rfl
  · have h1 : R[r]? = some R[r] := List.getElem?_eq_getElem (by omega)
    rw [List.getD, h1]
    have := rows_length hrows _ (List.getElem_mem (l := R) (n := r) (by omega))
    simp [this]
  · have hn := pos_of_lt hr
    have hm : r % n < R.length := by
      rw [hlen]; exact lt_of_le_of_lt (Nat.mod_le r n) hr
    have h1 : R[r % n]? = some R[r % n] := List.getElem?_eq_getElem hm
    refine ⟨lab R[r % n], ?_, ?_⟩
    · rw [List.getElem?_map, List.getElem?_take, if_pos (by have := Nat.mod_le r n; omega), h1]
      rfl
    · have := hlab' _ _ h1
      rwa [Nat.mod_mod] at this
  · simp only
    rw [← hlen, List.take_length]
    constructor
    · intro h
      obtain ⟨row, hrow, rfl⟩ := List.mem_map.1 h
      obtain ⟨r, hr⟩ := List.mem_iff_getElem?.1 hrow
      exact List.mem_of_getElem? (hlab' r row hr)
    · intro h
      obtain ⟨k, hk⟩ := List.mem_iff_getElem?.1 h
      have hk' : k < n := by
        have := (List.getElem?_eq_some_iff.1 hk).1
        omega
      have hkl : k < R.length := by rw [hlen]; exact lt_of_lt_of_le hk' (Nat.le_mul_of_pos_right n hnm)
      have h1 : R[k]? = some R[k] := List.getElem?_eq_getElem hkl
      have h2 := hlab' k _ h1
      rw [Nat.mod_eq_of_lt hk', hk] at h2
      rw [Option.some.inj h2]
      exact List.mem_map_of_mem (List.getElem_mem _)

variable {head : Text} {colTexts : List Text} {rowsN : List α}

/-- **C101 (partial)**, several levels and embedded labels: the first line of the data has the names of the columns, and every row
starts with its name, the same for every level; these names are put in lower case. Missing: as in `C101_levels_partial`, and rows
that are broken before their last field, see `C101_false_broken_row`. -/
theorem C101_embedded_levels_partial (h : Spec.UciEmbedded lines n nm secs (head :: data))
    (h0 : Spec.lastOf Spec.Sec.labels? secs = none ∧ Spec.lastOf Spec.Sec.rowLabels? secs = none ∧
      Spec.lastOf Spec.Sec.colLabels? secs = none) (hnm : nm ≠ 1) (hhead : Spec.Fields head colTexts) (hcl : colTexts.length = n)
    (hrn : rowsN.length = n) (hrows : Spec.Rows n 1 data R) (hlen : R.length = n * nm)
    (hlab : ∀ (r : Nat) row, R[r]? = some row → ∃ t, row.head? = some t ∧ rowsN[r % n]? = some (name (Text.lower t)))
    (c : Coupling α W) (fic : Bool)
    (hM : Spec.Values float (colTexts.map fun t => name (Text.lower t)) rowsN n (fun r => (R.getD r []).tail) M (n * nm))
    (hent : fic = true → ∀ l ∈ Spec.levelNames idx name nm secs, ∃ e ∈ Spec.entries (colTexts.map fun t => name (Text.lower t))
      rowsN (Spec.levelNames idx name nm secs) n nm M, e.1 = l) :
    ∃ cols levels es, cols = (colTexts.map fun t => name (Text.lower t)) ∧
      levels = Spec.levelNames idx name nm secs ∧ es = Spec.entries cols rowsN levels n nm M ∧
      ∃ ops, readUcinet idx name float c fic lines = .ok (.plex (afterP [c] false 0 fic ops)) ∧
      Spec.Content false fic ops
        (fun x => if fic = true then levels ≠ [] ∧ (x ∈ cols ∨ x ∈ rowsN) else ∃ e ∈ es, x = e.2.1 ∨ x = e.2.2.1)
        (fun s => if fic = true then s ∈ levels else ∃ e ∈ es, s = e.1)
        (fun x s => if fic = true then (x ∈ cols ∨ x ∈ rowsN) ∧ s ∈ levels else ∃ e ∈ es, s = e.1 ∧ (x = e.2.1 ∨ x = e.2.2.1))
        (Spec.lastEntry false es) := by
  refine ⟨_, _, _, rfl, rfl, rfl, ?_⟩
  have hok : ∀ s ∈ secs, s.Ok n nm := by obtain ⟨_, _, _, _, _, _, _, _, _, _, _, _, h, _⟩ := h; exact h
  obtain ⟨l1, l2, l3⟩ := names_length (idx := idx) (name := name) hok
  have hcl' : (colTexts.map fun t => name (Text.lower t)).length = n := by rw [List.length_map, hcl]
  obtain ⟨rls, r0, t1, t2, t3, t4⟩ := embedded_rows hrn hrows hlen hlab
  obtain ⟨p, e1, hp⟩ := rows_plex (name := name) (float := float) (c := c) (M := M) hcl' l3 fic true (R := R)
    (rls := rls) (fs := fun r => (R.getD r []).tail) hlen t1 t2 t3 hM (dataRows_rows hrows)
  obtain ⟨q, ops, e2, rfl, hc⟩ := readData_plex (rl := rls (n * nm)) (fun hne => t4 (by
    rw [← l3]; exact List.length_pos_iff.2 hne)) hp hent
  refine ⟨ops, ?_, content_levels hent hc⟩
  obtain ⟨cs, rs, e⟩ := readUcinet_embedded idx name float c fic h h0
  rw [e]
  unfold readData
  simp only [if_true, words_fields hhead]
  rw [if_pos hcl', if_neg hnm, ← r0, e1]
  exact e2

/-- **C101 (partial)**, one level and embedded labels. Missing: as in `C101_single_partial` and `C101_embedded_levels_partial`. -/
theorem C101_embedded_single_partial (h : Spec.UciEmbedded lines n 1 secs (head :: data))
    (h0 : Spec.lastOf Spec.Sec.labels? secs = none ∧ Spec.lastOf Spec.Sec.rowLabels? secs = none ∧
      Spec.lastOf Spec.Sec.colLabels? secs = none) (hhead : Spec.Fields head colTexts) (hcl : colTexts.length = n)
    (hrn : rowsN.length = n) (hrows : Spec.Rows n 1 data R) (hlen : R.length = n)
    (hlab : ∀ (r : Nat) row, R[r]? = some row → ∃ t, row.head? = some t ∧ rowsN[r]? = some (name (Text.lower t)))
    (c : Coupling α W) (fic : Bool) (level : α)
    (hM : Spec.Values float (colTexts.map fun t => name (Text.lower t)) rowsN n (fun r => (R.getD r []).tail) M n) :
    ∃ m es, es = Spec.entries (colTexts.map fun t => name (Text.lower t)) rowsN [level] n 1 M ∧
      readUcinet idx name float c fic lines = .ok (.mono m) ∧
      Spec.LooksMono m (fun x => ∃ e ∈ es, x = e.2.1 ∨ x = e.2.2.1) (Spec.lastEntry false es level) := by
  have h1 : n * 1 = n := Nat.mul_one n
  have hcl' : (colTexts.map fun t => name (Text.lower t)).length = n := by rw [List.length_map, hcl]
  obtain ⟨rls, r0, t1, t2, t3, t4⟩ := embedded_rows (nm := 1) hrn hrows (by rw [h1]; exact hlen) (fun r row hr => by
    have hr' : r < n := by
      have := (List.getElem?_eq_some_iff.1 hr).1
      omega
    rw [Nat.mod_eq_of_lt hr']
    exact hlab r row hr)
  rw [h1] at t2 t3
  obtain ⟨m, e1, hp⟩ := rows_mono (name := name) (float := float) (M := M) hcl' level true (R := R) (rowsN := rowsN)
    (rls := rls) (fs := fun r => (R.getD r []).tail) hlen t1 t2
    (fun r hr => by have := t3 r hr; rwa [Nat.mod_eq_of_lt hr] at this)
    (fun r k f hr h2 h3 => hM r k f hr h2 (by rw [Nat.mod_eq_of_lt hr]; exact h3)) (dataRows_rows hrows)
  refine ⟨m, _, rfl, ?_, ?_⟩
  · obtain ⟨cs, rs, e⟩ := readUcinet_embedded idx name float c fic h h0
    rw [e]
    unfold readData
    simp only [if_true, words_fields hhead]
    rw [if_pos hcl', ← r0, e1]
  · have hl := BuiltM.looks hp
    refine ⟨hl.reachable, ?_, hl.reads⟩
    obtain ⟨l, a1, a2, a3⟩ := hl.nodes
    refine ⟨l, a1, a2, fun x => (a3 x).trans ⟨fun ⟨e, h1, _, h2⟩ => ⟨e, h1, h2⟩, fun ⟨e, h1, h2⟩ => ⟨e, h1, (entries_level h1).2.2.2.1, h2⟩⟩⟩

/-! #### The weights -/

/-- Internal. -/
theorem lastEntry_of_all {es : List (α × α × α × W)} {dir : Bool} {s i j : α} {w : W}
    (h : ∀ e ∈ es, s = e.1 ∧ e.2.1 ≠ e.2.2.1 ∧ Spec.SameLink dir e.2.1 e.2.2.1 i j → e.2.2.2 = w) :
    Spec.lastEntry dir es s i j = 0 ∧ (∀ e ∈ es, ¬ (s = e.1 ∧ e.2.1 ≠ e.2.2.1 ∧ Spec.SameLink dir e.2.1 e.2.2.1 i j)) ∨
    Spec.lastEntry dir es s i j = w ∧ ∃ e ∈ es, s = e.1 ∧ e.2.1 ≠ e.2.2.1 ∧ Spec.SameLink dir e.2.1 e.2.2.1 i j := by
  induction es using List.reverseRecOn with
  | nil => exact Or.inl ⟨rfl, by simp⟩
  | append_singleton es e ih =>
    rw [lastEntry_snoc]
    by_cases hc : s = e.1 ∧ e.2.1 ≠ e.2.2.1 ∧ Spec.SameLink dir e.2.1 e.2.2.1 i j
    · rw [if_pos hc]
      exact Or.inr ⟨h e (by simp) hc, e, by simp, hc⟩
    · rw [if_neg hc]
      rcases ih fun x hx => h x (by simp [hx]) with ⟨h1, h2⟩ | ⟨h1, x, h2, h3⟩
      · refine Or.inl ⟨h1, fun x hx => ?_⟩
        rcases List.mem_append.1 hx with hx | hx
        · exact h2 x hx
        · rw [List.mem_singleton.1 hx]; exact hc
      · exact Or.inr ⟨h1, x, by simp [h2], h3⟩

/-- **C101**, the links: two nodes are linked in a level iff there is a non-zero entry for them, in one direction or the other. -/
theorem C101_linked (cols rows levels : List α) (n nm : Nat) (M : Nat → Nat → W) (l x y : α) (hxy : x ≠ y) :
    Spec.lastEntry false (Spec.entries cols rows levels n nm M) l x y ≠ 0 ↔
      ∃ r c, r < n * nm ∧ c < n ∧ levels[r / n]? = some l ∧ M r c ≠ 0 ∧
        ((cols[c]? = some x ∧ rows[r % n]? = some y) ∨ (cols[c]? = some y ∧ rows[r % n]? = some x)) := by
  set es := Spec.entries cols rows levels n nm M with hes
  have hmem : ∀ e, e ∈ es ↔ ∃ r c, r < n * nm ∧ c < n ∧ levels[r / n]? = some e.1 ∧ cols[c]? = some e.2.1 ∧
      rows[r % n]? = some e.2.2.1 ∧ e.2.1 ≠ e.2.2.1 ∧ M r c ≠ 0 ∧ e.2.2.2 = M r c := by
    intro e
    rw [hes]
    unfold Spec.entries
    rw [List.mem_flatMap]
    constructor
    · rintro ⟨r, hr, he⟩
      obtain ⟨k, hk, he⟩ := List.mem_filterMap.1 he
      split at he
      · rename_i a b d h1 h2 h3
        split at he
        · rename_i h
          obtain rfl := Option.some.inj he
          exact ⟨r, k, List.mem_range.1 hr, List.mem_range.1 hk, h1, h2, h3, h.1, h.2, rfl⟩
        · cases he
      · cases he
    · rintro ⟨r, k, hr, hk, h1, h2, h3, h4, h5, h6⟩
      refine ⟨r, List.mem_range.2 hr, List.mem_filterMap.2 ⟨k, List.mem_range.2 hk, ?_⟩⟩
      rw [h1, h2, h3]
      simp only
      rw [if_pos ⟨h4, h5⟩, ← h6]
  have key : Spec.lastEntry false es l x y ≠ 0 ↔ ∃ e ∈ es, l = e.1 ∧ e.2.1 ≠ e.2.2.1 ∧ Spec.SameLink false e.2.1 e.2.2.1 x y := by
    have hnz : ∀ e ∈ es, e.2.2.2 ≠ 0 := fun e he => (entries_level he).2.2.2.2
    clear_value es
    clear hes hmem
    induction es using List.reverseRecOn with
    | nil => simp [Spec.lastEntry]
    | append_singleton es e ih =>
      rw [lastEntry_snoc]
      by_cases hc : l = e.1 ∧ e.2.1 ≠ e.2.2.1 ∧ Spec.SameLink false e.2.1 e.2.2.1 x y
      · rw [if_pos hc]
        exact ⟨fun _ => ⟨e, by simp, hc⟩, fun _ => hnz e (by simp)⟩
      · rw [if_neg hc]
        refine (ih fun a ha => hnz a (by simp [ha])).trans ?_
        constructor
        · rintro ⟨a, h1, h2⟩; exact ⟨a, by simp [h1], h2⟩
        · rintro ⟨a, h1, h2⟩
          rcases List.mem_append.1 h1 with h1 | h1
          · exact ⟨a, h1, h2⟩
          · rw [List.mem_singleton.1 h1] at h2; exact absurd h2 hc
  rw [key]
  constructor
  · rintro ⟨e, he, rfl, -, hs⟩
    obtain ⟨r, k, h1, h2, h3, h4, h5, -, h6, -⟩ := (hmem e).1 he
    refine ⟨r, k, h1, h2, h3, h6, ?_⟩
    rcases hs with ⟨rfl, rfl⟩ | ⟨-, rfl, rfl⟩
    · exact Or.inl ⟨h4, h5⟩
    · exact Or.inr ⟨h4, h5⟩
  · rintro ⟨r, k, h1, h2, h3, h6, ⟨h4, h5⟩ | ⟨h4, h5⟩⟩
    · exact ⟨(l, x, y, M r k), (hmem _).2 ⟨r, k, h1, h2, h3, h4, h5, hxy, h6, rfl⟩, rfl, hxy, Or.inl ⟨rfl, rfl⟩⟩
    · exact ⟨(l, y, x, M r k), (hmem _).2 ⟨r, k, h1, h2, h3, h4, h5, hxy.symm, h6, rfl⟩, rfl, hxy.symm, Or.inr ⟨rfl, rfl, rfl⟩⟩

/-- **C101**, the weights of a file of an undirected network: if rows and columns have the same names, all names are different, and the
matrix of every level is symmetric, the weight of the link from the `i`-th to the `j`-th node in the `k`-th level is the entry
in the `i`-th row and `j`-th column of this level. -/
theorem C101_symmetric {cols levels : List α} {n nm : Nat} {M : Nat → Nat → W} (hc : cols.Nodup) (hl : levels.Nodup)
    (hcl : cols.length = n) (hll : levels.length = nm)
    (hsym : ∀ k < nm, ∀ i < n, ∀ j < n, M (k * n + i) j = M (k * n + j) i) {k i j : Nat} (hk : k < nm) (hi : i < n) (hj : j < n) (hij : i ≠ j)
    {l x y : α} (hl' : levels[k]? = some l) (hx : cols[i]? = some x) (hy : cols[j]? = some y) :
    Spec.lastEntry false (Spec.entries cols cols levels n nm M) l x y = M (k * n + i) j := by
  have hn : 0 < n := by omega
  have hinj : ∀ {β : Type} {L : List β} {a b : Nat} {z : β}, L.Nodup → L[a]? = some z → L[b]? = some z → a = b := by
    intro β L a b z hL ha hb
    obtain ⟨ha', ea⟩ := List.getElem?_eq_some_iff.1 ha
    obtain ⟨hb', eb⟩ := List.getElem?_eq_some_iff.1 hb
    exact (hL.getElem_inj_iff).1 (ea.trans eb.symm)
  have hxy : x ≠ y := by
    rintro rfl; exact hij (hinj hc hx hy)
  have hall : ∀ e ∈ Spec.entries cols cols levels n nm M, l = e.1 ∧ e.2.1 ≠ e.2.2.1 ∧ Spec.SameLink false e.2.1 e.2.2.1 x y →
      e.2.2.2 = M (k * n + i) j := by
    rintro e he ⟨h1, -, hs⟩
    unfold Spec.entries at he
    obtain ⟨r, hr, he⟩ := List.mem_flatMap.1 he
    obtain ⟨q, hq, he⟩ := List.mem_filterMap.1 he
    split at he
    · rename_i a b d g1 g2 g3
      split at he
      · obtain rfl := Option.some.inj he
        simp only at h1 hs ⊢
        subst h1
        have e1 : r / n = k := hinj hl g1 hl'
        have e2 : r = k * n + r % n := by
          have := Nat.div_add_mod r n
          rw [e1, Nat.mul_comm] at this
          exact this.symm
        rcases hs with ⟨rfl, rfl⟩ | ⟨-, rfl, rfl⟩
        · have e3 := hinj hc g2 hx
          have e4 := hinj hc g3 hy
          rw [e4] at e2
          rw [e2, e3]
          exact hsym k hk j hj i hi
        · have e3 := hinj hc g2 hy
          have e4 := hinj hc g3 hx
          rw [e4] at e2
          rw [e2, e3]
      · cases he
    · cases he
  rcases lastEntry_of_all hall with ⟨h1, h2⟩ | ⟨h1, -⟩
  · rw [h1]
    by_contra hne
    have hlt : k * n + i < n * nm := by
      calc k * n + i < k * n + n := by omega
        _ = (k + 1) * n := by ring
        _ ≤ nm * n := Nat.mul_le_mul_right n hk
        _ = n * nm := Nat.mul_comm _ _
    have hdiv : (k * n + i) / n = k := by
      rw [Nat.mul_comm, Nat.mul_add_div hn, Nat.div_eq_of_lt hi, Nat.add_zero]
    have hmod : (k * n + i) % n = i := by
      rw [Nat.mul_comm, Nat.mul_add_mod, Nat.mod_eq_of_lt hi]
    have := (C101_linked cols cols levels n nm M l x y hxy).2
      ⟨k * n + i, j, hlt, hj, by rw [hdiv]; exact hl', fun e => hne e.symm, Or.inr ⟨hy, by rw [hmod]; exact hx⟩⟩
    exact this h1
  · exact h1

/-! #### Files that are not read -/

/-- Internal: adding nodes to a layer that does not exist. -/
theorem addLabels_missing {p : MPlex α W} {c : Coupling α W} {S LY : α → Prop} {Rd : List α → α → α → W}
    (h : BuiltX p [c] false 0 true True S (fun _ x => LY x) (fun _ _ => False) Rd) {l : α} (hl : ¬ LY l) {cols : List α} (hc : cols ≠ [])
    (rls : List α) : addLabels cols rls p l = .error .keyError := by
  have hno : p.child? (.el l) = none := by
    obtain ⟨ops, rfl, -, -, h3, -⟩ := h
    by_contra hne
    have := ((C25_layers (cs := [c]) (by simp) false 0 true ops).1 (.el l)).1 (Option.isSome_iff_ne_none.2 hne)
    have := (hasLayer_LYs (cs := [c]) h3 [l]).1 this
    exact hl (this.2 0 l rfl)
  unfold addLabels
  cases cols with
  | nil => exact absurd rfl hc
  | cons x cols =>
    rw [forE]
    have : (p.childAddNode (.el l) x).toExcept = .error .keyError := by
      unfold MPlex.childAddNode
      rw [hno]
      rfl
    rw [this]

/-- **C101 is false of the code**: if a level of a file with several levels has no non-zero entry off the diagonal, reading it with
`fullyInterconnected=True` (the default) raises `KeyError`. -/
theorem C101_false_empty_level (h : Spec.UciFile lines n nm secs data) (hnr : Spec.NotRedundant secs) (hnm : nm ≠ 1) (hn : n ≠ 0)
    (hrows : Spec.Rows n 0 data R) (hlen : R.length = n * nm) (c : Coupling α W)
    (hM : Spec.Values float (Spec.colNames idx name n secs) (Spec.rowNames idx name n secs) n (fun r => R.getD r []) M (n * nm))
    {l : α} (hl : l ∈ Spec.levelNames idx name nm secs)
    (hempty : ∀ e ∈ Spec.entries (Spec.colNames idx name n secs) (Spec.rowNames idx name n secs) (Spec.levelNames idx name nm secs) n nm M,
      e.1 ≠ l) :
    readUcinet idx name float c true lines = .error .keyError := by
  have hok : ∀ s ∈ secs, s.Ok n nm := by obtain ⟨_, _, _, _, _, _, h, _⟩ := h; exact h
  obtain ⟨l1, l2, l3⟩ := names_length (idx := idx) (name := name) hok
  obtain ⟨t1, t2, t3⟩ := plain_rows (name := name) (cols := Spec.colNames idx name n secs) l2 (fun r hr => pos_of_lt hr) hrows hlen
  obtain ⟨p, e1, hp⟩ := rows_plex (name := name) (float := float) (c := c) (M := M) l1 l3 true false (R := R)
    (rls := fun _ => Spec.rowNames idx name n secs) (fs := fun r => R.getD r []) hlen t1 t2 t3 hM (dataRows_rows hrows)
  set cols := Spec.colNames idx name n secs
  set rws := Spec.rowNames idx name n secs
  set levels := Spec.levelNames idx name nm secs
  set es := Spec.entries cols rws levels n nm M with hes
  have hp' : BuiltX p [c] false 0 true True (nodesOf es) (fun _ x => layersOf es x) (fun _ _ => False) (rdOf false es) :=
    BuiltX.congr hp (fun _ => Iff.rfl) (fun _ _ _ _ => Iff.rfl) (fun h => (nomatch h)) (fun _ _ _ _ => rfl)
  have hcols : cols ≠ [] := List.length_pos_iff.1 (by omega)
  have key : ∀ (ls : List α) (q : MPlex α W) (S : α → Prop), l ∈ ls →
      BuiltX q [c] false 0 true True S (fun _ x => layersOf es x) (fun _ _ => False) (rdOf false es) →
      forE (addLabels cols rws) ls q = .error .keyError := by
    intro ls
    induction ls with
    | nil => intro q S h; cases h
    | cons a ls ih =>
      intro q S hm hq
      rw [forE]
      by_cases ha : layersOf es a
      · obtain ⟨q1, f1, hq1⟩ := addLevels cols rws [a] (fun l hl => by rw [List.mem_singleton.1 hl]; exact ha) hq
        have f2 : addLabels cols rws q a = .ok q1 := by
          rw [forE] at f1
          cases hx : addLabels cols rws q a with
          | error e => rw [hx] at f1; cases f1
          | ok q2 => rw [hx] at f1; rw [← f1]; rfl
        rw [f2]
        refine ih q1 _ ?_ hq1
        rcases List.mem_cons.1 hm with rfl | hm
        · obtain ⟨e, he, -, e'⟩ := ha
          exact absurd e'.symm (hempty e he)
        · exact hm
      · rw [addLabels_missing hq ha hcols]
  rw [readUcinet_plain idx name float c true h hnr]
  unfold readData
  simp only [Bool.false_eq_true, if_false]
  rw [if_pos l1, if_neg hnm, e1]
  simp only [if_true]
  rw [key levels p _ hl hp']

/-- **C101 is false of the code**: the nodes without links of a file with one level are not in the network. -/
theorem C101_false_isolated (h : Spec.UciFile lines n 1 secs data) (hnr : Spec.NotRedundant secs)
    (hrows : Spec.Rows n 0 data R) (hlen : R.length = n) (c : Coupling α W) (fic : Bool) (level : α)
    (hM : Spec.Values float (Spec.colNames idx name n secs) (Spec.rowNames idx name n secs) n (fun r => R.getD r []) M n) {x : α}
    (hx : ∀ e ∈ Spec.entries (Spec.colNames idx name n secs) (Spec.rowNames idx name n secs) [level] n 1 M, x ≠ e.2.1 ∧ x ≠ e.2.2.1) :
    ∃ m ns, readUcinet idx name float c fic lines = .ok (.mono m) ∧ m.getLayers 0 = .ok ns ∧ x ∉ ns := by
  obtain ⟨m, es, rfl, h1, h2⟩ := C101_single_partial h hnr hrows hlen c fic level hM
  obtain ⟨ns, h3, -, h4⟩ := h2.nodes
  refine ⟨m, ns, h1, h3, fun hm => ?_⟩
  obtain ⟨e, he, h | h⟩ := (h4 x).1 hm
  · exact (hx e he).1 h
  · exact (hx e he).2 h

/-- **C101 is false of the code**: the format is not looked at. A file that says that its data is in another format (such as a list
of links) is read as a full matrix. -/
theorem C101_false_format {lines' : List Text} {f : Text} (h : Spec.UciFile lines n nm secs data)
    (h' : Spec.UciFile lines' n nm (.format f :: secs) data) (hnr : Spec.NotRedundant secs) (c : Coupling α W) (fic : Bool) :
    readUcinet idx name float c fic lines' = readUcinet idx name float c fic lines := by
  rw [readUcinet_plain idx name float c fic h hnr, readUcinet_plain idx name float c fic h' hnr]
  rfl

end

/-- What is seen of the network, for the examples. -/
def UciNet.seen {α W : Type} : UciNet α W → List (List α)
  | .mono m => m.slices
  | .plex p => p.slices

/-- A file with two levels, for the examples. -/
def sampleUci : List Text := ["DL N=3 NM = 2\n".toList, "format = fullmatrix\n".toList, "labels:\n".toList, "A, b\n".toList, "c\n".toList,
  "level labels:\n".toList, "x,y\n".toList, "data:\n".toList, "0 1 0\n".toList, "1 0\n".toList, "2\n".toList, "0 2 0\n".toList, "\n".toList,
  "0 0 3\n".toList, "0 0 0\n".toList, "3 0 0\n".toList]

/-- The parts of its header. -/
def sampleSecs : List Spec.Sec := [.format " fullmatrix\n".toList, .labels [["A".toList, "b".toList], ["c".toList]], .levelLabels [["x".toList, "y".toList]]]

example : Spec.UciFile sampleUci 3 2 sampleSecs (sampleUci.drop 8) := by
  have kw : ∀ k : Text, Text.lower k = k → Spec.Keyword k (k ++ "\n".toList) := fun k hk =>
    ⟨[], k, "\n".toList, by decide, hk, by decide, rfl⟩
  refine ⟨["DL N=3 NM = 2\n".toList], [["format = fullmatrix\n".toList], ["labels:\n".toList, "A, b\n".toList, "c\n".toList],
    ["level labels:\n".toList, "x,y\n".toList]], "data:\n".toList, by decide +kernel, ?_, ?_, ?_, kw _ (by decide)⟩
  · exact .same (D := "DL".toList) (by decide) (.two (s1 := " ".toList) (N := "N".toList) (s2 := []) (s3 := []) (d := "3".toList)
      (s4 := " ".toList) (M := "NM".toList) (s5 := " ".toList) (s6 := " ".toList) (e := "2".toList) (s7 := "\n".toList)
      (by decide) (by decide) (by decide) (by decide) ⟨by decide, by decide⟩ (by decide) (by decide) (by decide) (by decide) (by decide)
      ⟨by decide, by decide⟩ (by decide))
  · refine .cons (.format (k := "format ".toList) ⟨[], "format".toList, " ".toList, by decide, by decide, by decide, rfl⟩)
      (.cons (.labels (kw "labels:".toList (by decide)) (.cons ⟨["A".toList, " b\n".toList], .cons ⟨[], [], by decide, by decide, rfl⟩
        (.cons ⟨" ".toList, "\n".toList, by decide, by decide, rfl⟩ .nil), rfl⟩
        (.cons ⟨["c\n".toList], .cons ⟨[], "\n".toList, by decide, by decide, rfl⟩ .nil, rfl⟩ .nil)))
      (.cons (.levelLabels (kw "level labels:".toList (by decide)) (.cons ⟨["x".toList, "y\n".toList],
        .cons ⟨[], [], by decide, by decide, rfl⟩ (.cons ⟨[], "\n".toList, by decide, by decide, rfl⟩ .nil), rfl⟩ .nil)) .nil))
  · have trim : ∀ c : Char, Text.isSpace c = false → ',' ∉ [c] → ',' ∉ [c] ∧ Spec.Trimmed [c] := fun c hc h =>
      ⟨h, Spec.Word.trimmed (by simpa using hc)⟩
    intro s hs
    simp only [sampleSecs, List.mem_cons, List.not_mem_nil, or_false] at hs
    rcases hs with rfl | rfl | rfl
    · exact (by decide : '=' ∉ Text.lower " fullmatrix\n".toList)
    · refine ⟨by decide, fun ls hls => ?_⟩
      simp only [List.mem_cons, List.not_mem_nil, or_false] at hls
      rcases hls with rfl | rfl
      · refine ⟨by simp, fun l hl => ?_⟩
        simp only [List.mem_cons, List.not_mem_nil, or_false] at hl
        rcases hl with rfl | rfl
        · exact trim 'A' (by decide) (by decide)
        · exact trim 'b' (by decide) (by decide)
      · refine ⟨by simp, fun l hl => ?_⟩
        simp only [List.mem_cons, List.not_mem_nil, or_false] at hl
        rcases hl with rfl
        exact trim 'c' (by decide) (by decide)
    · refine ⟨by decide, fun ls hls => ?_⟩
      simp only [List.mem_cons, List.not_mem_nil, or_false] at hls
      rcases hls with rfl
      refine ⟨by simp, fun l hl => ?_⟩
      simp only [List.mem_cons, List.not_mem_nil, or_false] at hl
      rcases hl with rfl | rfl
      · exact trim 'x' (by decide) (by decide)
      · exact trim 'y' (by decide) (by decide)

example : Spec.NotRedundant sampleSecs := Or.inr (Or.inl (by decide))

example : Spec.Rows 3 0 (sampleUci.drop 8) [["0".toList, "1".toList, "0".toList], ["1".toList, "0".toList, "2".toList],
    ["0".toList, "2".toList, "0".toList], ["0".toList, "0".toList, "3".toList], ["0".toList, "0".toList, "0".toList],
    ["3".toList, "0".toList, "0".toList]] := by
  have fw : ∀ (t : Text) (ws : List Text), Text.words t = ws → Spec.Fields t ws := fun t ws h => h ▸ fields_words t
  have one : ∀ (t : Text) (ws : List Text) {rest : List Text} {rows : List (List Text)}, Text.words t = ws → ws.length = 3 →
      Spec.Rows 3 0 rest rows → Spec.Rows 3 0 (t :: rest) (ws :: rows) := by
    intro t ws rest rows h1 h2 h3
    have := Spec.Rows.row (block := [t]) (fields := [ws]) (by simp) (.cons (fw t ws h1) .nil) (by simpa using h2) (Or.inr rfl) h3
    simpa using this
  refine one _ _ (by decide +kernel) rfl ?_
  have two := Spec.Rows.row (k := 3) (e := 0) (block := ["1 0\n".toList, "2\n".toList]) (fields := [["1".toList, "0".toList], ["2".toList]]) (by simp)
    (.cons (fw _ _ (by decide +kernel)) (.cons (fw _ _ (by decide +kernel)) .nil)) rfl (Or.inl (by decide))
    (rest := sampleUci.drop 11) (rows := [["0".toList, "2".toList, "0".toList], ["0".toList, "0".toList, "3".toList],
      ["0".toList, "0".toList, "0".toList], ["3".toList, "0".toList, "0".toList]])
  refine two (one _ _ (by decide +kernel) rfl ?_)
  have three := Spec.Rows.row (k := 3) (e := 0) (block := ["\n".toList, "0 0 3\n".toList]) (fields := [[], ["0".toList, "0".toList, "3".toList]]) (by simp)
    (.cons (fw _ _ (by decide +kernel)) (.cons (fw _ _ (by decide +kernel)) .nil)) rfl (Or.inl (by decide))
    (rest := sampleUci.drop 14) (rows := [["0".toList, "0".toList, "0".toList], ["3".toList, "0".toList, "0".toList]])
  exact three (one _ _ (by decide +kernel) rfl (one _ _ (by decide +kernel) rfl (.nil (by simp) (by simp))))

example : ((readUcinet (fun n => [Char.ofNat n]) id digits (.categorical (1 : Int)) true sampleUci).toOption.map UciNet.seen) =
    some [["b".toList, "A".toList, "c".toList], ["x".toList, "y".toList]] := by decide +kernel
example : ((readUcinet (fun n => [Char.ofNat n]) id digits (.categorical (1 : Int)) false sampleUci).toOption.map fun u => match u with
    | .plex p => (p.child? (.el "x".toList)).map fun c => c.reads ["b".toList] ["c".toList]
    | .mono _ => none) = some (some 2) := by decide +kernel
/-- The second level has no links: `C101_false_empty_level`. -/
example : (readUcinet (fun n => [Char.ofNat n]) id digits (.categorical (1 : Int)) true ["DL N=2 NM=2".toList, "data:".toList,
    "0 1".toList, "1 0".toList, "0 0".toList, "0 0".toList]).toOption.isNone = true := by decide +kernel

/-- **C101 is false of the code** for labels that differ in case only: `labels:` keeps them apart, although the documentation says that
all labels are set to lower case; embedded labels are set to lower case. -/
theorem C101_false_lower_case :
    ((readUcinet (fun n => [Char.ofNat n]) id digits (.categorical (1 : Int)) true ["DL N=3".toList, "labels:".toList, "a,A,b".toList,
      "data:".toList, "0 1 1".toList, "1 0 0".toList, "1 0 0".toList]).toOption.map UciNet.seen) =
      some [["A".toList, "a".toList, "b".toList]] ∧
    ((readUcinet (fun n => [Char.ofNat n]) id digits (.categorical (1 : Int)) true ["DL N=3".toList, "labels embedded".toList,
      "data:".toList, "a A b".toList, "a 0 1 1".toList, "A 1 0 0".toList, "b 1 0 0".toList]).toOption.map UciNet.seen) =
      some [["b".toList, "a".toList]] := by decide +kernel

/-- **C101 is false of the code** for a row with an embedded label that is broken before its last field: such a row is read
without this field, and `AssertionError` is raised. The same row without a label may be broken anywhere. -/
theorem C101_false_broken_row :
    (readUcinet (fun n => [Char.ofNat n]) id digits (.categorical (1 : Int)) true ["DL N=2".toList, "labels embedded".toList, "data:".toList,
      "a b".toList, "a 0".toList, "1".toList, "b 1 0".toList]).map UciNet.seen = .error .assertionError ∧
    (readUcinet (fun n => [Char.ofNat n]) id digits (.categorical (1 : Int)) true ["DL N=2".toList, "data:".toList,
      "0".toList, "1".toList, "1 0".toList]).toOption.isSome = true := by decide +kernel

end Pymnet
