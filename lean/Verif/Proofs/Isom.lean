import Verif.Spec.Isom
import Verif.Proofs.Relabel
import Verif.Proofs.Edges

/-! The auxiliary graph: what it looks like, and what its isomorphisms are. -/

set_option linter.unusedSectionVars false
set_option linter.unusedSimpArgs false

namespace Pymnet

open Py

variable {α W : Type} [DecidableEq α] [DecidableEq W]

/-! ### dictionaries that number a list -/

theorem get_zipIdx {κ : Type} [DecidableEq κ] [BEq κ] [LawfulBEq κ] (l : List κ) (n : Nat) (k : κ) :
    Dict.get (l.zipIdx n) k = if k ∈ l then some (n + l.idxOf k) else none := by
  induction l generalizing n with
  | nil => simp
  | cons a t ih =>
    rw [List.zipIdx_cons, Dict.get_cons]
    by_cases h : a = k
    · subst h; simp
    · have h' : ¬ k = a := fun e => h e.symm
      rw [if_neg h, ih]
      simp only [List.mem_cons, h', false_or]
      split
      · rw [List.idxOf_cons_ne _ h]; congr 1; omega
      · rfl

theorem set_new {κ ν : Type} [DecidableEq κ] (d : Dict κ ν) (k : κ) (x : ν) (h : k ∉ Dict.keys d) :
    Dict.set d k x = d ++ [(k, x)] := by
  induction d with
  | nil => rfl
  | cons p t ih =>
    obtain ⟨k', v'⟩ := p
    simp only [Dict.keys, List.map_cons, List.mem_cons, not_or] at h
    have hk : ¬ k' = k := fun e => h.1 e.symm
    simp only [Dict.set, hk, if_false, ih h.2, List.cons_append]

theorem keys_zipIdx {κ : Type} (l : List κ) (n : Nat) : Dict.keys (l.zipIdx n : Dict κ Nat) = l := by
  unfold Dict.keys; simp

theorem set_zipIdx {κ : Type} [DecidableEq κ] (l : List κ) (n : Nat) (k : κ) (h : k ∉ l) :
    Dict.set (l.zipIdx n) k (n + l.length) = (l ++ [k]).zipIdx n := by
  rw [set_new _ _ _ (by rw [keys_zipIdx]; exact h), List.zipIdx_append]
  simp

theorem enumDict_nodup {κ : Type} [DecidableEq κ] {l : List κ} (h : l.Nodup) (off : Nat) : enumDict l off = l.zipIdx off := by
  unfold enumDict
  induction l using List.reverseRecOn with
  | nil => rfl
  | append_singleton l a ih =>
    rw [List.nodup_append] at h
    obtain ⟨h1, -, h3⟩ := h
    rw [List.zipIdx_append, List.foldl_append, ih h1]
    simp only [List.zipIdx_singleton, List.foldl_cons, List.foldl_nil]
    have ha : a ∉ l := fun ha => h3 a ha a (by simp) rfl
    have := set_zipIdx l off a ha
    rw [List.zipIdx_append, List.zipIdx_singleton] at this
    exact this

theorem enumDict_get {κ : Type} [DecidableEq κ] (l : List κ) (off : Nat) :
    (∀ k i, Dict.get (enumDict l off) k = some i → off ≤ i ∧ l[i - off]? = some k) ∧
    (∀ k ∈ l, ∃ i, Dict.get (enumDict l off) k = some i) := by
  unfold enumDict
  induction l using List.reverseRecOn with
  | nil => simp
  | append_singleton l a ih =>
    rw [List.zipIdx_append, List.foldl_append]
    simp only [List.zipIdx_singleton, List.foldl_cons, List.foldl_nil]
    constructor
    · intro k i
      rw [Dict.get_set]
      split
      · rename_i h; subst h
        intro h; cases h
        refine ⟨by omega, ?_⟩
        rw [show off + l.length - off = l.length by omega]
        simp
      · intro h
        obtain ⟨h1, h2⟩ := ih.1 k i h
        refine ⟨h1, ?_⟩
        rw [List.getElem?_append_left]
        · exact h2
        · by_contra hge
          rw [List.getElem?_eq_none (by omega)] at h2
          cases h2
    · intro k hk
      rw [Dict.get_set]
      split
      · exact ⟨_, rfl⟩
      · rename_i h
        rcases List.mem_append.1 hk with hk | hk
        · exact ih.2 k hk
        · simp at hk; exact absurd hk.symm h

theorem getElem?_iff_idxOf {κ : Type} [BEq κ] [LawfulBEq κ] {l : List κ} (h : l.Nodup) (i : Nat) (k : κ) :
    l[i]? = some k ↔ k ∈ l ∧ i = l.idxOf k := by
  constructor
  · intro hi
    obtain ⟨hlt, rfl⟩ := List.getElem?_eq_some_iff.1 hi
    exact ⟨List.getElem_mem _, (h.idxOf_getElem i hlt).symm⟩
  · rintro ⟨hk, rfl⟩
    rw [List.getElem?_eq_getElem (List.idxOf_lt_length_iff.2 hk), List.getElem_idxOf]

/-! ### what the auxiliary graph looks like -/

/-- The graph `g` codes the node-layers `nls` as the vertices `id nl` with colours `col nl`, the pairs of an aspect
and an elementary layer in `aux` as the vertices `aid p` with colours `acol`. -/
structure Coded (g : CGraph) (nls : List (List α)) (aux : List (Nat × α)) (Lk : List α → List α → Prop)
    (col : List α → Nat) (acol : Nat → Nat) (id : List α → Nat) (aid : Nat × α → Nat) : Prop where
  idInj : ∀ u ∈ nls, ∀ w ∈ nls, id u = id w → u = w
  aidInj : ∀ p ∈ aux, ∀ q ∈ aux, aid p = aid q → p = q
  disj : ∀ u ∈ nls, ∀ p ∈ aux, id u ≠ aid p
  node : ∀ i, i ∈ Dict.keys g.nodes ↔ (∃ u ∈ nls, i = id u) ∨ ∃ p ∈ aux, i = aid p
  colN : ∀ u ∈ nls, Dict.get g.nodes (id u) = some (some (col u))
  colA : ∀ p ∈ aux, Dict.get g.nodes (aid p) = some (some (acol p.1))
  adjNN : ∀ u ∈ nls, ∀ w ∈ nls, (Spec.Adj g (id u) (id w) ↔ Lk u w)
  adjNA : ∀ u ∈ nls, ∀ p ∈ aux, (Spec.Adj g (id u) (aid p) ↔ u[p.1]? = some p.2)
  adjAA : ∀ p ∈ aux, ∀ q ∈ aux, ¬ Spec.Adj g (aid p) (aid q)

theorem Coded.colored {g : CGraph} {nls : List (List α)} {aux : List (Nat × α)} {Lk : List α → List α → Prop}
    {col : List α → Nat} {acol : Nat → Nat} {id : List α → Nat} {aid : Nat × α → Nat}
    (h : Coded g nls aux Lk col acol id aid) : Spec.Colored g := by
  intro i hi
  rcases (h.node i).1 hi with ⟨u, hu, rfl⟩ | ⟨p, hp, rfl⟩
  · exact ⟨_, h.colN u hu⟩
  · exact ⟨_, h.colA p hp⟩

theorem touch_of_has {ns : Dict Nat (Option Nat)} {i : Nat} (h : i ∈ Dict.keys ns) : CGraph.touch ns i = ns := by
  unfold CGraph.touch
  rw [if_pos (Dict.mem_keys_iff_has.1 h)]

/-- the state after the node-layers and some links have been added -/
structure NodesDone (nls : List (List α)) (col : List α → Nat) (s : AuxState α) : Prop where
  nodemap : s.nodemap = (nls.map AuxKey.tup).zipIdx
  aux : s.auxnodemap = []
  nodes : ∀ i c, Dict.get s.graph.nodes i = some c ↔ ∃ u, nls[i]? = some u ∧ c = some (col u)

theorem nodeId_known {nls : List (List α)} {s : AuxState α} (h : s.nodemap = (nls.map AuxKey.tup).zipIdx) {u : List α}
    (hu : u ∈ nls) : s.nodeId (.tup u) = .ok (s, nls.idxOf u) := by
  unfold AuxState.nodeId
  rw [h, get_zipIdx, if_pos (List.mem_map_of_mem hu)]
  simp only [Nat.zero_add]
  congr 2
  clear h
  induction nls with
  | nil => cases hu
  | cons a t ih =>
    by_cases e : a = u
    · subst e; simp
    · rw [List.map_cons, List.idxOf_cons_ne _ (by simpa using e), List.idxOf_cons_ne _ e, ih]
      rcases List.mem_cons.1 hu with rfl | hu
      · exact absurd rfl e
      · exact hu

theorem addNodes {nls : List (List α)} (hnd : nls.Nodup) {nasp : List Nat} {cm : Dict (List α) Nat}
    (hcm : ∀ u ∈ nls, ∃ c, Dict.get cm (pick nasp u) = some c) :
    ∃ s, forE (auxAddNode nasp cm) nls ⟨[], [], ⟨[], []⟩⟩ = .ok s ∧
      NodesDone nls (fun u => (Dict.get cm (pick nasp u)).getD 0) s ∧ s.graph.edges = [] := by
  refine forE_ok (f := auxAddNode nasp cm) (P := fun pre s =>
    NodesDone pre (fun u => (Dict.get cm (pick nasp u)).getD 0) s ∧ s.graph.edges = []) nls
    ⟨⟨rfl, rfl, by simp⟩, rfl⟩ ?_
  rintro pre b post s hl ⟨h, he⟩
  have hb : b ∉ pre := by
    rw [hl, List.nodup_append] at hnd
    intro hb; exact hnd.2.2 b hb b (by simp) rfl
  have hb' : AuxKey.tup b ∉ pre.map AuxKey.tup := by simpa using hb
  obtain ⟨c, hc⟩ := hcm b (by rw [hl]; simp)
  have hid : s.nodeId (.tup b) = .ok ({ s with nodemap := ((pre ++ [b]).map AuxKey.tup).zipIdx }, pre.length) := by
    unfold AuxState.nodeId
    rw [h.nodemap, get_zipIdx, if_neg hb', h.aux]
    simp only [List.length_nil, if_true, List.length_zipIdx, List.length_map]
    have := set_zipIdx (pre.map AuxKey.tup) 0 (.tup b) hb'
    simp only [Nat.zero_add, List.length_map] at this
    rw [this, List.map_append]; rfl
  refine ⟨⟨((pre ++ [b]).map AuxKey.tup).zipIdx, s.auxnodemap, s.graph.addNode pre.length c⟩,
    by simp only [auxAddNode, hid, hc], ⟨rfl, h.aux, fun i c' => ?_⟩, he⟩
  simp only [CGraph.addNode]
  rw [Dict.get_set]
  by_cases hi : pre.length = i
  · subst hi
    simp only [if_true, List.getElem?_append_right (Nat.le_refl _), Nat.sub_self, List.getElem?_cons_zero,
      Option.some.injEq, exists_eq_left', hc, Option.getD_some]
    exact eq_comm
  · rw [if_neg hi, h.nodes]
    have : (pre ++ [b])[i]? = pre[i]? := by
      rcases Nat.lt_or_gt_of_ne hi with hlt | hlt
      · rw [List.getElem?_eq_none (by simp; omega), List.getElem?_eq_none (by omega)]
      · rw [List.getElem?_append_left hlt]
    rw [this]

theorem NodesDone.mem_keys {nls : List (List α)} {col : List α → Nat} {s : AuxState α} (h : NodesDone nls col s) {u : List α}
    (hu : u ∈ nls) : nls.idxOf u ∈ Dict.keys s.graph.nodes := by
  rw [Dict.mem_keys, Option.isSome_iff_exists]
  exact ⟨_, (h.nodes _ _).2 ⟨u, by
    rw [List.getElem?_eq_getElem (List.idxOf_lt_length_iff.2 hu), List.getElem_idxOf], rfl⟩⟩

theorem neighKey_pos {d : Nat} (hd : 1 ≤ d) (u : List α) : neighKey d u = .tup u := by
  match d, u, hd with
  | d + 1, _, _ => unfold neighKey; split <;> simp_all

theorem addEdges {v : View α W} {R : List α → List α → W} (hv : v.Sound R) (ha : 1 ≤ v.aspects) {nls : List (List α)}
    (hn : v.nodeLayers = .ok nls) {col : List α → Nat} {s : AuxState α} (hs : NodesDone nls col s) (he : s.graph.edges = []) :
    ∃ s', forE v.auxAddEdges nls s = .ok s' ∧ NodesDone nls col s' ∧
      ∀ i j, (i, j) ∈ s'.graph.edges ↔ ∃ u ∈ nls, ∃ w ∈ nls, i = nls.idxOf u ∧ j = nls.idxOf w ∧
        (R u w ≠ v.noEdge ∨ R w u ≠ v.noEdge) := by
  obtain ⟨l, n1, n2, n3, n4⟩ := hv.nls
  rw [hn] at n1; cases n1
  refine (forE_ok (f := v.auxAddEdges) (P := fun pre s => NodesDone nls col s ∧
      ∀ i j, (i, j) ∈ s.graph.edges ↔ ∃ u ∈ pre, ∃ w ∈ nls, i = nls.idxOf u ∧ j = nls.idxOf w ∧
        (R u w ≠ v.noEdge ∨ R w u ≠ v.noEdge)) nls ⟨hs, by simp [he]⟩ ?_)
  rintro pre b post s hl ⟨h, hed⟩
  have hb : b ∈ nls := by rw [hl]; simp
  obtain ⟨ns, m1, -, m3⟩ := hv.tot b (n3 b hb)
  have hmem : ∀ w, w ∈ ns ↔ w ∈ nls ∧ (R b w ≠ v.noEdge ∨ R w b ≠ v.noEdge) := by
    intro w
    rw [m3]
    constructor
    · rintro ⟨hw, hR⟩
      refine ⟨?_, hR⟩
      rcases hR with hR | hR
      · exact (n4 b (n3 b hb) w hw hR).2
      · exact (n4 w hw b (n3 b hb) hR).1
    · rintro ⟨hw, hR⟩; exact ⟨n3 w hw, hR⟩
  obtain ⟨s', e1, e2, e3⟩ := forE_ok (f := auxAddEdge v.aspects b) (P := fun q s' => NodesDone nls col s' ∧
      ∀ i j, (i, j) ∈ s'.graph.edges ↔ (i, j) ∈ s.graph.edges ∨ ∃ w ∈ q, i = nls.idxOf b ∧ j = nls.idxOf w) ns
    (s := s) ⟨h, by simp⟩ (by
      rintro q w post' s' hq ⟨h', hed'⟩
      have hw : w ∈ nls := ((hmem w).1 (by rw [hq]; simp)).1
      have k1 := h'.mem_keys hb
      have k2 := h'.mem_keys hw
      have hadd : auxAddEdge v.aspects b s' w = .ok { s' with graph := ⟨s'.graph.nodes, s'.graph.edges ++ [(nls.idxOf b, nls.idxOf w)]⟩ } := by
        unfold auxAddEdge
        rw [nodeId_known h'.nodemap hb]
        simp only [neighKey_pos ha, nodeId_known h'.nodemap hw, CGraph.addLink]
        rw [touch_of_has k1, touch_of_has k2]
      refine ⟨_, hadd, ⟨h'.nodemap, h'.aux, h'.nodes⟩, fun i j => ?_⟩
      simp only [List.mem_append, List.mem_singleton, Prod.mk.injEq, hed']
      constructor
      · rintro ((h | ⟨w', hw', h⟩) | ⟨rfl, rfl⟩)
        · exact Or.inl h
        · exact Or.inr ⟨w', Or.inl hw', h⟩
        · exact Or.inr ⟨w, Or.inr rfl, rfl, rfl⟩
      · rintro (h | ⟨w', hw' | rfl, h1, h2⟩)
        · exact Or.inl (Or.inl h)
        · exact Or.inl (Or.inr ⟨w', hw', h1, h2⟩)
        · exact Or.inr ⟨h1, h2⟩)
  refine ⟨s', by simp only [View.auxAddEdges, m1]; exact e1, e2, fun i j => ?_⟩
  rw [e3, hed]
  constructor
  · rintro (⟨u, hu, w, hw, h⟩ | ⟨w, hw, rfl, rfl⟩)
    · exact ⟨u, by simp [hu], w, hw, h⟩
    · exact ⟨b, by simp, w, ((hmem w).1 hw).1, rfl, rfl, ((hmem w).1 hw).2⟩
  · rintro ⟨u, hu, w, hw, h1, h2, h3⟩
    rcases List.mem_append.1 hu with hu | hu
    · exact Or.inl ⟨u, hu, w, hw, h1, h2, h3⟩
    · simp only [List.mem_singleton] at hu
      subst hu
      exact Or.inr ⟨w, (hmem w).2 ⟨hw, h3⟩, h1, h2⟩

/-- the state after some auxiliary vertices have been added -/
structure AuxDone (nls : List (List α)) (col : List α → Nat) (acol : Nat → Nat) (aux : List (Nat × α)) (s : AuxState α) : Prop where
  nodemap : s.nodemap = (nls.map AuxKey.tup).zipIdx
  nodup : aux.Nodup
  auxmap : s.auxnodemap = aux.zipIdx nls.length
  nodes : ∀ i c, Dict.get s.graph.nodes i = some c ↔ (∃ u, nls[i]? = some u ∧ c = some (col u)) ∨
    ∃ p, nls.length ≤ i ∧ aux[i - nls.length]? = some p ∧ c = some (acol p.1)

theorem addAux {nls : List (List α)} {col : List α → Nat} {acm : Dict Nat Nat} {a : Nat} {c : Nat}
    (hc : Dict.get acm a = some c) {aux : List (Nat × α)} {s : AuxState α}
    (hs : AuxDone nls col (fun a => (Dict.get acm a).getD 0) aux s) (x : α) :
    ∃ s' aux', auxAddAux acm a s x = .ok s' ∧ AuxDone nls col (fun a => (Dict.get acm a).getD 0) aux' s' ∧
      (∀ p, p ∈ aux' ↔ p ∈ aux ∨ p = (a, x)) ∧ s'.graph.edges = s.graph.edges := by
  by_cases hx : (a, x) ∈ aux
  · have hid : s.auxId (a, x) = (s, nls.length + aux.idxOf (a, x)) := by
      unfold AuxState.auxId
      simp only [hs.auxmap, get_zipIdx, if_pos hx]
    refine ⟨⟨s.nodemap, s.auxnodemap, s.graph.addNode (nls.length + aux.idxOf (a, x)) c⟩, aux,
      by simp only [auxAddAux, hid, hc], ⟨hs.nodemap, hs.nodup, hs.auxmap, fun i c' => ?_⟩, ?_, rfl⟩
    · simp only [CGraph.addNode]
      rw [Dict.get_set]
      split
      · rename_i h; subst h
        have hnone : nls[nls.length + aux.idxOf (a, x)]? = none := List.getElem?_eq_none (by omega)
        have hsome : aux[nls.length + aux.idxOf (a, x) - nls.length]? = some (a, x) := by
          rw [Nat.add_sub_cancel_left, List.getElem?_eq_getElem (List.idxOf_lt_length_iff.2 hx), List.getElem_idxOf]
        simp only [hnone, hsome, Option.some.injEq, reduceCtorEq, false_and, exists_const, false_or,
          Nat.le_add_right, true_and, exists_eq_left', hc, Option.getD_some]
        exact eq_comm
      · exact hs.nodes i c'
    · intro p
      constructor
      · exact Or.inl
      · rintro (h | rfl)
        · exact h
        · exact hx
  · have hid : s.auxId (a, x) = ({ s with auxnodemap := (aux ++ [(a, x)]).zipIdx nls.length }, nls.length + aux.length) := by
      unfold AuxState.auxId
      rw [hs.auxmap, get_zipIdx, if_neg hx, hs.nodemap]
      simp only [List.length_zipIdx, List.length_map, set_zipIdx _ _ _ hx]
    refine ⟨⟨s.nodemap, (aux ++ [(a, x)]).zipIdx nls.length, s.graph.addNode (nls.length + aux.length) c⟩,
      aux ++ [(a, x)], by simp only [auxAddAux, hid, hc], ⟨hs.nodemap, ?_, rfl, fun i c' => ?_⟩, ?_, rfl⟩
    · rw [List.nodup_append]
      exact ⟨hs.nodup, by simp, by rintro p hp q hq rfl; simp at hq; subst hq; exact hx hp⟩
    · simp only [CGraph.addNode]
      rw [Dict.get_set]
      split
      · rename_i h; subst h
        have hnone : nls[nls.length + aux.length]? = none := List.getElem?_eq_none (by omega)
        have hsome : (aux ++ [(a, x)])[nls.length + aux.length - nls.length]? = some (a, x) := by
          rw [Nat.add_sub_cancel_left]; simp
        simp only [hnone, hsome, Option.some.injEq, reduceCtorEq, false_and, exists_const, false_or,
          Nat.le_add_right, true_and, exists_eq_left', hc, Option.getD_some]
        exact eq_comm
      · rename_i hi
        rw [hs.nodes]
        have : nls.length ≤ i → (aux ++ [(a, x)])[i - nls.length]? = aux[i - nls.length]? := by
          intro hle
          rcases Nat.lt_or_ge (i - nls.length) aux.length with hlt | hge
          · rw [List.getElem?_append_left hlt]
          · rw [List.getElem?_eq_none (by simp; omega), List.getElem?_eq_none (by omega)]
        constructor
        · rintro (h | ⟨p, h1, h2, h3⟩)
          · exact Or.inl h
          · exact Or.inr ⟨p, h1, by rw [this h1]; exact h2, h3⟩
        · rintro (h | ⟨p, h1, h2, h3⟩)
          · exact Or.inl h
          · exact Or.inr ⟨p, h1, by rw [← this h1]; exact h2, h3⟩
    · intro p; simp

theorem inS_iff {v : View α W} {a : Nat} {sl : List α} (h : v.slices[a]? = some sl) (x : α) : v.inS a x ↔ x ∈ sl := by
  unfold View.inS; simp [h]

theorem addAspects {v : View α W} {nls : List (List α)} {col : List α → Nat} {acm : Dict Nat Nat} {asp : List Nat}
    (hacm : ∀ a ∈ asp, ∃ c, Dict.get acm a = some c) (hasp : ∀ a ∈ asp, a < v.slices.length) {s : AuxState α}
    (hs : NodesDone nls col s) :
    ∃ s' aux, forE (v.auxAddAspect acm) asp s = .ok s' ∧
      AuxDone nls col (fun a => (Dict.get acm a).getD 0) aux s' ∧ s'.graph.edges = s.graph.edges ∧
      ∀ a x, (a, x) ∈ aux ↔ a ∈ asp ∧ v.inS a x := by
  have := forE_ok (f := v.auxAddAspect acm) (P := fun pre s' => ∃ aux,
      AuxDone nls col (fun a => (Dict.get acm a).getD 0) aux s' ∧ s'.graph.edges = s.graph.edges ∧
      ∀ a x, (a, x) ∈ aux ↔ a ∈ pre ∧ v.inS a x) asp (s := s)
    ⟨[], ⟨hs.nodemap, by simp, by rw [hs.aux]; rfl, by simp [hs.nodes]⟩, rfl, by simp⟩ ?_
  · obtain ⟨s', h1, aux, h2⟩ := this
    exact ⟨s', aux, h1, h2⟩
  · rintro pre a post s1 hl ⟨aux, h1, h2, h3⟩
    have ha : a ∈ asp := by rw [hl]; simp
    obtain ⟨c, hc⟩ := hacm a ha
    have hsl : v.slices[a]? = some (v.slices[a]'(hasp a ha)) := List.getElem?_eq_getElem (hasp a ha)
    have hx := inS_iff (v := v) hsl
    simp only [View.auxAddAspect, hsl]
    have := forE_ok (f := auxAddAux acm a) (P := fun q s' => ∃ aux',
      AuxDone nls col (fun a => (Dict.get acm a).getD 0) aux' s' ∧ s'.graph.edges = s1.graph.edges ∧
      ∀ p, p ∈ aux' ↔ p ∈ aux ∨ (p.1 = a ∧ p.2 ∈ q)) (v.slices[a]'(hasp a ha)) (s := s1)
      ⟨aux, h1, rfl, by simp⟩ (by
        rintro q x post' s2 hq ⟨aux', g1, g2, g3⟩
        obtain ⟨s3, aux3, e1, e2, e3, e4⟩ := addAux hc g1 x
        refine ⟨s3, e1, aux3, e2, by rw [e4, g2], fun p => ?_⟩
        rw [e3, g3]
        simp only [List.mem_append, List.mem_singleton, Prod.ext_iff]
        tauto)
    obtain ⟨s', e1, aux', e2, e3, e4⟩ := this
    refine ⟨s', e1, aux', e2, by rw [e3, h2], fun b x => ?_⟩
    rw [e4, h3]
    simp only [List.mem_append, List.mem_singleton]
    constructor
    · rintro (⟨hb, hx'⟩ | ⟨rfl, hx'⟩)
      · exact ⟨Or.inl hb, hx'⟩
      · exact ⟨Or.inr rfl, (hx x).2 hx'⟩
    · rintro ⟨hb | rfl, hx'⟩
      · exact Or.inl ⟨hb, hx'⟩
      · exact Or.inr ⟨rfl, (hx x).1 hx'⟩

theorem AuxDone.mem_keys {nls : List (List α)} {col : List α → Nat} {acol : Nat → Nat} {aux : List (Nat × α)} {s : AuxState α}
    (h : AuxDone nls col acol aux s) :
    (∀ u ∈ nls, nls.idxOf u ∈ Dict.keys s.graph.nodes) ∧
    (∀ p ∈ aux, nls.length + aux.idxOf p ∈ Dict.keys s.graph.nodes) := by
  constructor
  · intro u hu
    rw [Dict.mem_keys, Option.isSome_iff_exists]
    exact ⟨_, (h.nodes _ _).2 (Or.inl ⟨u, by
      rw [List.getElem?_eq_getElem (List.idxOf_lt_length_iff.2 hu), List.getElem_idxOf], rfl⟩)⟩
  · intro p hp
    rw [Dict.mem_keys, Option.isSome_iff_exists]
    exact ⟨_, (h.nodes _ _).2 (Or.inr ⟨p, by omega, by
      rw [Nat.add_sub_cancel_left, List.getElem?_eq_getElem (List.idxOf_lt_length_iff.2 hp), List.getElem_idxOf], rfl⟩)⟩

theorem addAuxEdges {v : View α W} {nls : List (List α)} {col : List α → Nat} {acol : Nat → Nat} {asp : List Nat}
    {aux : List (Nat × α)} (haux : ∀ a x, (a, x) ∈ aux ↔ a ∈ asp ∧ v.inS a x)
    (hnl : ∀ u ∈ nls, ∀ a ∈ asp, ∃ x, u[a]? = some x ∧ v.inS a x) {s : AuxState α} (hs : AuxDone nls col acol aux s) :
    ∃ s', forE (fun s nl => forE (auxAddAuxEdge nl) asp s) nls s = .ok s' ∧ AuxDone nls col acol aux s' ∧
      ∀ i j, (i, j) ∈ s'.graph.edges ↔ (i, j) ∈ s.graph.edges ∨
        ∃ u ∈ nls, ∃ p ∈ aux, u[p.1]? = some p.2 ∧ i = nls.idxOf u ∧ j = nls.length + aux.idxOf p := by
  refine (forE_ok (P := fun pre s' => AuxDone nls col acol aux s' ∧
      ∀ i j, (i, j) ∈ s'.graph.edges ↔ (i, j) ∈ s.graph.edges ∨
        ∃ u ∈ pre, ∃ p ∈ aux, u[p.1]? = some p.2 ∧ i = nls.idxOf u ∧ j = nls.length + aux.idxOf p) nls
    ⟨hs, by simp⟩ ?_)
  rintro pre u post s1 hl ⟨h1, h2⟩
  have hu : u ∈ nls := by rw [hl]; simp
  obtain ⟨s', e1, e2, e3⟩ := forE_ok (f := auxAddAuxEdge u) (P := fun q s' => AuxDone nls col acol aux s' ∧
      ∀ i j, (i, j) ∈ s'.graph.edges ↔ (i, j) ∈ s1.graph.edges ∨
        ∃ p ∈ aux, p.1 ∈ q ∧ u[p.1]? = some p.2 ∧ i = nls.idxOf u ∧ j = nls.length + aux.idxOf p) asp (s := s1)
    ⟨h1, by simp⟩ (by
      rintro q a post' s2 hq ⟨g1, g2⟩
      have ha : a ∈ asp := by rw [hq]; simp
      obtain ⟨x, hx, hxs⟩ := hnl u hu a ha
      have hp : (a, x) ∈ aux := (haux a x).2 ⟨ha, hxs⟩
      have k1 := g1.mem_keys.1 u hu
      have k2 := g1.mem_keys.2 _ hp
      have hid : s2.auxId (a, x) = (s2, nls.length + aux.idxOf (a, x)) := by
        unfold AuxState.auxId
        simp only [g1.auxmap, get_zipIdx, if_pos hp]
      have hadd : auxAddAuxEdge u s2 a = .ok { s2 with graph := ⟨s2.graph.nodes,
          s2.graph.edges ++ [(nls.idxOf u, nls.length + aux.idxOf (a, x))]⟩ } := by
        unfold auxAddAuxEdge
        rw [nodeId_known g1.nodemap hu]
        simp only [hx, hid, CGraph.addLink]
        rw [touch_of_has k1, touch_of_has k2]
      refine ⟨_, hadd, ⟨g1.nodemap, g1.nodup, g1.auxmap, g1.nodes⟩, fun i j => ?_⟩
      simp only [List.mem_append, List.mem_singleton, Prod.mk.injEq, g2]
      constructor
      · rintro ((h | ⟨p, hp, hq, h⟩) | ⟨rfl, rfl⟩)
        · exact Or.inl h
        · exact Or.inr ⟨p, hp, Or.inl hq, h⟩
        · exact Or.inr ⟨(a, x), hp, Or.inr rfl, hx, rfl, rfl⟩
      · rintro (h | ⟨p, hp', hq | hq, h3, h4, h5⟩)
        · exact Or.inl (Or.inl h)
        · exact Or.inl (Or.inr ⟨p, hp', hq, h3, h4, h5⟩)
        · obtain ⟨p1, p2⟩ := p
          simp only at hq; subst hq
          simp only [hx, Option.some.injEq] at h3
          subst h3
          exact Or.inr ⟨h4, h5⟩)
  refine ⟨s', e1, e2, fun i j => ?_⟩
  rw [e3, h2]
  constructor
  · rintro ((h | ⟨w, hw, h⟩) | ⟨p, hp, -, h⟩)
    · exact Or.inl h
    · exact Or.inr ⟨w, by simp [hw], h⟩
    · exact Or.inr ⟨u, by simp, p, hp, h⟩
  · rintro (h | ⟨w, hw, p, hp, h⟩)
    · exact Or.inl (Or.inl h)
    · rcases List.mem_append.1 hw with hw | hw
      · exact Or.inl (Or.inr ⟨w, hw, p, hp, h⟩)
      · simp only [List.mem_singleton] at hw
        subst hw
        exact Or.inr ⟨p, hp, ((haux p.1 p.2).1 hp).1, h⟩

theorem buildAux_spec [LinearOrder α] {v : View α W} {R : List α → List α → W} (hv : v.Sound R) (hd : v.directed = false)
    (ha : 1 ≤ v.aspects) {nls : List (List α)} (hn : v.nodeLayers = .ok nls) {asp : List Nat} (hasp : ∀ a ∈ asp, a ≤ v.aspects)
    (nasp : List Nat) :
    ∃ s aux, v.buildAux asp nasp nls = .ok s ∧ aux.Nodup ∧ s.auxnodemap = aux.zipIdx nls.length ∧
      (∀ a x, (a, x) ∈ aux ↔ a ∈ asp ∧ v.inS a x) ∧
      Coded s.graph nls aux (fun u w => R u w ≠ v.noEdge)
        (fun u => (Dict.get (colorMap nasp nls) (pick nasp u)).getD 0)
        (fun a => (Dict.get (enumDict asp (colorMap nasp nls).length) a).getD 0)
        (fun u => nls.idxOf u) (fun p => nls.length + aux.idxOf p) := by
  obtain ⟨l, n1, n2, n3, n4⟩ := hv.nls
  rw [hn] at n1; cases n1
  have hcm : ∀ u ∈ nls, ∃ c, Dict.get (colorMap nasp nls) (pick nasp u) = some c := by
    intro u hu
    refine (enumDict_get _ _).2 _ ?_
    rw [(pySorted_perm _).mem_iff, List.mem_dedup]
    exact List.mem_map_of_mem hu
  obtain ⟨s1, a1, a2, a3⟩ := addNodes n2 hcm
  obtain ⟨s2, b1, b2, b3⟩ := addEdges hv ha hn a2 a3
  obtain ⟨s3, aux, c1, c2, c3, c4⟩ := addAspects (v := v) (acm := enumDict asp (colorMap nasp nls).length)
    (fun a ha => (enumDict_get _ _).2 a ha) (fun a ha => by have := hasp a ha; rw [hv.slen]; omega) b2
  obtain ⟨s4, d1, d2, d3⟩ := addAuxEdges c4 (by
    intro u hu a ha
    have hlen := hv.length_of_mem (n3 u hu)
    have hlt : a < u.length := by have := hasp a ha; omega
    refine ⟨u[a], List.getElem?_eq_getElem hlt, ?_⟩
    have hm := n3 u hu
    rw [Py.mem_product] at hm
    have hsl : v.slices[a]? = some (v.slices[a]'(by rw [hv.slen]; omega)) :=
      List.getElem?_eq_getElem (by rw [hv.slen]; omega)
    rw [inS_iff hsl]
    exact List.Forall₂.get hm hlt (by rw [hv.slen]; omega)) c2
  refine ⟨s4, aux, ?_, d2.nodup, d2.auxmap, c4, ?_⟩
  · simp only [View.buildAux, a1, b1, c1, d1]
  · have hlt : ∀ u ∈ nls, nls.idxOf u < nls.length := fun u hu => List.idxOf_lt_length_iff.2 hu
    have hidx : ∀ u ∈ nls, ∀ w ∈ nls, nls.idxOf u = nls.idxOf w → u = w := fun u hu w _ h => (List.idxOf_inj hu).1 h
    have haidx : ∀ p ∈ aux, ∀ q ∈ aux, aux.idxOf p = aux.idxOf q → p = q := fun p hp q _ h => (List.idxOf_inj hp).1 h
    have hsym : ∀ u ∈ nls, ∀ w ∈ nls, R u w = R w u := fun u hu w hw => hv.sym hd u (n3 u hu) w (n3 w hw)
    have hedge : ∀ i j, (i, j) ∈ s4.graph.edges ↔
        (∃ u ∈ nls, ∃ w ∈ nls, i = nls.idxOf u ∧ j = nls.idxOf w ∧ R u w ≠ v.noEdge) ∨
        ∃ u ∈ nls, ∃ p ∈ aux, u[p.1]? = some p.2 ∧ i = nls.idxOf u ∧ j = nls.length + aux.idxOf p := by
      intro i j
      rw [d3, c3, b3]
      refine or_congr_left ⟨?_, ?_⟩
      · rintro ⟨u, hu, w, hw, h1, h2, h3⟩
        exact ⟨u, hu, w, hw, h1, h2, h3.elim (fun h => h) (fun h => by rw [hsym u hu w hw]; exact h)⟩
      · rintro ⟨u, hu, w, hw, h1, h2, h3⟩
        exact ⟨u, hu, w, hw, h1, h2, Or.inl h3⟩
    refine ⟨hidx, ?_, ?_, ?_, ?_, ?_, ?_, ?_, ?_⟩
    · intro p hp q hq h
      exact haidx p hp q hq (by simpa using h)
    · intro u hu p _ h
      have := hlt u hu
      omega
    · intro i
      rw [Dict.mem_keys, Option.isSome_iff_exists]
      constructor
      · rintro ⟨c, hc⟩
        rcases (d2.nodes i c).1 hc with ⟨u, h1, -⟩ | ⟨p, h1, h2, -⟩
        · obtain ⟨hu, rfl⟩ := (getElem?_iff_idxOf n2 i u).1 h1
          exact Or.inl ⟨u, hu, rfl⟩
        · obtain ⟨hp, hi⟩ := (getElem?_iff_idxOf d2.nodup _ p).1 h2
          exact Or.inr ⟨p, hp, by omega⟩
      · rintro (⟨u, hu, rfl⟩ | ⟨p, hp, rfl⟩)
        · exact Option.isSome_iff_exists.1 (Dict.mem_keys.1 (d2.mem_keys.1 u hu))
        · exact Option.isSome_iff_exists.1 (Dict.mem_keys.1 (d2.mem_keys.2 p hp))
    · intro u hu
      exact (d2.nodes _ _).2 (Or.inl ⟨u, (getElem?_iff_idxOf n2 _ u).2 ⟨hu, rfl⟩, rfl⟩)
    · intro p hp
      exact (d2.nodes _ _).2 (Or.inr ⟨p, by omega, by
        rw [Nat.add_sub_cancel_left]; exact (getElem?_iff_idxOf d2.nodup _ p).2 ⟨hp, rfl⟩, rfl⟩)
    · intro u hu w hw
      unfold Spec.Adj
      rw [hedge, hedge]
      constructor
      · rintro ((⟨u', hu', w', hw', h1, h2, h3⟩ | ⟨u', hu', p, hp, h1, h2, h3⟩) |
          (⟨u', hu', w', hw', h1, h2, h3⟩ | ⟨u', hu', p, hp, h1, h2, h3⟩))
        · rw [hidx u hu u' hu' h1, hidx w hw w' hw' h2]; exact h3
        · have := hlt w hw; omega
        · rw [hidx u hu w' hw' h2, hidx w hw u' hu' h1, hsym w' hw' u' hu']; exact h3
        · have := hlt u hu; omega
      · intro h
        exact Or.inl (Or.inl ⟨u, hu, w, hw, rfl, rfl, h⟩)
    · intro u hu p hp
      unfold Spec.Adj
      rw [hedge, hedge]
      constructor
      · rintro ((⟨u', hu', w', hw', h1, h2, h3⟩ | ⟨u', hu', q, hq, h1, h2, h3⟩) |
          (⟨u', hu', w', hw', h1, h2, h3⟩ | ⟨u', hu', q, hq, h1, h2, h3⟩))
        · have := hlt w' hw'; omega
        · rw [hidx u hu u' hu' h2, haidx p hp q hq (by omega)]; exact h1
        · have := hlt u' hu'; omega
        · have := hlt u hu; omega
      · intro h
        exact Or.inl (Or.inr ⟨u, hu, p, hp, h, rfl, rfl⟩)
    · intro p hp q hq
      unfold Spec.Adj
      rw [hedge, hedge]
      rintro ((⟨u', hu', w', hw', h1, h2, h3⟩ | ⟨u', hu', q', hq', h1, h2, h3⟩) |
          (⟨u', hu', w', hw', h1, h2, h3⟩ | ⟨u', hu', q', hq', h1, h2, h3⟩))
      all_goals have := hlt u' hu'; omega

end Pymnet
