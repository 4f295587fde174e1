import Verif.Props.Plex2
import Mathlib.Tactic.Abel

/-!
Properties C49–C52 of multiplex networks: self-links, edge iteration, equality, total strength.
-/

set_option linter.unusedSectionVars false
set_option linter.unusedSimpArgs false
set_option linter.unnecessarySimpa false

namespace Pymnet

open Py MPlex

variable {α W : Type} [DecidableEq α] [DecidableEq W]

/-- Internal: a multiplex network in the cases of C20, C21, C22 supports the shared edge iteration code. -/
theorem main_sound [Zero W] [LawfulIntNames α] {cs : List (Coupling α W)} {directed aligned : Bool} {ops : List (POp α W)}
    (hU : Spec.Usable cs aligned ops) (hs : Spec.NoIntraSelf ops) (hal : aligned = true ∨ ∃ w, cs = [.categorical w]) :
    (afterP cs directed 0 aligned ops).view.Sound (afterP cs directed 0 aligned ops).R := by
  have hcs := hU.some_aspect
  obtain ⟨G, hdeg⟩ := after_good hcs directed aligned ops hU hs hal
  refine sound (after_pinv hcs directed 0 aligned ops).core G ?_
  intro nls hn u hu a ha l hl dir
  obtain ⟨l', h1, -, h3⟩ := after_nodeLayers hcs directed 0 aligned ops
  rw [hn] at h1; cases h1
  exact hdeg u ((h3 u).1 hu) a ha l hl dir

theorem main_R [Zero W] [LawfulIntNames α] {cs : List (Coupling α W)} {directed aligned : Bool} {ops : List (POp α W)}
    (hU : Spec.Usable cs aligned ops) {u v : List α} (hu : Spec.HasNodeLayer cs.length aligned ops u)
    (hv : Spec.HasNodeLayer cs.length aligned ops v) :
    (afterP cs directed 0 aligned ops).R u v = Spec.weight cs directed aligned ops u v := by
  rw [R_eq, (after_weight hU.some_aspect directed aligned ops hU hu hv).1, okD_ok]

/-- Internal: the edges of a multiplex network. -/
theorem main_edges [Zero W] [LawfulIntNames α] {cs : List (Coupling α W)} {directed aligned : Bool} {ops : List (POp α W)}
    (hU : Spec.Usable cs aligned ops) (hs : Spec.NoIntraSelf ops) (hal : aligned = true ∨ ∃ w, cs = [.categorical w]) :
    ∃ es, (afterP cs directed 0 aligned ops).view.edges = .ok es ∧
      (afterP cs directed 0 aligned ops).view.edgesLen = .ok (es.length : Int) ∧
      (∀ l w, (l, w) ∈ es → ∃ u v, Spec.HasNodeLayer cs.length aligned ops u ∧ Spec.HasNodeLayer cs.length aligned ops v ∧
        l = Spec.link u v ∧ Spec.LinkWeight cs directed aligned ops u v w) ∧
      ∀ u v, Spec.HasNodeLayer cs.length aligned ops u → Spec.HasNodeLayer cs.length aligned ops v →
        Spec.Linked cs directed aligned ops u v →
        es.countP (fun e => e.1 = Spec.link u v ∨ (directed = false ∧ e.1 = Spec.link v u)) = 1 := by
  have hcs := hU.some_aspect
  have hpar := after_params hcs directed 0 aligned ops
  have hS := main_sound (directed := directed) hU hs hal
  obtain ⟨es, e1, e2⟩ := hS.edgesLen
  obtain ⟨ps, h1, h2, h3, h4, h5⟩ := hS.edges
  have hasp : (afterP cs directed 0 aligned ops).view.aspects = cs.length := hpar.1
  have hnE : (afterP cs directed 0 aligned ops).view.noEdge = 0 := hpar.2.2.1
  have hdir : (afterP cs directed 0 aligned ops).view.directed = directed := hpar.2.1
  have hsl : (afterP cs directed 0 aligned ops).view.slices = (afterP cs directed 0 aligned ops).slices := rfl
  rw [e1] at h1; cases h1
  refine ⟨_, e1, e2, ?_, ?_⟩
  · intro l w hm
    simp only [List.mem_map, View.tuple, Prod.mk.injEq, Prod.exists] at hm
    obtain ⟨a, b, hp, rfl, rfl⟩ := hm
    obtain ⟨k1, k2, k3⟩ := h3 _ hp
    rw [hnE] at k3
    obtain ⟨ha, hb⟩ := after_closed hcs directed aligned ops hs k1 k2 k3
    refine ⟨a, b, ha, hb, interleave_eq_link a b, ?_⟩
    simp only [main_R hU ha hb] at k3 ⊢
    obtain ⟨w, hw⟩ := (after_weight hcs directed aligned ops hU ha hb).2.1 k3
    rwa [main_weight hU ha hb hw]
  · intro a b ha hb hl
    have pa := (reg_cases hcs directed 0 aligned ops ha).1
    have pb := (reg_cases hcs directed 0 aligned ops hb).1
    have hR : (afterP cs directed 0 aligned ops).R a b ≠ (afterP cs directed 0 aligned ops).view.noEdge := by
      rw [hnE, main_R hU ha hb]; exact (after_weight hcs directed aligned ops hU ha hb).2.2 hl
    have hla := hS.length_of_mem pa
    have hlb := hS.length_of_mem pb
    rw [List.countP_map, List.countP_eq_length_filter]
    have hpred : ∀ p ∈ ps, (((fun e : List α × W => decide (e.1 = Spec.link a b ∨ (directed = false ∧ e.1 = Spec.link b a))) ∘
        View.tuple (afterP cs directed 0 aligned ops).R) p = true ↔ p = (a, b) ∨ (directed = false ∧ p = (b, a))) := by
      rintro ⟨c, d⟩ hp
      have hc := hS.length_of_mem (h3 _ hp).1
      have hd := hS.length_of_mem (h3 _ hp).2.1
      simp only at hc hd
      rw [Function.comp, decide_eq_true_iff, Prod.mk.injEq, Prod.mk.injEq, ← interleave_eq_link,
        ← interleave_eq_link]
      change interleave c d = _ ∨ (_ ∧ interleave c d = _) ↔ _
      refine or_congr ?_ (and_congr_right fun _ => ?_)
      · constructor
        · intro e; exact interleave_inj (by omega) (by omega) e
        · rintro ⟨rfl, rfl⟩; rfl
      · constructor
        · intro e; exact interleave_inj (by omega) (by omega) e
        · rintro ⟨rfl, rfl⟩; rfl
    rw [List.filter_congr (q := fun p => decide (p = (a, b) ∨ (directed = false ∧ p = (b, a))))
      (fun p hp => by rw [Bool.eq_iff_iff, hpred p hp]; simp)]
    have one : ∀ q, q ∈ ps → (∀ p ∈ ps, (p = (a, b) ∨ (directed = false ∧ p = (b, a))) → p = q) →
        (q = (a, b) ∨ (directed = false ∧ q = (b, a))) →
        (ps.filter fun p => decide (p = (a, b) ∨ (directed = false ∧ p = (b, a)))).length = 1 := by
      intro q hq huniq hq'
      have hperm : (ps.filter fun p => decide (p = (a, b) ∨ (directed = false ∧ p = (b, a)))).Perm [q] := by
        rw [List.perm_ext_iff_of_nodup (h2.filter _) (by simp)]
        intro p
        simp only [List.mem_filter, decide_eq_true_eq, List.mem_singleton]
        constructor
        · rintro ⟨hp, h⟩; exact huniq p hp h
        · rintro rfl; exact ⟨hq, hq'⟩
      rw [hperm.length_eq]; rfl
    cases hd : directed with
    | true =>
      subst hd
      have := h4 hdir a pa b pb hR
      simpa using one (a, b) this (fun p _ h => by simpa using h) (Or.inl rfl)
    | false =>
      subst hd
      obtain ⟨h5, h6⟩ := h5 hdir
      have hmem := h5 a pa b pb hR
      by_cases hab : a = b
      · subst hab
        have : (a, a) ∈ ps := by tauto
        exact one (a, a) this (fun p _ h => by tauto) (Or.inl rfl)
      · rcases hmem with h | h
        · refine one (a, b) h ?_ (Or.inl rfl)
          rintro p hp (rfl | ⟨-, rfl⟩)
          · rfl
          · exact absurd hp (h6 a b hab h)
        · refine one (b, a) h ?_ (Or.inr ⟨rfl, rfl⟩)
          rintro p hp (rfl | ⟨-, rfl⟩)
          · exact absurd hp (h6 b a (fun e => hab e.symm) h)
          · rfl

/-! ### C49 -/

/-- no layer is coupled to itself -/
theorem not_linked_self [Zero W] [IntNames α] {cs : List (Coupling α W)} {directed aligned : Bool} {ops : List (POp α W)}
    (u : List α) : ¬ Spec.Linked cs directed aligned ops u u := by
  rintro ⟨w, ⟨i, j, s, e1, e2, hij, -⟩ | ⟨i, s, t, e1, e2, d, x, y, hx, hxy, ht, -⟩⟩
  · rw [e1] at e2; cases e2; exact hij rfl
  · rw [e1] at e2
    obtain ⟨-, rfl⟩ := List.cons.inj e2
    have hlt : d < s.length := by
      rcases Nat.lt_or_ge d s.length with h | h
      · exact h
      · rw [List.getElem?_eq_none h] at hx; cases hx
    have := congrArg (fun l => l[d]?) ht
    simp only [List.getElem?_set, hlt, if_true, hx] at this
    exact hxy (by simpa using this)

/-- **C49, partial.** In a multiplex network to which no self-link was written through an intra-layer network, no
node-layer is its own neighbour. Missing: histories with such writes (see `C49_false`). -/
theorem C49_no_self_neighbour_partial [Zero W] [LawfulIntNames α] {cs : List (Coupling α W)} {directed aligned : Bool}
    {ops : List (POp α W)} (hU : Spec.Usable cs aligned ops) (hs : Spec.NoIntraSelf ops)
    (hal : aligned = true ∨ ∃ w, cs = [.categorical w]) {u : List α} (hu : Spec.HasNodeLayer cs.length aligned ops u) :
    ∃ l, (afterP cs directed 0 aligned ops).view.iterOut u none = .ok l ∧ u ∉ l := by
  obtain ⟨l, h1, -, h3⟩ := main_out (directed := directed) hU hs hal hu
  exact ⟨l, h1, fun h => not_linked_self u ((h3 u).1 h).2⟩

/-- **C49 is false of the code**: a self-link written through `net.A[10]` is iterated as a neighbour of the node-layer,
and counted, but reads `noEdge` through the network. -/
theorem C49_false :
    let p := afterP [.categorical (1 : Int)] false 0 true [.setItem [(1 : Int), 2, 10] 5, .intraSet (.el 10) 1 1 7]
    p.view.iterOut [1, 10] none = .ok [[2, 10], [1, 10]] ∧ p.view.degOut [1, 10] none = .ok 2 ∧
    p.view.readItem [1, 1, 10] = .ok (.weight 0) := by decide

example : Spec.NoIntraSelf samplePlex := samplePlex_noSelf

/-! ### C50 -/

/-- **C50.** Node-aligned network: everything `net.edges` yields is an existing link with its weight, every existing
link, intra- or inter-layer, is yielded exactly once (in one of the two orientations if undirected), and `len` agrees. -/
theorem C50_edges_aligned [Zero W] [LawfulIntNames α] {cs : List (Coupling α W)} (directed : Bool) {ops : List (POp α W)}
    (hU : Spec.Usable cs true ops) (hs : Spec.NoIntraSelf ops) :
    ∃ es, (afterP cs directed 0 true ops).view.edges = .ok es ∧
      (afterP cs directed 0 true ops).view.edgesLen = .ok (es.length : Int) ∧
      (∀ l w, (l, w) ∈ es → ∃ u v, Spec.HasNodeLayer cs.length true ops u ∧ Spec.HasNodeLayer cs.length true ops v ∧
        l = Spec.link u v ∧ Spec.LinkWeight cs directed true ops u v w) ∧
      ∀ u v, Spec.HasNodeLayer cs.length true ops u → Spec.HasNodeLayer cs.length true ops v →
        Spec.Linked cs directed true ops u v →
        es.countP (fun e => e.1 = Spec.link u v ∨ (directed = false ∧ e.1 = Spec.link v u)) = 1 :=
  main_edges hU hs (Or.inl rfl)

/-- **C50**, network that is not node-aligned, one aspect with categorical coupling. -/
theorem C50_edges_nonaligned [Zero W] [LawfulIntNames α] {w : W} (hw : w ≠ 0) (directed : Bool) {ops : List (POp α W)}
    (hs : Spec.NoIntraSelf ops) :
    ∃ es, (afterP [.categorical w] directed 0 false ops).view.edges = .ok es ∧
      (afterP [.categorical w] directed 0 false ops).view.edgesLen = .ok (es.length : Int) ∧
      (∀ l x, (l, x) ∈ es → ∃ u v, Spec.HasNodeLayer 1 false ops u ∧ Spec.HasNodeLayer 1 false ops v ∧
        l = Spec.link u v ∧ Spec.LinkWeight [.categorical w] directed false ops u v x) ∧
      ∀ u v, Spec.HasNodeLayer 1 false ops u → Spec.HasNodeLayer 1 false ops v →
        Spec.Linked [.categorical w] directed false ops u v →
        es.countP (fun e => e.1 = Spec.link u v ∨ (directed = false ∧ e.1 = Spec.link v u)) = 1 :=
  main_edges (cs := [.categorical w]) (usable_categorical (by simp) (by
    intro c hc; simp at hc; subst hc; exact ⟨w, hw, rfl⟩)) hs (Or.inr ⟨w, rfl⟩)

example : (afterP [.categorical (1 : Int)] false 0 false samplePlex).view.edges =
    .ok [([1, 2, 10, 10], 6), ([1, 1, 10, 11], 1), ([1, 2, 11, 11], 7), ([2, 2, 10, 11], 1), ([2, 3, 11, 11], 4)] := by
  decide
example : (afterP [.ordinal (1 : Int)] false 0 true samplePlex).view.edgesLen = .ok 7 := by decide

/-! ### C51 -/

/-- Couplings other than a network of layers. -/
def Spec.NotNet (c : Coupling α W) : Prop := ∀ m, c ≠ .net m

/-- Two histories leave the same content: the same nodes, elementary layers, node-layers and link values. -/
structure Spec.SameContentP [Zero W] (aspects : Nat) (directed aligned : Bool) (ops₁ ops₂ : List (POp α W)) : Prop where
  nodes : ∀ n, Spec.Happened (Spec.NamesNodeP aspects aligned n) ops₁ ↔ Spec.Happened (Spec.NamesNodeP aspects aligned n) ops₂
  layers : ∀ a x, 1 ≤ a → ((∃ op ∈ ops₁, Spec.NamesLayerP aspects aligned a x op) ↔
    ∃ op ∈ ops₂, Spec.NamesLayerP aspects aligned a x op)
  nodeLayers : ∀ u, Spec.HasNodeLayer aspects aligned ops₁ u ↔ Spec.HasNodeLayer aspects aligned ops₂ u
  links : ∀ s i j, Spec.HasLayer aspects aligned ops₁ (.ofList s) →
    Spec.readP aspects directed aligned ops₁ s i j = Spec.readP aspects directed aligned ops₂ s i j

theorem couplingsEq_notNet {a b : List (Coupling α W)} (ha : ∀ c ∈ a, Spec.NotNet c) (hb : ∀ c ∈ b, Spec.NotNet c) :
    ∃ r, couplingsEq a b = .ok r ∧ (r = true ↔ a = b) := by
  induction a generalizing b with
  | nil => cases b <;> exact ⟨_, rfl, by simp⟩
  | cons x a ih =>
    cases b with
    | nil => exact ⟨_, rfl, by simp⟩
    | cons y b =>
      have key : ∃ r, couplingEq x y = .ok r ∧ (r = true ↔ x = y) := by
        have hx := ha x (by simp)
        have hy := hb y (by simp)
        cases x <;> cases y <;> first
          | exact ⟨_, rfl, by simp⟩
          | exact absurd rfl (hx _)
      obtain ⟨r, h1, h2⟩ := key
      obtain ⟨q, h3, h4⟩ := ih (b := b) (fun c hc => ha c (by simp [hc])) (fun c hc => hb c (by simp [hc]))
      cases r with
      | false =>
        have : x ≠ y := fun h => by simpa using h2.2 h
        exact ⟨false, by simp [couplingsEq, h1], by simp [this]⟩
      | true => exact ⟨q, by simp only [couplingsEq, h1, h3], by rw [h4]; simp [h2.1 rfl]⟩

theorem eqLayers_spec {p q : MPlex α W} (P : LKey α → Prop) (Ls : List (LKey α))
    (h : ∀ L ∈ Ls, ∃ c d b, p.child? L = some c ∧ q.child? L = some d ∧ c.eq d = .ok b ∧ (b = true ↔ P L)) :
    ∃ b, eqLayers p q Ls = .ok b ∧ (b = true ↔ ∀ L ∈ Ls, P L) := by
  induction Ls with
  | nil => exact ⟨true, rfl, by simp⟩
  | cons L Ls ih =>
    obtain ⟨c, d, b, h1, h2, h3, h4⟩ := h L (by simp)
    obtain ⟨b', h5, h6⟩ := ih (fun L hL => h L (by simp [hL]))
    cases b with
    | false =>
      have : ¬ P L := fun h => by simpa using h4.2 h
      exact ⟨false, by simp [eqLayers, h1, h2, h3], by simp [this]⟩
    | true => exact ⟨b', by simp only [eqLayers, h1, h2, h3, h5], by rw [h6]; simp [h4.1 rfl]⟩

/-- links from values -/
theorem lk_eq_of_reads {m o : MNet α W} (hm : m.LInv) (ho : o.LInv) (hn : m.noEdge = o.noEdge) {a b : List α} :
    m.lk a b = o.lk a b ↔ m.reads a b = o.reads a b := by
  have h1 := hm.val a b
  have h2 := ho.val a b
  unfold MNet.reads
  constructor
  · intro h; rw [h, hn]
  · intro h
    cases e1 : m.lk a b with
    | none =>
      cases e2 : o.lk a b with
      | none => rfl
      | some x => rw [e1, e2] at h; exact absurd (by simpa [hn] using h.symm) (h2 x e2)
    | some y =>
      cases e2 : o.lk a b with
      | none => rw [e1, e2] at h; exact absurd (by simpa [hn] using h) (h1 y e1)
      | some x => rw [e1, e2] at h; simpa using h

/-- **C51.** `==` of two multiplex networks whose couplings are not given as networks never raises, and is true exactly
when couplings, directedness, `noEdge`, alignment and content are the same. -/
theorem C51_eq [Zero W] {cs₁ cs₂ : List (Coupling α W)} (h₁ : cs₁ ≠ []) (h₂ : cs₂ ≠ [])
    (hn₁ : ∀ c ∈ cs₁, Spec.NotNet c) (hn₂ : ∀ c ∈ cs₂, Spec.NotNet c) (d₁ d₂ : Bool) (n₁ n₂ : W) (al₁ al₂ : Bool)
    (ops₁ ops₂ : List (POp α W)) :
    ∃ b, (afterP cs₁ d₁ n₁ al₁ ops₁).eq (afterP cs₂ d₂ n₂ al₂ ops₂) = .ok b ∧
      (b = true ↔ cs₁ = cs₂ ∧ d₁ = d₂ ∧ n₁ = n₂ ∧ al₁ = al₂ ∧ Spec.SameContentP cs₁.length d₁ al₁ ops₁ ops₂) := by
  have hp := after_pinv h₁ d₁ n₁ al₁ ops₁
  have hq := after_pinv h₂ d₂ n₂ al₂ ops₂
  obtain ⟨p1, p2, p3, p4, p5⟩ := after_params h₁ d₁ n₁ al₁ ops₁
  obtain ⟨q1, q2, q3, q4, q5⟩ := after_params h₂ d₂ n₂ al₂ ops₂
  unfold MPlex.eq
  rw [p1, p2, p3, p4, p5, q1, q2, q3, q4, q5]
  by_cases hpar : d₁ = d₂ ∧ cs₁.length = cs₂.length ∧ al₁ = al₂ ∧ n₁ = n₂
  swap
  · rw [if_neg (by tauto)]
    refine ⟨false, rfl, by simp only [Bool.false_eq_true, false_iff]; rintro ⟨rfl, rfl, rfl, rfl, -⟩; tauto⟩
  obtain ⟨rfl, hlen, rfl, rfl⟩ := hpar
  obtain ⟨s0, s1, s2, s3, s4⟩ := after_spec h₁ d₁ n₁ al₁ ops₁
  obtain ⟨t0, t1, t2, t3, t4⟩ := after_spec h₂ d₁ n₁ al₁ ops₂
  have hsl : slicesEq (afterP cs₁ d₁ n₁ al₁ ops₁).slices (afterP cs₂ d₁ n₁ al₁ ops₂).slices = true ↔
      (∀ n, Spec.Happened (Spec.NamesNodeP cs₁.length al₁ n) ops₁ ↔ Spec.Happened (Spec.NamesNodeP cs₁.length al₁ n) ops₂) ∧
      ∀ a x, 1 ≤ a → ((∃ op ∈ ops₁, Spec.NamesLayerP cs₁.length al₁ a x op) ↔
        ∃ op ∈ ops₂, Spec.NamesLayerP cs₁.length al₁ a x op) := by
    rw [slicesEq_iff]
    have hl : (afterP cs₁ d₁ n₁ al₁ ops₁).slices.length = (afterP cs₂ d₁ n₁ al₁ ops₂).slices.length := by
      rw [hp.core.slen, hq.core.slen, p1, q1, hlen]
    have hall : (∀ (i : Nat) a b, (afterP cs₁ d₁ n₁ al₁ ops₁).slices[i]? = some a →
          (afterP cs₂ d₁ n₁ al₁ ops₂).slices[i]? = some b → ∀ x, x ∈ a ↔ x ∈ b) ↔
        ∀ i x, (afterP cs₁ d₁ n₁ al₁ ops₁).inSlice i x ↔ (afterP cs₂ d₁ n₁ al₁ ops₂).inSlice i x := by
      constructor
      · intro h i x
        constructor
        · rintro ⟨s, hs, hx⟩
          have hi : i < (afterP cs₂ d₁ n₁ al₁ ops₂).slices.length := by
            rw [← hl]; exact (List.getElem?_eq_some_iff.1 hs).1
          exact ⟨_, List.getElem?_eq_getElem hi, (h i s _ hs (List.getElem?_eq_getElem hi) x).1 hx⟩
        · rintro ⟨s, hs, hx⟩
          have hi : i < (afterP cs₁ d₁ n₁ al₁ ops₁).slices.length := by
            rw [hl]; exact (List.getElem?_eq_some_iff.1 hs).1
          exact ⟨_, List.getElem?_eq_getElem hi, (h i _ s (List.getElem?_eq_getElem hi) hs x).2 hx⟩
      · intro h i a b ha hb x
        rw [← inSlice_getElem? ha, ← inSlice_getElem? hb, h]
    rw [hall]
    constructor
    · rintro ⟨-, h⟩
      refine ⟨fun n => ?_, fun a x ha => ?_⟩
      · rw [← s0 n, h 0 n, t0 n, hlen]
      · rw [← s1 a x ha, h a x, t1 a x ha, hlen]
    · rintro ⟨ha, hb⟩
      refine ⟨hl, fun i x => ?_⟩
      rcases Nat.eq_zero_or_pos i with rfl | hi
      · rw [s0, t0, ← hlen]; exact ha x
      · rw [s1 i x hi, t1 i x hi, ← hlen]; exact hb i x hi
  by_cases hS : slicesEq (afterP cs₁ d₁ n₁ al₁ ops₁).slices (afterP cs₂ d₁ n₁ al₁ ops₂).slices = true
  swap
  · rw [if_neg (by tauto)]
    refine ⟨false, rfl, ?_⟩
    simp only [Bool.false_eq_true, false_iff]
    rintro ⟨rfl, -, -, -, hc⟩
    exact hS (hsl.2 ⟨hc.nodes, hc.layers⟩)
  rw [if_pos ⟨rfl, hlen, rfl, rfl, hS⟩]
  obtain ⟨r, c1, c2⟩ := couplingsEq_notNet hn₁ hn₂
  rw [c1]
  cases r with
  | false =>
    refine ⟨false, rfl, ?_⟩
    simp only [Bool.false_eq_true, false_iff]
    rintro ⟨h, -⟩
    exact absurd (c2.2 h) (by simp)
  | true =>
    have := c2.1 rfl
    subst this
    simp only
    obtain ⟨hN, hLy⟩ := hsl.1 hS
    have hL : ∀ L, Spec.HasLayer cs₁.length al₁ ops₁ L ↔ Spec.HasLayer cs₁.length al₁ ops₂ L := by
      intro L
      unfold Spec.HasLayer
      refine exists_congr fun s => and_congr_right fun _ => and_congr_right fun _ =>
        forall_congr' fun k => forall_congr' fun x => imp_congr_right fun _ => hLy _ _ (by omega)
    obtain ⟨-, -, hit⟩ := C25_layers h₁ d₁ n₁ al₁ ops₁
    obtain ⟨b, e1, e2⟩ := eqLayers_spec (p := afterP cs₁ d₁ n₁ al₁ ops₁) (q := afterP cs₁ d₁ n₁ al₁ ops₂)
      (fun L => ∀ s, L = .ofList s →
        (∀ n, (afterP cs₁ d₁ n₁ al₁ ops₁).kid (.ofList s) n ↔ (afterP cs₁ d₁ n₁ al₁ ops₂).kid (.ofList s) n) ∧
        ∀ i j, Spec.readP cs₁.length d₁ al₁ ops₁ s i j = Spec.readP cs₁.length d₁ al₁ ops₂ s i j)
      (afterP cs₁ d₁ n₁ al₁ ops₁).iterLayers (by
        intro L hLm
        have l1 := (hit L).1 hLm
        have l2 := (hL L).1 l1
        obtain ⟨c, hc⟩ := Option.isSome_iff_exists.1 ((s2 _).2 l1)
        obtain ⟨d, hd⟩ := Option.isSome_iff_exists.1 ((t2 _).2 l2)
        have kc := hp.core.kids _ _ hc
        have kd := hq.core.kids _ _ hd
        have fc := kc.inv.r.fic0 kc.asp
        have fd := kd.inv.r.fic0 kd.asp
        obtain ⟨b, b1, b2⟩ := MNet.eq_spec kc.inv kd.inv (by simp [fc]) (by simp [fd]) (by rw [fc, fd])
        refine ⟨c, d, b, hc, hd, b1, b2.trans ?_⟩
        obtain ⟨s, rfl, hsl', -⟩ := l1
        have hcs := MNet.headD_of_inv kc.inv.r kc.asp
        have hds := MNet.headD_of_inv kd.inv.r kd.asp
        have hkc : ∀ n, (afterP cs₁ d₁ n₁ al₁ ops₁).kid (.ofList s) n ↔ c.inSlice 0 n := by
          intro n
          constructor
          · rintro ⟨c', e, hx⟩; rw [hc] at e; cases e; exact ⟨_, by rw [hcs]; rfl, hx⟩
          · rintro ⟨S, e, hx⟩; rw [hcs] at e; cases e; exact ⟨c, hc, hx⟩
        have hkd : ∀ n, (afterP cs₁ d₁ n₁ al₁ ops₂).kid (.ofList s) n ↔ d.inSlice 0 n := by
          intro n
          constructor
          · rintro ⟨c', e, hx⟩; rw [hd] at e; cases e; exact ⟨_, by rw [hds]; rfl, hx⟩
          · rintro ⟨S, e, hx⟩; rw [hds] at e; cases e; exact ⟨d, hd, hx⟩
        have hrc : ∀ i j, c.reads [i] [j] = Spec.readP cs₁.length d₁ al₁ ops₁ s i j := by
          intro i j; rw [lkA_reads hp.core hc, s4 s i j hsl']
        have hrd : ∀ i j, d.reads [i] [j] = Spec.readP cs₁.length d₁ al₁ ops₂ s i j := by
          intro i j; rw [lkA_reads hq.core hd, t4 s i j hsl']
        have hlk : ∀ {m : MNet α W}, m.Inv → m.aspects = 0 → ∀ a b, (m.lk a b).isSome = true →
            ∃ i j, a = [i] ∧ b = [j] := by
          intro m hm h0 a b h
          have := MNet.lk_length hm h
          rw [h0] at this
          match a, b, this with
          | [i], [j], _ => exact ⟨i, j, rfl, rfl⟩
        constructor
        · rintro ⟨-, -, -, h4, -, h6⟩ s' e
          cases ofList_inj' e
          refine ⟨fun n => by rw [hkc, hkd]; exact h4 0 n, fun i j => ?_⟩
          rw [← hrc, ← hrd]
          exact (lk_eq_of_reads kc.inv.l kd.inv.l (by rw [kc.ne, kd.ne])).1 (h6 [i] [j])
        · intro h
          obtain ⟨k1, k2⟩ := h s rfl
          refine ⟨?_, by rw [kc.asp, kd.asp], by rw [kc.ne, kd.ne], ?_, by simp [fc], ?_⟩
          · rw [kc.dir, kd.dir, p2, q2]
          · intro i x
            cases i with
            | zero => rw [← hkc, ← hkd]; exact k1 x
            | succ i =>
              constructor
              · rintro ⟨S, e, -⟩; rw [hcs] at e; simp at e
              · rintro ⟨S, e, -⟩; rw [hds] at e; simp at e
          · intro a b
            rw [lk_eq_of_reads kc.inv.l kd.inv.l (by rw [kc.ne, kd.ne])]
            by_cases h : (c.lk a b).isSome = true ∨ (d.lk a b).isSome = true
            · obtain ⟨i, j, rfl, rfl⟩ : ∃ i j, a = [i] ∧ b = [j] := by
                rcases h with h | h
                · exact hlk kc.inv kc.asp a b h
                · exact hlk kd.inv kd.asp a b h
              rw [hrc, hrd]; exact k2 i j
            · rw [not_or, Bool.not_eq_true, Bool.not_eq_true, Option.isSome_eq_false_iff,
                Option.isSome_eq_false_iff, Option.isNone_iff_eq_none, Option.isNone_iff_eq_none] at h
              simp [MNet.reads, h.1, h.2, kc.ne, kd.ne])
    refine ⟨b, e1, e2.trans ?_⟩
    simp only [true_and]
    constructor
    · intro h
      refine ⟨hN, hLy, fun u => ?_, fun s i j hs => (h _ ((hit _).2 hs) s rfl).2 i j⟩
      unfold Spec.HasNodeLayer
      refine exists_congr fun n => exists_congr fun s => and_congr_right fun _ => and_congr_right fun hl =>
        or_congr (and_congr_right fun _ => and_congr (hN n) (hL _)) (and_congr_right fun hf => ?_)
      rw [← s3 hf s n hl, ← t3 hf s n hl]
      by_cases hs : Spec.HasLayer cs₁.length al₁ ops₁ (.ofList s)
      · exact (h _ ((hit _).2 hs) s rfl).1 n
      · constructor
        · rintro ⟨c, hc, -⟩; exact absurd ((s2 _).1 (by rw [hc]; rfl)) hs
        · rintro ⟨c, hc, -⟩; exact absurd ((hL _).2 ((t2 _).1 (by rw [hc]; rfl))) hs
    · intro h L hLm s e
      subst e
      have l1 := (hit _).1 hLm
      have hl : s.length = cs₁.length := by
        obtain ⟨s', e, h, -⟩ := l1
        cases ofList_inj' e; exact h
      refine ⟨fun n => ?_, fun i j => h.links s i j l1⟩
      cases al₁ with
      | true =>
        rw [fic_kid p4, fic_kid q4, s2, t2, hL, head_inSlice (by rw [hp.core.slen]; omega),
          head_inSlice (by rw [hq.core.slen]; omega), s0, t0]
        exact and_congr_right fun _ => hN n
      | false =>
        rw [s3 rfl s n hl, t3 rfl s n hl]
        have := h.nodeLayers (n :: s)
        unfold Spec.HasNodeLayer at this
        simpa [hl] using this

example : (afterP [.categorical (1 : Int)] false 0 true samplePlex).eq (afterP [.categorical 1] false 0 true
      [.addLayer 10 1, .addLayer 11 1, .addNode 9 none, .setItem [2, 1, 11] 7, .setItem [2, 1, 10] 6, .setItem [3, 2, 11] 4]) =
      .ok true ∧
    (afterP [.categorical (1 : Int)] false 0 true samplePlex).eq (afterP [.categorical 1] false 0 true []) = .ok false := by
  decide
example : ∀ c ∈ [Coupling.categorical (1 : Int), .ordinal (α := Int) 2, .uncoupled none], Spec.NotNet c := by
  intro c hc m h
  subst h
  simp at hc

/-! ### C52 -/

/-- **C52 is false of the code**: the total strength of a directed multiplex network counts inter-layer links once,
although they count for both the in- and the out-strength. -/
theorem C52_false :
    let p := afterP [.categorical (3 : Int)] true 0 true [.setItem [(1 : Int), 2, 10] 5, .addLayer 11 1]
    p.strIn [1, 10] none = .ok 3 ∧ p.strOut [1, 10] none = .ok 8 ∧ p.str [1, 10] none = .ok 8 := by decide

/-- **C52, exact.** With categorical couplings in a node-aligned directed network, the reported total strength falls
short of in-strength plus out-strength by the sum over the aspects of (number of other elementary layers) times the
coupling weight. Missing for the property itself: see `C52_false`. -/
theorem C52_strength_partial [AddCommGroup W] [LawfulIntNames α] {ops : List (POp α W)}
    {cs : List (Coupling α W)} (hcs : cs ≠ []) {ws : List W} (hcat : cs = ws.map .categorical) {i : α} {s : List α}
    (hu : Spec.HasNodeLayer cs.length true ops (i :: s)) :
    ∃ tot inn out, (afterP cs true 0 true ops).str (i :: s) none = .ok tot ∧
      (afterP cs true 0 true ops).strIn (i :: s) none = .ok inn ∧
      (afterP cs true 0 true ops).strOut (i :: s) none = .ok out ∧
      tot + ((List.range cs.length).map fun d =>
          (({x | ∃ op ∈ ops, Spec.NamesLayerP cs.length true (d + 1) x op}.ncard : Int) - 1) • ws.getD d 0).sum =
        inn + out := by
  have hp := after_pinv hcs true 0 true ops
  have hpar := after_params hcs true 0 true ops
  have hL : Spec.HasLayer cs.length true ops (.ofList s) := by
    obtain ⟨n, s', e, -, h | h⟩ := hu
    · cases e; exact h.2.2
    · cases h.1
  obtain ⟨-, -, s2, -⟩ := after_spec hcs true 0 true ops
  obtain ⟨c, hc⟩ := Option.isSome_iff_exists.1 ((s2 _).2 hL)
  have kc := hp.core.kids _ _ hc
  have hdim : ∀ dir a, 1 ≤ a → a ≤ (afterP cs true 0 true ops).aspects →
      (afterP cs true 0 true ops).dimStrength (i :: s) a dir =
        .ok ((fun a => (({x | ∃ op ∈ ops, Spec.NamesLayerP cs.length true a x op}.ncard : Int) - 1) • ws.getD (a - 1) 0) a) := by
    intro dir a h1 h2
    rw [hpar.1] at h2
    obtain ⟨S, hS, -, -, hn⟩ := slice_ncard hcs true (0 : W) true ops h1 h2
    have hlen : cs.length = ws.length := by rw [hcat, List.length_map]
    obtain ⟨w, hw⟩ : ∃ w, ws[a - 1]? = some w := ⟨_, List.getElem?_eq_getElem (by omega)⟩
    have hc' : cs[a - 1]? = some (.categorical w) := by rw [hcat, List.getElem?_map, hw]; rfl
    unfold dimStrength dimDegree
    rw [hpar.2.2.2.2, hc']
    simp only [hpar.2.2.2.1, if_true, hS, hn, List.getD_eq_getElem?_getD, hw, Option.getD_some]
  have ki := MNet.strIn_spec kc.inv [i] none
  have ko := MNet.strOut_spec kc.inv [i] none
  have h1 := sum_spec (β := W) (p := afterP cs true 0 true ops) (u := i :: s) rfl hc
    (fun c n => c.strIn n none) ki _ _ (hdim .inn)
  have h2 := sum_spec (β := W) (p := afterP cs true 0 true ops) (u := i :: s) rfl hc
    (fun c n => c.strOut n none) ko _ _ (hdim .out)
  have h3 := sum_spec (β := W) (p := afterP cs true 0 true ops) (u := i :: s) rfl hc
    (fun c n => c.str n none) (by
      simp only [MNet.str, MNet.strTotalDir, kc.dir, hpar.2.1, if_true, ki, ko]
      rfl) _ _ (hdim .tot)
  have e1 : (afterP cs true 0 true ops).strIn (i :: s) none = .ok _ := (if_pos hpar.2.1).trans h1
  have e2 : (afterP cs true 0 true ops).strOut (i :: s) none = .ok _ := h2
  have e3 : (afterP cs true 0 true ops).str (i :: s) none = .ok _ := (if_pos hpar.2.1).trans h3
  refine ⟨_, _, _, e3, e1, e2, ?_⟩
  rw [hpar.1]
  simp only [Nat.add_sub_cancel]
  abel

example : (afterP [.categorical (3 : Int)] true 0 true [.setItem [(1 : Int), 2, 10] 5, .addLayer 11 1]).nodeLayers =
    .ok [[1, 10], [1, 11], [2, 10], [2, 11]] := by decide

/-! ### C53: restricted iteration -/

theorem collect_inv {β γ : Type} {f : β → Except Err (List γ)} {l : List β} {r : List γ}
    (h : View.collect f l = .ok r) : ∃ g : β → List γ, (∀ x ∈ l, f x = .ok (g x)) ∧ r = l.flatMap g := by
  refine ⟨fun x => match f x with | .ok y => y | .error _ => [], ?_⟩
  induction l generalizing r with
  | nil => cases h; simp
  | cons x l ih =>
    unfold View.collect at h
    cases hx : f x with
    | error e => rw [hx] at h; cases h
    | ok y =>
      cases hl : View.collect f l with
      | error e => rw [hx, hl] at h; cases h
      | ok z =>
        rw [hx, hl] at h; cases h
        obtain ⟨h1, h2⟩ := ih hl
        refine ⟨fun a ha => ?_, by rw [List.flatMap_cons, ← h2]; simp [hx]⟩
        rcases List.mem_cons.1 ha with rfl | ha
        · simp [hx]
        · exact h1 a ha

/-- the free dimensions of a restriction that agrees with the node-layer -/
theorem freeDims_spec {u : List α} {ds : Dims α} (hl : ds.length = u.length) (hm : Spec.Matches ds u) (k : Nat) :
    ∃ F, freeDims u ds k = some F ∧ F.Sublist (List.range' k ds.length) ∧
      ∀ d, d ∈ F ↔ k ≤ d ∧ ds[d - k]? = some none := by
  induction ds generalizing u k with
  | nil => exact ⟨[], by simp [freeDims], by simp, by simp⟩
  | cons o ds ih =>
    cases u with
    | nil => simp at hl
    | cons x u =>
      obtain ⟨F, h1, h2, h3⟩ := ih (u := u) (by simpa using hl)
        (fun i a h => by simpa using hm (i + 1) a (by simpa using h)) (k + 1)
      have hmem : ∀ d, k + 1 ≤ d → (o :: ds)[d - k]? = ds[d - (k + 1)]? := by
        intro d hd
        obtain ⟨e, rfl⟩ : ∃ e, d = k + 1 + e := ⟨d - (k + 1), by omega⟩
        have : k + 1 + e - k = e + 1 := by omega
        rw [this]; simp
      cases o with
      | some a =>
        have : x = a := by simpa using hm 0 a rfl
        subst this
        refine ⟨F, by simp [freeDims, h1], ?_, fun d => ?_⟩
        · rw [List.length_cons, List.range'_succ]; exact h2.cons _
        · rw [h3]
          constructor
          · rintro ⟨h4, h5⟩; exact ⟨by omega, by rw [hmem d h4]; exact h5⟩
          · rintro ⟨h4, h5⟩
            rcases Nat.eq_or_lt_of_le h4 with rfl | h4
            · simp at h5
            · exact ⟨h4, by rw [← hmem d h4]; exact h5⟩
      | none =>
        refine ⟨k :: F, by simp [freeDims, h1], ?_, fun d => ?_⟩
        · rw [List.length_cons, List.range'_succ]; exact h2.cons_cons _
        · rw [List.mem_cons, h3]
          constructor
          · rintro (rfl | ⟨h4, h5⟩)
            · simp
            · exact ⟨by omega, by rw [hmem d h4]; exact h5⟩
          · rintro ⟨h4, h5⟩
            rcases Nat.eq_or_lt_of_le h4 with rfl | h4
            · exact Or.inl rfl
            · exact Or.inr ⟨h4, by rw [← hmem d h4]; exact h5⟩

/-- inter-layer neighbours differ from the node-layer only in the dimension iterated -/
theorem iterDim_agree [IntNames α] {p : MPlex α W} {u : List α} {d : Nat} (hd : 1 ≤ d) {l : List (List α)}
    (hal : p.fic = true ∨ ∃ w, p.couplings = [.categorical w]) (hu : u.length = p.couplings.length + 1)
    (h : p.iterDim u d = .ok l) {v : List α} (hv : v ∈ l) (hlv : v.length = u.length) :
    ∀ i, i ≠ d → v[i]? = u[i]? := by
  have hset : ∀ y i, i ≠ d → (replaceAt u d y)[i]? = u[i]? := by
    intro y i hi; unfold replaceAt; rw [List.getElem?_set_ne (Ne.symm hi)]
  rcases hal with hf | ⟨w, hw⟩
  · unfold iterDim at h
    rw [hf] at h
    simp only [if_true] at h
    repeat' split at h
    all_goals first
      | (cases h; done)
      | (cases h; simp at hv; done)
      | (cases h
         obtain ⟨y, -, rfl⟩ := List.mem_map.1 hv
         exact hset y)
      | (cases h
         rw [List.mem_append] at hv
         rcases hv with hv | hv <;> first
           | (rw [List.mem_singleton] at hv; subst hv; exact hset _)
           | simp at hv)
  · rw [hw] at hu
    match u, hu with
    | [n, x], _ =>
      by_cases h1 : d = 1
      · subst h1
        unfold iterDim at h
        rw [hw] at h
        simp only [Nat.sub_self, List.getElem?_cons_zero] at h
        match v, hlv with
        | [m, y], _ =>
          have : m = n := by
            repeat' split at h
            all_goals first
              | (cases h; done)
              | (cases h; simp at hv; done)
              | (cases h
                 obtain ⟨z, -, e⟩ := List.mem_map.1 hv
                 simp [replaceAt] at e; exact e.1.symm)
          subst this
          intro i hi
          match i, hi with
          | 0, _ => rfl
          | i + 2, _ => rfl
      · unfold iterDim at h
        rw [hw] at h
        obtain ⟨e, rfl⟩ : ∃ e, d = e + 2 := ⟨d - 2, by omega⟩
        simp at h

/-- Internal: a restricted iteration, from the unrestricted one. -/
theorem restrict_main [Zero W] [LawfulIntNames α] {cs : List (Coupling α W)} {directed aligned : Bool}
    {ops : List (POp α W)} (hcs : cs ≠ []) (hal : aligned = true ∨ ∃ w, cs = [.categorical w])
    {u : List α} (hu : Spec.HasNodeLayer cs.length aligned ops u) {f : MNet α W → List α → List (List α)}
    {l : List (List α)} {Q : List α → Prop}
    (h : View.collect (fun d => if d = 0 then (afterP cs directed 0 aligned ops).intra u f
      else (afterP cs directed 0 aligned ops).iterDim u d)
      ((afterP cs directed 0 aligned ops).selectDimensions u none) = .ok l)
    (hn : l.Nodup) (hmem : ∀ v, v ∈ l ↔ Spec.HasNodeLayer cs.length aligned ops v ∧ Q v) (hself : ¬ Q u)
    {ds : Dims α} (hds : ds.length = cs.length + 1) (hm : Spec.Matches ds u) :
    ∃ l', View.collect (fun d => if d = 0 then (afterP cs directed 0 aligned ops).intra u f
        else (afterP cs directed 0 aligned ops).iterDim u d)
        ((afterP cs directed 0 aligned ops).selectDimensions u (some ds)) = .ok l' ∧ l'.Nodup ∧
      (∀ v, v ∈ l' ↔ (Spec.HasNodeLayer cs.length aligned ops v ∧ Q v) ∧ Spec.Allowed (some ds) v) ∧
      ∃ F g, (afterP cs directed 0 aligned ops).selectDimensions u (some ds) = F ∧ l' = F.flatMap g ∧
        ∀ d ∈ F, (if d = 0 then (afterP cs directed 0 aligned ops).intra u f
          else (afterP cs directed 0 aligned ops).iterDim u d) = .ok (g d) := by
  have hpar := after_params hcs directed 0 aligned ops
  obtain ⟨g, h1, rfl⟩ := collect_inv h
  have hlen : ∀ v, Spec.HasNodeLayer cs.length aligned ops v → v.length = cs.length + 1 := by
    rintro v ⟨n, s, rfl, hl, -⟩; simp [hl]
  have hul := hlen u hu
  obtain ⟨F, f1, f2, f3⟩ := freeDims_spec (u := u) (ds := ds) (by omega) hm 0
  have hsel : (afterP cs directed 0 aligned ops).selectDimensions u (some ds) = F := by
    simp [selectDimensions, f1]
  have hr : (afterP cs directed 0 aligned ops).selectDimensions u none = List.range (cs.length + 1) := by
    simp [selectDimensions, hpar.1]
  rw [hr] at h1 hn hmem
  have hsub : F.Sublist (List.range (cs.length + 1)) := by
    rw [List.range_eq_range', ← hds]; exact f2
  have agree : ∀ d < cs.length + 1, ∀ v ∈ g d, ∀ i, i ≠ d → v[i]? = u[i]? := by
    intro d hd v hv i hi
    have hvl : v.length = cs.length + 1 :=
      hlen v ((hmem v).1 (List.mem_flatMap.2 ⟨d, List.mem_range.2 hd, hv⟩)).1
    have hok := h1 d (List.mem_range.2 hd)
    by_cases hd0 : d = 0
    · subst hd0
      rw [if_pos rfl] at hok
      obtain ⟨n, s, rfl, hl, -⟩ := hu
      unfold intra onChild at hok
      simp only [List.drop_succ_cons, List.drop_zero] at hok
      split at hok
      · cases hok
      · injection hok with hok
        rw [← hok] at hv
        obtain ⟨m, -, e⟩ := List.mem_map.1 hv
        have : (m.take 1).length = 1 := by
          have := congrArg List.length e
          rw [List.length_append] at this
          omega
        subst e
        obtain ⟨j, rfl⟩ : ∃ j, i = j + 1 := ⟨i - 1, by omega⟩
        rw [List.getElem?_append_right (by omega), this]
        simp
    · rw [if_neg hd0] at hok
      refine iterDim_agree (by omega) ?_ (by rw [hpar.2.2.2.2, hul]) hok hv (by omega) i hi
      rcases hal with rfl | ⟨w, rfl⟩
      · exact Or.inl hpar.2.2.2.1
      · exact Or.inr ⟨w, hpar.2.2.2.2⟩
  rw [hsel]
  refine ⟨F.flatMap g, View.collect_ok fun d hd => h1 d (hsub.subset hd), ?_, fun v => ?_, F, g, rfl, rfl,
    fun d hd => h1 d (hsub.subset hd)⟩
  · exact hn.sublist (hsub.flatMap g)
  · rw [← hmem, List.mem_flatMap, List.mem_flatMap]
    constructor
    · rintro ⟨d, hd, hv⟩
      refine ⟨⟨d, hsub.subset hd, hv⟩, fun ds' e i a hi => ?_⟩
      cases e
      have hne : i ≠ d := by
        rintro rfl
        have := ((f3 i).1 hd).2
        rw [Nat.sub_zero, hi] at this
        simp at this
      rw [agree d (List.mem_range.1 (hsub.subset hd)) v hv i hne]
      exact hm i a hi
    · rintro ⟨⟨d, hd, hv⟩, hA⟩
      refine ⟨d, ?_, hv⟩
      rw [f3]
      refine ⟨Nat.zero_le _, ?_⟩
      rw [Nat.sub_zero]
      have hlt : d < ds.length := by rw [hds]; exact List.mem_range.1 hd
      rw [List.getElem?_eq_getElem hlt]
      by_contra hne
      obtain ⟨a, ha⟩ : ∃ a, ds[d] = some a := by
        cases h : ds[d] with
        | none => rw [h] at hne; simp at hne
        | some a => exact ⟨a, rfl⟩
      have hi : ds[d]? = some (some a) := by rw [List.getElem?_eq_getElem hlt, ha]
      have e1 := hA ds rfl d a hi
      have e2 := hm d a hi
      have : v = u := by
        apply List.ext_getElem?
        intro i
        by_cases h : i = d
        · subst h; rw [e1, e2]
        · exact agree d (List.mem_range.1 hd) v hv i h
      subst this
      exact hself ((hmem v).1 (List.mem_flatMap.2 ⟨d, hd, hv⟩)).2

/-- **C53, partial.** Iterating the out-neighbours restricted to the node-layer's own indices in some dimensions yields
exactly the out-neighbours satisfying the restriction, once each, and the restricted degree is their number. Missing:
a restriction to other indices (see `C53_false`). -/
theorem C53_iter_out_partial [Zero W] [LawfulIntNames α] {cs : List (Coupling α W)} {directed aligned : Bool}
    {ops : List (POp α W)} (hU : Spec.Usable cs aligned ops) (hs : Spec.NoIntraSelf ops)
    (hal : aligned = true ∨ ∃ w, cs = [.categorical w]) {u : List α} (hu : Spec.HasNodeLayer cs.length aligned ops u)
    {ds : Dims α} (hds : ds.length = cs.length + 1) (hm : Spec.Matches ds u) :
    ∃ l, (afterP cs directed 0 aligned ops).view.iterOut u (some ds) = .ok l ∧ l.Nodup ∧
      (∀ v, v ∈ l ↔ (Spec.HasNodeLayer cs.length aligned ops v ∧ Spec.Linked cs directed aligned ops u v) ∧
        Spec.Allowed (some ds) v) ∧
      (afterP cs directed 0 aligned ops).view.degOut u (some ds) = .ok (l.length : Int) := by
  obtain ⟨l, h1, h2, h3⟩ := main_out (directed := directed) hU hs hal hu
  obtain ⟨l', k1, k2, k3, F, g, k4, k5, k6⟩ := restrict_main (f := fun c n => c.iterOut n none) hU.some_aspect hal hu h1 h2 h3
    (not_linked_self u) hds hm
  refine ⟨l', k1, k2, k3, ?_⟩
  change MPlex.degOut _ _ _ = _
  unfold MPlex.degOut
  rw [sumDims_ok (g := fun d => ((g d).length : Int)), k4, k5, zero_add, List.length_flatMap]
  · congr 1
    clear k1 k2 k3 k4 k5 k6
    induction F with
    | nil => rfl
    | cons d F ih => simp [ih]
  · intro d hd
    rw [k4] at hd
    have hok := k6 d hd
    by_cases hd0 : d = 0
    · subst hd0
      rw [if_pos rfl] at hok ⊢
      unfold intra onChild at hok
      unfold onChild
      obtain ⟨n, s, rfl, hl, -⟩ := hu
      simp only at hok ⊢
      split at hok
      · cases hok
      · rename_i c hc
        injection hok with hok
        rw [← hok, List.length_map, MNet.degOut, MNet.degDict_eq]; rfl
    · rw [if_neg hd0] at hok ⊢
      exact (after_good hU.some_aspect directed aligned ops hU hs hal).2 u hu d (by omega) _ hok .out

/-- **C53, partial**, incoming neighbours of a directed network. -/
theorem C53_iter_in_partial [Zero W] [LawfulIntNames α] {cs : List (Coupling α W)} {aligned : Bool}
    {ops : List (POp α W)} (hU : Spec.Usable cs aligned ops) (hs : Spec.NoIntraSelf ops)
    (hal : aligned = true ∨ ∃ w, cs = [.categorical w]) {u : List α} (hu : Spec.HasNodeLayer cs.length aligned ops u)
    {ds : Dims α} (hds : ds.length = cs.length + 1) (hm : Spec.Matches ds u) :
    ∃ l, (afterP cs true 0 aligned ops).view.iterIn u (some ds) = .ok l ∧ l.Nodup ∧
      ∀ v, v ∈ l ↔ (Spec.HasNodeLayer cs.length aligned ops v ∧ Spec.Linked cs true aligned ops v u) ∧
        Spec.Allowed (some ds) v := by
  have hpar := after_params hU.some_aspect true 0 aligned ops
  obtain ⟨l, h1, h2, h3⟩ := main_inDir (directed := true) hU hs hal hu
  obtain ⟨l', k1, k2, k3, -⟩ := restrict_main (f := fun c n => c.iterIn n none) hU.some_aspect hal hu h1 h2 h3
    (not_linked_self u) hds hm
  refine ⟨l', ?_, k2, k3⟩
  change (if (afterP cs true 0 aligned ops).directed then _ else _) = _
  rw [if_pos hpar.2.1]; exact k1

/-- **C53 is false of the code**: iterating the neighbours of `(1,10)` restricted to layer 11 yields nothing, although
`(1,11)` is a neighbour of `(1,10)`. -/
theorem C53_false :
    let p := afterP [.categorical (1 : Int)] false 0 true samplePlex
    p.view.iterOut [1, 10] none = .ok [[2, 10], [1, 11]] ∧ p.view.iterOut [1, 10] (some [none, some 11]) = .ok [] ∧
    p.view.readItem [1, 1, 10, 11] = .ok (.weight 1) := by decide

example : Spec.Matches [none, some 10] [(1 : Int), 10] := by
  intro i a h
  match i with
  | 0 => simp at h
  | 1 => simpa using h
  | i + 2 => simp at h
example : (afterP [.categorical (1 : Int)] false 0 true samplePlex).view.iterOut [1, 10] (some [none, some 10]) =
    .ok [[2, 10]] := by decide

end Pymnet
