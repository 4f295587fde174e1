import Verif.Proofs.PlexFacts
import Verif.Props.Net

/-!
Properties C18–C25 and C49–C52: multiplex networks.

`afterP cs directed noEdge aligned ops` is the network the user has after constructing
`MultiplexNetwork(couplings=cs, directed, noEdge, fullyInterconnected=aligned)` and making the calls `ops`
(catching exceptions). The specification the theorems refer to is in `Verif/Spec/Plex.lean`.
-/

set_option linter.unusedSectionVars false
set_option linter.unusedSimpArgs false
set_option linter.unnecessarySimpa false

namespace Pymnet

open Py MPlex

variable {α W : Type} [DecidableEq α] [DecidableEq W]

/-- A history used in the examples: two nodes linked in layer 10, one of them linked in layer 11, an overwrite,
a rejected self-link and a rejected inter-layer link, a write through `net.A[11]`. -/
def samplePlex : List (POp Int Int) :=
  [.setItem [1, 2, 10] 5, .setItem [2, 3, 11] 4, .setItem [1, 2, 10, 10] 6, .setItem [2, 2, 11] 3,
   .setItem [2, 2, 10, 11] 3, .intraSet (.el 11) 1 2 7, .addNode 9 none, .intraSet (.el 99) 1 2 7]

theorem samplePlex_noSelf : Spec.NoIntraSelf samplePlex := by
  intro L i w h
  simp only [samplePlex, List.mem_cons, POp.intraSet.injEq, reduceCtorEq, false_or, List.not_mem_nil, or_false] at h
  omega

theorem samplePlex_has (aligned : Bool) (u : List Int) (l : List (List Int)) (cs : List (Coupling Int Int))
    (hcs : cs ≠ []) (h : (afterP cs false 0 aligned samplePlex).nodeLayers = .ok l) (hu : u ∈ l) :
    Spec.HasNodeLayer cs.length aligned samplePlex u := by
  obtain ⟨l', h1, -, h3⟩ := after_nodeLayers hcs false 0 aligned samplePlex
  rw [h] at h1; cases h1
  exact (h3 u).1 hu

/-! ### C18 -/

section
variable [Zero W] [IntNames α]

/-- **C18.** After any history, a link inside an existing layer reads the last value written to it, through the
network and through `net.A[s]`; a self-link through `net.A[s]` does as well. -/
theorem C18_read {cs : List (Coupling α W)} (hcs : cs ≠ []) (directed : Bool) (noEdge : W) (aligned : Bool)
    (ops : List (POp α W)) {s : List α} (hs : Spec.HasLayer cs.length aligned ops (.ofList s)) (i j : α) :
    (∀ item, i ≠ j → Spec.Addresses cs.length item (i :: s) (j :: s) →
      (afterP cs directed noEdge aligned ops).view.readItem item =
        .ok (.weight (Spec.readP cs.length directed aligned ops s i j))) ∧
    ∃ c, (afterP cs directed noEdge aligned ops).child? (.ofList s) = some c ∧
      c.view.readItem [i, j] = .ok (.weight (Spec.readP cs.length directed aligned ops s i j)) := by
  have hp := after_pinv hcs directed noEdge aligned ops
  have hpar := after_params hcs directed noEdge aligned ops
  obtain ⟨-, -, s2, -, s4⟩ := after_spec hcs directed noEdge aligned ops
  have hl : s.length = cs.length := by
    obtain ⟨s', e, h, -⟩ := hs
    cases ofList_inj' e; exact h
  refine ⟨fun item hij ha => ?_, ?_⟩
  · refine View.getItem_addresses (v := (afterP cs directed noEdge aligned ops).view) (a := i :: s) (b := j :: s) ?_
      (after_intra hcs directed noEdge aligned ops hij hs)
    change Spec.Addresses (afterP cs directed noEdge aligned ops).aspects _ _ _
    rw [hpar.1]; exact ha
  · obtain ⟨c, hc⟩ := Option.isSome_iff_exists.1 ((s2 _).2 hs)
    refine ⟨c, hc, ?_⟩
    have hk := hp.core.kids _ _ hc
    have := MNet.readItem_link (m := c) (a := [i]) (b := [j]) (by simp [hk.asp]) (by simp [hk.asp])
    rw [lkA_reads hp.core hc, s4 s i j hl] at this
    exact this

/-- **C18.** A write of an intra-layer link between different nodes is accepted, and is what both orders of access
then read. -/
theorem C18_write_read {cs : List (Coupling α W)} (hcs : cs ≠ []) (directed : Bool) (noEdge : W) (aligned : Bool)
    (ops : List (POp α W)) {item : List α} {i j : α} {s : List α} (hij : i ≠ j)
    (h : Spec.Addresses cs.length item (i :: s) (j :: s)) (w : W) :
    ((afterP cs directed noEdge aligned ops).setItem item w).2 = none ∧
    (∀ item', Spec.Addresses cs.length item' (i :: s) (j :: s) ∨
        (directed = false ∧ Spec.Addresses cs.length item' (j :: s) (i :: s)) →
      (afterP cs directed noEdge aligned (ops ++ [.setItem item w])).view.readItem item' = .ok (.weight w)) ∧
    ∃ c, (afterP cs directed noEdge aligned (ops ++ [.setItem item w])).child? (.ofList s) = some c ∧
      c.view.readItem [i, j] = .ok (.weight w) ∧ (directed = false → c.view.readItem [j, i] = .ok (.weight w)) := by
  have hp := after_pinv hcs directed noEdge aligned ops
  have hpar := after_params hcs directed noEdge aligned ops
  have hlayer : Spec.HasLayer cs.length aligned (ops ++ [.setItem item w]) (.ofList s) := by
    refine ⟨s, rfl, by simpa using h.1, fun k x hx => ⟨.setItem item w, by simp, _, rfl, ?_⟩⟩
    exact ⟨i :: s, j :: s, h, Or.inl (by simpa using hx)⟩
  have hw : ∀ a b, Spec.SameLink directed i j a b →
      Spec.readP cs.length directed aligned (ops ++ [.setItem item w]) s a b = w := by
    intro a b hab
    rw [readP_snoc]
    unfold Spec.writtenP
    simp only
    rw [if_pos ⟨i, j, hij, h, hab⟩]; rfl
  refine ⟨?_, ?_, ?_⟩
  · have := (setItem_spec hp (item := item) (by rw [hpar.1]; exact h) w).1
    rw [this, if_pos ⟨hij, rfl⟩]
  · rintro item' (h' | ⟨hd, h'⟩)
    · rw [(C18_read hcs directed noEdge aligned _ hlayer i j).1 item' hij h', hw i j (Or.inl ⟨rfl, rfl⟩)]
    · rw [(C18_read hcs directed noEdge aligned _ hlayer j i).1 item' hij.symm h', hw j i (Or.inr ⟨hd, rfl, rfl⟩)]
  · obtain ⟨c, h1, h2⟩ := (C18_read hcs directed noEdge aligned _ hlayer i j).2
    obtain ⟨c', h1', h2'⟩ := (C18_read hcs directed noEdge aligned _ hlayer j i).2
    rw [h1] at h1'; cases h1'
    refine ⟨c, h1, ?_, fun hd => ?_⟩
    · rw [h2, hw i j (Or.inl ⟨rfl, rfl⟩)]
    · rw [h2', hw j i (Or.inr ⟨hd, rfl, rfl⟩)]

omit [IntNames α] in
/-- no index tuple addressing another link writes this one -/
theorem writtenP_other {aspects : Nat} {directed aligned : Bool} {past : List (POp α W)} {item : List α}
    {i j : α} {s t : List α} (h : Spec.Addresses aspects item (i :: s) (j :: t)) (w : W) {s' : List α} {a b : α}
    (hne : ¬ (i ≠ j ∧ s = t ∧ s' = s ∧ Spec.SameLink directed i j a b)) :
    Spec.writtenP aspects directed aligned s' a b past (.setItem item w) = none := by
  unfold Spec.writtenP
  simp only
  rw [if_neg]
  rintro ⟨x, y, hxy, h', hs⟩
  obtain ⟨e1, e2⟩ := addresses_unique h h'
  cases e1; cases e2
  exact hne ⟨hxy, rfl, rfl, hs⟩

/-- what a write through an index tuple leaves alone -/
theorem frame_main {cs : List (Coupling α W)} (hcs : cs ≠ []) (directed : Bool) (noEdge : W) (aligned : Bool)
    (ops : List (POp α W)) {item : List α} {i j : α} {s t : List α}
    (h : Spec.Addresses cs.length item (i :: s) (j :: t)) (w : W) :
    (∀ s' c, (afterP cs directed noEdge aligned ops).child? (.ofList s') = some c →
      ∃ c', (afterP cs directed noEdge aligned (ops ++ [.setItem item w])).child? (.ofList s') = some c' ∧
        ∀ a b, ¬ (i ≠ j ∧ s = t ∧ s' = s ∧ Spec.SameLink directed i j a b) →
          c'.view.readItem [a, b] = c.view.readItem [a, b]) ∧
    ∀ nls, (afterP cs directed noEdge aligned ops).view.nodeLayers = .ok nls → ∀ u ∈ nls, ∀ v ∈ nls,
      ¬ (i ≠ j ∧ s = t ∧ u = i :: s ∧ v = j :: s) →
      ¬ (i ≠ j ∧ s = t ∧ directed = false ∧ u = j :: s ∧ v = i :: s) → ∀ item',
      Spec.Addresses cs.length item' u v →
      (afterP cs directed noEdge aligned (ops ++ [.setItem item w])).view.readItem item' =
        (afterP cs directed noEdge aligned ops).view.readItem item' := by
  have hp := after_pinv hcs directed noEdge aligned ops
  have hpar := after_params hcs directed noEdge aligned ops
  have hq := after_pinv hcs directed noEdge aligned (ops ++ [.setItem item w])
  have hqar := after_params hcs directed noEdge aligned (ops ++ [.setItem item w])
  obtain ⟨s0, s1, s2, s3, s4⟩ := after_spec hcs directed noEdge aligned ops
  obtain ⟨t0, t1, t2, t3, t4⟩ := after_spec hcs directed noEdge aligned (ops ++ [.setItem item w])
  constructor
  · intro s' c hc
    have hL := (s2 _).1 (Option.isSome_iff_exists.2 ⟨c, hc⟩)
    obtain ⟨c', hc'⟩ := Option.isSome_iff_exists.1 ((t2 _).2 (hasLayer_mono hL))
    refine ⟨c', hc', fun a b hne => ?_⟩
    obtain ⟨d, d1, d2⟩ := (C18_read hcs directed noEdge aligned ops hL a b).2
    obtain ⟨d', d1', d2'⟩ := (C18_read hcs directed noEdge aligned _ (hasLayer_mono hL) a b).2
    rw [hc] at d1; cases d1
    rw [hc'] at d1'; cases d1'
    rw [d2, d2', readP_snoc, writtenP_other h w hne]; rfl
  · intro nls hnls u hu v hv hne1 hne2 item' ha
    obtain ⟨l, l1, -, l3⟩ := after_nodeLayers hcs directed noEdge aligned ops
    change (afterP cs directed noEdge aligned ops).nodeLayers = _ at hnls
    rw [hnls] at l1; cases l1
    obtain ⟨pu, n, r, rfl, hr, ku⟩ := reg_cases hcs directed noEdge aligned ops ((l3 u).1 hu)
    obtain ⟨pv, m, q, rfl, hq', kv⟩ := reg_cases hcs directed noEdge aligned ops ((l3 v).1 hv)
    have ap : Spec.Addresses (afterP cs directed noEdge aligned ops).view.aspects item' (n :: r) (m :: q) := by
      change Spec.Addresses (afterP cs directed noEdge aligned ops).aspects _ _ _
      rw [hpar.1]; exact ha
    have aq : Spec.Addresses (afterP cs directed noEdge aligned (ops ++ [.setItem item w])).view.aspects item'
        (n :: r) (m :: q) := by
      change Spec.Addresses (afterP cs directed noEdge aligned (ops ++ [.setItem item w])).aspects _ _ _
      rw [hqar.1]; exact ha
    rw [View.readItem_addresses ap, View.readItem_addresses aq]
    have key := getLink_frame (p := afterP cs directed noEdge aligned ops)
      (q := afterP cs directed noEdge aligned (ops ++ [.setItem item w])) hp.core hq.core
      ⟨hqar.1.trans hpar.1.symm, hqar.2.1.trans hpar.2.1.symm, hqar.2.2.1.trans hpar.2.2.1.symm,
        hqar.2.2.2.1.trans hpar.2.2.2.1.symm, hqar.2.2.2.2.trans hpar.2.2.2.2.symm⟩
      (by
        intro a x hx
        rcases Nat.eq_zero_or_pos a with rfl | ha
        · exact (t0 x).2 (happened_mono ((s0 x).1 hx))
        · obtain ⟨op, o1, o2⟩ := (s1 a x ha).1 hx
          exact (t1 a x ha).2 ⟨op, by simp [o1], o2⟩)
      (by
        intro hf L n hk
        rw [hpar.2.2.2.1] at hf
        obtain ⟨c, hc, hn⟩ := hk
        obtain ⟨s', e, hl, -⟩ := (s2 L).1 (Option.isSome_iff_exists.2 ⟨c, hc⟩)
        subst e
        exact (t3 hf s' n hl).2 (happened_mono ((s3 hf s' n hl).1 ⟨c, hc, hn⟩)))
      pu pv ku kv
      (by
        intro hnm hrq
        subst hrq
        have hL : Spec.HasLayer cs.length aligned ops (.ofList r) := by
          obtain ⟨n', s', e, -, -, h⟩ := (after_product hcs directed noEdge aligned ops _).1 pu
          cases e; exact h
        have e1 := s4 r n m hr
        have e2 := t4 r n m hr
        rw [readP_snoc, writtenP_other h w] at e2
        · rw [Option.getD_none, ← e1] at e2
          obtain ⟨c, hc⟩ := Option.isSome_iff_exists.1 ((s2 _).2 hL)
          obtain ⟨c', hc'⟩ := Option.isSome_iff_exists.1 ((t2 _).2 (hasLayer_mono (ops' := [.setItem item w]) hL))
          have hv1 := (hp.core.kids _ _ hc).inv.l.val [n] [m]
          have hv2 := (hq.core.kids _ _ hc').inv.l.val [n] [m]
          rw [(hp.core.kids _ _ hc).ne] at hv1
          rw [(hq.core.kids _ _ hc').ne] at hv2
          unfold lkA at e2 ⊢
          rw [hc, hc'] at e2 ⊢
          simp only [Option.bind_some] at e2 ⊢
          cases h1 : c.lk [n] [m] with
          | none =>
            cases h2 : c'.lk [n] [m] with
            | none => rfl
            | some x => rw [h1, h2] at e2; exact absurd e2 (hv2 x h2)
          | some y =>
            cases h2 : c'.lk [n] [m] with
            | none => rw [h1, h2] at e2; exact absurd e2.symm (hv1 y h1)
            | some x => rw [h1, h2] at e2; simpa using e2
        · rintro ⟨h1, h2, h3, h4⟩
          subst h3
          rcases h4 with ⟨rfl, rfl⟩ | ⟨hd, rfl, rfl⟩
          · exact hne1 ⟨h1, h2, rfl, rfl⟩
          · exact hne2 ⟨h1, h2, hd, rfl, rfl⟩)
    change ((afterP cs directed noEdge aligned (ops ++ [.setItem item w])).getLink _).map _ =
      ((afterP cs directed noEdge aligned ops).getLink _).map _
    rw [key]

/-- **C18.** The write changes no other link: every layer that existed still exists and its other links read as
before. -/
theorem C18_frame_layers {cs : List (Coupling α W)} (hcs : cs ≠ []) (directed : Bool) (noEdge : W) (aligned : Bool)
    (ops : List (POp α W)) {item : List α} {i j : α} {s : List α}
    (h : Spec.Addresses cs.length item (i :: s) (j :: s)) (w : W) :
    ∀ s' c, (afterP cs directed noEdge aligned ops).child? (.ofList s') = some c →
      ∃ c', (afterP cs directed noEdge aligned (ops ++ [.setItem item w])).child? (.ofList s') = some c' ∧
        ∀ a b, ¬ (s' = s ∧ Spec.SameLink directed i j a b) → c'.view.readItem [a, b] = c.view.readItem [a, b] := by
  intro s' c hc
  obtain ⟨c', h1, h2⟩ := (frame_main hcs directed noEdge aligned ops h w).1 s' c hc
  exact ⟨c', h1, fun a b hne => h2 a b (by tauto)⟩

/-- **C18.** The write changes no other link, inter-layer or not, between node-layers that were in the network. -/
theorem C18_frame_links {cs : List (Coupling α W)} (hcs : cs ≠ []) (directed : Bool) (noEdge : W) (aligned : Bool)
    (ops : List (POp α W)) {item : List α} {i j : α} {s : List α}
    (h : Spec.Addresses cs.length item (i :: s) (j :: s)) (w : W) {nls : List (List α)}
    (hn : (afterP cs directed noEdge aligned ops).view.nodeLayers = .ok nls) {u v : List α} (hu : u ∈ nls) (hv : v ∈ nls)
    (hne : (u, v) ≠ (i :: s, j :: s)) (hne' : directed = false → (u, v) ≠ (j :: s, i :: s)) {item' : List α}
    (h' : Spec.Addresses cs.length item' u v) :
    (afterP cs directed noEdge aligned (ops ++ [.setItem item w])).view.readItem item' =
      (afterP cs directed noEdge aligned ops).view.readItem item' := by
  refine (frame_main hcs directed noEdge aligned ops h w).2 nls hn u hu v hv ?_ ?_ item' h'
  · rintro ⟨-, -, rfl, rfl⟩; exact hne rfl
  · rintro ⟨-, -, hd, rfl, rfl⟩; exact hne' hd rfl

example : (afterP [.categorical 1] false 0 true samplePlex).view.readItem [2, 1, 10] = .ok (.weight 6) := by decide
example : (afterP [.categorical 1] false 0 false samplePlex).view.readItem [2, 1, 11] = .ok (.weight 7) := by decide
example : (afterP [.categorical 1] false 0 false samplePlex).view.nodeLayers =
    .ok [[1, 10], [2, 10], [2, 11], [3, 11], [1, 11]] := by decide

/-! ### C19 -/

/-- **C19.** Writing a self-link or an inter-layer link raises `KeyError`. No link of an existing layer changes, and
no link between node-layers in the network changes. -/
theorem C19_rejected {cs : List (Coupling α W)} (hcs : cs ≠ []) (directed : Bool) (noEdge : W) (aligned : Bool)
    (ops : List (POp α W)) {item : List α} {i j : α} {s t : List α}
    (h : Spec.Addresses cs.length item (i :: s) (j :: t)) (hr : i = j ∨ s ≠ t) (w : W) :
    ((afterP cs directed noEdge aligned ops).setItem item w).2 = some .keyError ∧
    (∀ s' c, (afterP cs directed noEdge aligned ops).child? (.ofList s') = some c →
      ∃ c', (afterP cs directed noEdge aligned (ops ++ [.setItem item w])).child? (.ofList s') = some c' ∧
        ∀ a b, c'.view.readItem [a, b] = c.view.readItem [a, b]) ∧
    ∀ nls, (afterP cs directed noEdge aligned ops).view.nodeLayers = .ok nls → ∀ u ∈ nls, ∀ v ∈ nls, ∀ item',
      Spec.Addresses cs.length item' u v →
      (afterP cs directed noEdge aligned (ops ++ [.setItem item w])).view.readItem item' =
        (afterP cs directed noEdge aligned ops).view.readItem item' := by
  have hp := after_pinv hcs directed noEdge aligned ops
  have hpar := after_params hcs directed noEdge aligned ops
  have hno : ¬ (i ≠ j ∧ s = t) := by tauto
  obtain ⟨f1, f2⟩ := frame_main hcs directed noEdge aligned ops h w
  refine ⟨?_, ?_, ?_⟩
  · have := (setItem_spec hp (item := item) (by rw [hpar.1]; exact h) w).1
    rw [this, if_neg hno]
  · intro s' c hc
    obtain ⟨c', h1, h2⟩ := f1 s' c hc
    exact ⟨c', h1, fun a b => h2 a b (by tauto)⟩
  · intro nls hn u hu v hv item' h'
    exact f2 nls hn u hu v hv (by tauto) (by tauto) item' h'

/-- **C19.** A link of a layer that the rejected call itself creates reads 0 in it. -/
theorem C19_rejected_new_layer {cs : List (Coupling α W)} (hcs : cs ≠ []) (directed : Bool) (noEdge : W) (aligned : Bool)
    (ops : List (POp α W)) {item : List α} {i j : α} {s t : List α}
    (h : Spec.Addresses cs.length item (i :: s) (j :: t)) (hr : i = j ∨ s ≠ t) (w : W) {s' : List α} {c' : MNet α W}
    (h0 : (afterP cs directed noEdge aligned ops).child? (.ofList s') = none)
    (h1 : (afterP cs directed noEdge aligned (ops ++ [.setItem item w])).child? (.ofList s') = some c') (a b : α) :
    c'.view.readItem [a, b] = .ok (.weight 0) := by
  obtain ⟨-, -, s2, s3, s4⟩ := after_spec hcs directed noEdge aligned ops
  obtain ⟨-, -, t2, -, -⟩ := after_spec hcs directed noEdge aligned (ops ++ [.setItem item w])
  have hL := (t2 _).1 (Option.isSome_iff_exists.2 ⟨c', h1⟩)
  obtain ⟨d, d1, d2⟩ := (C18_read hcs directed noEdge aligned _ hL a b).2
  rw [h1] at d1; cases d1
  have hl : s'.length = cs.length := by
    obtain ⟨s'', e, h, -⟩ := hL
    cases ofList_inj' e; exact h
  have := s4 s' a b hl
  unfold lkA at this
  rw [h0] at this
  rw [d2, readP_snoc, writtenP_other h w (by tauto), ← this]; rfl

/-- **C19.** A wrong number of indices raises `KeyError` and changes nothing at all. -/
theorem C19_wrong_arity (p : MPlex α W) {item : List α} (h1 : item.length ≠ 2 * (p.aspects + 1))
    (h2 : item.length ≠ p.aspects + 2) (w : W) : p.setItem item w = (p, some .keyError) :=
  setItem_arity p (by omega) w

example : Spec.Addresses 1 [2, 2, 10, 11] [(2 : Int), 10] [2, 11] := ⟨rfl, rfl, Or.inl rfl⟩
example : ((afterP [.categorical (1 : Int)] false 0 false samplePlex).setItem [1, 1, 10, 12] 3).2 = some .keyError ∧
    (afterP [.categorical (1 : Int)] false 0 false samplePlex).child? (.el 12) = none ∧
    ((afterP [.categorical (1 : Int)] false 0 false (samplePlex ++ [.setItem [1, 1, 10, 12] 3])).child? (.el 12)).isSome =
      true := by decide

end

/-! ### Neighbours, degrees and strengths -/


/-- Internal: reads of links, for the cases of C20, C21 and C22. -/
theorem main_read [Zero W] [LawfulIntNames α] {cs : List (Coupling α W)} {directed aligned : Bool} {ops : List (POp α W)}
    (hU : Spec.Usable cs aligned ops) {u v : List α} (hu : Spec.HasNodeLayer cs.length aligned ops u)
    (hv : Spec.HasNodeLayer cs.length aligned ops v) {item : List α} (ha : Spec.Addresses cs.length item u v) :
    (∀ w, Spec.LinkWeight cs directed aligned ops u v w →
      (afterP cs directed 0 aligned ops).view.readItem item = .ok (.weight w)) ∧
    (¬ Spec.Linked cs directed aligned ops u v →
      (afterP cs directed 0 aligned ops).view.readItem item = .ok (.weight 0)) := by
  have hpar := after_params hU.some_aspect directed 0 aligned ops
  have ha' : Spec.Addresses (afterP cs directed 0 aligned ops).view.aspects item u v := by
    change Spec.Addresses (afterP cs directed 0 aligned ops).aspects _ _ _
    rw [hpar.1]; exact ha
  obtain ⟨h1, h2⟩ := after_read hU.some_aspect directed aligned ops hU hu hv
  exact ⟨fun w hw => View.getItem_addresses ha' (h1 w hw).1, fun h => View.getItem_addresses ha' (h2 h)⟩

theorem main_out [Zero W] [LawfulIntNames α] {cs : List (Coupling α W)} {directed aligned : Bool} {ops : List (POp α W)}
    (hU : Spec.Usable cs aligned ops) (hs : Spec.NoIntraSelf ops) (hal : aligned = true ∨ ∃ w, cs = [.categorical w])
    {u : List α} (hu : Spec.HasNodeLayer cs.length aligned ops u) :
    ∃ l, (afterP cs directed 0 aligned ops).view.iterOut u none = .ok l ∧ l.Nodup ∧
      ∀ v, v ∈ l ↔ Spec.HasNodeLayer cs.length aligned ops v ∧ Spec.Linked cs directed aligned ops u v := by
  have hcs := hU.some_aspect
  have hpar := after_params hcs directed 0 aligned ops
  obtain ⟨l, h1, h2, h3, -⟩ := out_spec ((after_good hcs directed aligned ops hU hs hal).1 u
    (reg_cases hcs directed 0 aligned ops hu).1)
  refine ⟨l, h1, h2, fun v => ?_⟩
  rw [h3, hpar.2.2.1, (mem_iff hcs directed aligned ops hU hs hu).1]

theorem main_inDir [Zero W] [LawfulIntNames α] {cs : List (Coupling α W)} {directed aligned : Bool} {ops : List (POp α W)}
    (hU : Spec.Usable cs aligned ops) (hs : Spec.NoIntraSelf ops) (hal : aligned = true ∨ ∃ w, cs = [.categorical w])
    {u : List α} (hu : Spec.HasNodeLayer cs.length aligned ops u) :
    ∃ l, (afterP cs directed 0 aligned ops).iterInDir u none = .ok l ∧ l.Nodup ∧
      ∀ v, v ∈ l ↔ Spec.HasNodeLayer cs.length aligned ops v ∧ Spec.Linked cs directed aligned ops v u := by
  have hcs := hU.some_aspect
  have hpar := after_params hcs directed 0 aligned ops
  obtain ⟨l, h1, h2, h3, -⟩ := inn_spec ((after_good hcs directed aligned ops hU hs hal).1 u
    (reg_cases hcs directed 0 aligned ops hu).1)
  refine ⟨l, h1, h2, fun v => ?_⟩
  rw [h3, hpar.2.2.1, (mem_iff hcs directed aligned ops hU hs hu).2]

theorem main_linked_symm [Zero W] [LawfulIntNames α] {cs : List (Coupling α W)} {aligned : Bool}
    {ops : List (POp α W)} (hU : Spec.Usable cs aligned ops) (hs : Spec.NoIntraSelf ops)
    (hal : aligned = true ∨ ∃ w, cs = [.categorical w])
    {u v : List α} (hu : Spec.HasNodeLayer cs.length aligned ops u) (hv : Spec.HasNodeLayer cs.length aligned ops v) :
    Spec.Linked cs false aligned ops u v ↔ Spec.Linked cs false aligned ops v u := by
  have hcs := hU.some_aspect
  rw [← (after_weight hcs false aligned ops hU hu hv).2, ← (after_weight hcs false aligned ops hU hv hu).2,
    R_symm_after hcs false aligned ops hU hs hal rfl hu hv]

theorem main_in [Zero W] [LawfulIntNames α] {cs : List (Coupling α W)} {directed aligned : Bool} {ops : List (POp α W)}
    (hU : Spec.Usable cs aligned ops) (hs : Spec.NoIntraSelf ops) (hal : aligned = true ∨ ∃ w, cs = [.categorical w])
    {u : List α} (hu : Spec.HasNodeLayer cs.length aligned ops u) :
    ∃ l, (afterP cs directed 0 aligned ops).view.iterIn u none = .ok l ∧ l.Nodup ∧
      ∀ v, v ∈ l ↔ Spec.HasNodeLayer cs.length aligned ops v ∧ Spec.Linked cs directed aligned ops v u := by
  have hpar := after_params hU.some_aspect directed 0 aligned ops
  change ∃ l, (if (afterP cs directed 0 aligned ops).directed then (afterP cs directed 0 aligned ops).iterInDir u none
    else (afterP cs directed 0 aligned ops).iterOut u none) = .ok l ∧ _
  rw [hpar.2.1]
  cases directed with
  | true => simpa using main_inDir (directed := true) hU hs hal hu
  | false =>
    obtain ⟨l, h1, h2, h3⟩ := main_out (directed := false) hU hs hal hu
    refine ⟨l, by rw [if_neg (by simp)]; exact h1, h2, fun v => ?_⟩
    rw [h3]
    refine and_congr_right fun hv => main_linked_symm hU hs hal hu hv

theorem main_total [Zero W] [LawfulIntNames α] {cs : List (Coupling α W)} {directed aligned : Bool} {ops : List (POp α W)}
    (hU : Spec.Usable cs aligned ops) (hs : Spec.NoIntraSelf ops) (hal : aligned = true ∨ ∃ w, cs = [.categorical w])
    {u : List α} (hu : Spec.HasNodeLayer cs.length aligned ops u) :
    ∃ l, (afterP cs directed 0 aligned ops).view.iterTotal u none = .ok l ∧ l.Nodup ∧
      ∀ v, v ∈ l ↔ Spec.HasNodeLayer cs.length aligned ops v ∧
        (Spec.Linked cs directed aligned ops u v ∨ Spec.Linked cs directed aligned ops v u) := by
  have hcs := hU.some_aspect
  have hpar := after_params hcs directed 0 aligned ops
  change ∃ l, (if (afterP cs directed 0 aligned ops).directed then (afterP cs directed 0 aligned ops).iterTotalDir u none
    else (afterP cs directed 0 aligned ops).iterOut u none) = .ok l ∧ _
  rw [hpar.2.1]
  cases directed with
  | true =>
    obtain ⟨l, h1, h2, h3, -⟩ := tot_spec ((after_good hcs true aligned ops hU hs hal).1 u
      (reg_cases hcs true 0 aligned ops hu).1)
    refine ⟨l, by simpa using h1, h2, fun v => ?_⟩
    have m := mem_iff (v := v) hcs true aligned ops hU hs hu
    rw [h3, hpar.2.2.1]
    rw [and_or_left, and_or_left, m.1, m.2]
  | false =>
    obtain ⟨l, h1, h2, h3⟩ := main_out (directed := false) hU hs hal hu
    refine ⟨l, by rw [if_neg (by simp)]; exact h1, h2, fun v => ?_⟩
    rw [h3]
    refine and_congr_right fun hv => ?_
    rw [← main_linked_symm hU hs hal hu hv, or_self]

theorem main_degOut [Zero W] [LawfulIntNames α] {cs : List (Coupling α W)} {directed aligned : Bool} {ops : List (POp α W)}
    (hU : Spec.Usable cs aligned ops) (hs : Spec.NoIntraSelf ops) (hal : aligned = true ∨ ∃ w, cs = [.categorical w])
    {u : List α} (hu : Spec.HasNodeLayer cs.length aligned ops u) :
    (afterP cs directed 0 aligned ops).view.degOut u none = .ok
      ({v | Spec.HasNodeLayer cs.length aligned ops v ∧ Spec.Linked cs directed aligned ops u v}.ncard : Int) := by
  have hcs := hU.some_aspect
  obtain ⟨l, h1, h2, h3⟩ := main_out (directed := directed) hU hs hal hu
  have g := after_good hcs directed aligned ops hU hs hal
  rw [MNet.ncard_of_list h2 h3]
  exact degOut_spec (g.1 u (reg_cases hcs directed 0 aligned ops hu).1)
    (fun a ha l hl => g.2 u hu a ha l hl .out) h1

theorem main_degIn [Zero W] [LawfulIntNames α] {cs : List (Coupling α W)} {directed aligned : Bool} {ops : List (POp α W)}
    (hU : Spec.Usable cs aligned ops) (hs : Spec.NoIntraSelf ops) (hal : aligned = true ∨ ∃ w, cs = [.categorical w])
    {u : List α} (hu : Spec.HasNodeLayer cs.length aligned ops u) :
    (afterP cs directed 0 aligned ops).view.degIn u none = .ok
      ({v | Spec.HasNodeLayer cs.length aligned ops v ∧ Spec.Linked cs directed aligned ops v u}.ncard : Int) := by
  have hcs := hU.some_aspect
  have hpar := after_params hcs directed 0 aligned ops
  change (if (afterP cs directed 0 aligned ops).directed then (afterP cs directed 0 aligned ops).degInDir u none
    else (afterP cs directed 0 aligned ops).degOut u none) = _
  rw [hpar.2.1]
  cases directed with
  | true =>
    obtain ⟨l, h1, h2, h3⟩ := main_inDir (directed := true) hU hs hal hu
    have g := after_good hcs true aligned ops hU hs hal
    rw [MNet.ncard_of_list h2 h3, if_pos rfl]
    exact degIn_spec (g.1 u (reg_cases hcs true 0 aligned ops hu).1)
      (fun a ha l hl => g.2 u hu a ha l hl .inn) h1
  | false =>
    rw [if_neg (by simp)]
    have := main_degOut (directed := false) hU hs hal hu
    have e : {v | Spec.HasNodeLayer cs.length aligned ops v ∧ Spec.Linked cs false aligned ops v u} =
        {v | Spec.HasNodeLayer cs.length aligned ops v ∧ Spec.Linked cs false aligned ops u v} := by
      ext v
      exact and_congr_right fun hv => main_linked_symm hU hs hal hv hu
    rw [e]
    exact this

theorem main_deg [Zero W] [LawfulIntNames α] {cs : List (Coupling α W)} {aligned : Bool} {ops : List (POp α W)}
    (hU : Spec.Usable cs aligned ops) (hs : Spec.NoIntraSelf ops) (hal : aligned = true ∨ ∃ w, cs = [.categorical w])
    {u : List α} (hu : Spec.HasNodeLayer cs.length aligned ops u) :
    (afterP cs false 0 aligned ops).view.deg u none = .ok
      ({v | Spec.HasNodeLayer cs.length aligned ops v ∧ Spec.Linked cs false aligned ops u v}.ncard : Int) := by
  have hpar := after_params hU.some_aspect false 0 aligned ops
  rw [← main_degOut hU hs hal hu]
  change (if (afterP cs false 0 aligned ops).directed then _ else _) = _
  rw [hpar.2.1]; rfl

theorem main_strOut [AddCommGroup W] [LawfulIntNames α] {cs : List (Coupling α W)} {directed aligned : Bool}
    {ops : List (POp α W)}
    (hU : Spec.Usable cs aligned ops) (hs : Spec.NoIntraSelf ops) (hal : aligned = true ∨ ∃ w, cs = [.categorical w])
    {u : List α} (hu : Spec.HasNodeLayer cs.length aligned ops u) :
    (afterP cs directed 0 aligned ops).strOut u none = .ok
      (∑ᶠ v ∈ {v | Spec.HasNodeLayer cs.length aligned ops v ∧ Spec.Linked cs directed aligned ops u v},
        Spec.weight cs directed aligned ops u v) := by
  have hcs := hU.some_aspect
  obtain ⟨l, h1, h2, h3⟩ := main_out (directed := directed) hU hs hal hu
  have g := after_good hcs directed aligned ops hU hs hal
  rw [MNet.finsum_of_list h2 h3]
  rw [strOut_spec (g.1 u (reg_cases hcs directed 0 aligned ops hu).1)
    (fun a ha l hl => (after_dimStrength hcs directed aligned ops hU hs hal hu a ha l hl .out).1) h1]
  congr 2
  refine List.map_congr_left fun v hv => ?_
  rw [R_eq, (after_weight hcs directed aligned ops hU hu ((h3 v).1 hv).1).1, okD_ok]

theorem main_strIn [AddCommGroup W] [LawfulIntNames α] {cs : List (Coupling α W)} {directed aligned : Bool}
    {ops : List (POp α W)}
    (hU : Spec.Usable cs aligned ops) (hs : Spec.NoIntraSelf ops) (hal : aligned = true ∨ ∃ w, cs = [.categorical w])
    {u : List α} (hu : Spec.HasNodeLayer cs.length aligned ops u) :
    (afterP cs directed 0 aligned ops).strIn u none = .ok
      (∑ᶠ v ∈ {v | Spec.HasNodeLayer cs.length aligned ops v ∧ Spec.Linked cs directed aligned ops v u},
        Spec.weight cs directed aligned ops v u) := by
  have hcs := hU.some_aspect
  have hpar := after_params hcs directed 0 aligned ops
  unfold MPlex.strIn
  rw [hpar.2.1]
  cases directed with
  | true =>
    obtain ⟨l, h1, h2, h3⟩ := main_inDir (directed := true) hU hs hal hu
    have g := after_good hcs true aligned ops hU hs hal
    rw [if_pos rfl, MNet.finsum_of_list h2 h3]
    rw [strIn_spec (g.1 u (reg_cases hcs true 0 aligned ops hu).1)
      (fun a ha l hl => (after_dimStrength hcs true aligned ops hU hs hal hu a ha l hl .inn).2) h1]
    congr 2
    refine List.map_congr_left fun v hv => ?_
    rw [R_eq, (after_weight hcs true aligned ops hU ((h3 v).1 hv).1 hu).1, okD_ok]
  | false =>
    rw [if_neg (by simp), main_strOut hU hs hal hu]
    obtain ⟨l, h1, h2, h3⟩ := main_out (directed := false) hU hs hal hu
    obtain ⟨l', h1', h2', h3'⟩ := main_in (directed := false) hU hs hal hu
    have e : {v | Spec.HasNodeLayer cs.length aligned ops v ∧ Spec.Linked cs false aligned ops v u} =
        {v | Spec.HasNodeLayer cs.length aligned ops v ∧ Spec.Linked cs false aligned ops u v} := by
      ext v
      exact and_congr_right fun hv => main_linked_symm hU hs hal hv hu
    rw [e]
    congr 1
    refine finsum_congr fun v => ?_
    refine finsum_congr_Prop rfl fun hv => ?_
    exact R_symm_after hcs false aligned ops hU hs hal rfl hu hv.1

theorem main_str [AddCommGroup W] [LawfulIntNames α] {cs : List (Coupling α W)} {aligned : Bool}
    {ops : List (POp α W)}
    (hU : Spec.Usable cs aligned ops) (hs : Spec.NoIntraSelf ops) (hal : aligned = true ∨ ∃ w, cs = [.categorical w])
    {u : List α} (hu : Spec.HasNodeLayer cs.length aligned ops u) :
    (afterP cs false 0 aligned ops).str u none = .ok
      (∑ᶠ v ∈ {v | Spec.HasNodeLayer cs.length aligned ops v ∧ Spec.Linked cs false aligned ops u v},
        Spec.weight cs false aligned ops u v) := by
  have hpar := after_params hU.some_aspect false 0 aligned ops
  rw [← main_strOut hU hs hal hu]
  unfold MPlex.str
  rw [hpar.2.1]; rfl

theorem main_weight [Zero W] [LawfulIntNames α] {cs : List (Coupling α W)} {directed aligned : Bool} {ops : List (POp α W)}
    (hU : Spec.Usable cs aligned ops) {u v : List α} (hu : Spec.HasNodeLayer cs.length aligned ops u)
    (hv : Spec.HasNodeLayer cs.length aligned ops v) {w : W} (h : Spec.LinkWeight cs directed aligned ops u v w) :
    Spec.weight cs directed aligned ops u v = w :=
  weight_of_linkWeight hU.some_aspect directed aligned ops hU hu hv h

theorem usable_categorical [Zero W] [IntNames α] {cs : List (Coupling α W)} {aligned : Bool} {ops : List (POp α W)}
    (hcs : cs ≠ []) (hcat : ∀ c ∈ cs, ∃ w, w ≠ 0 ∧ c = .categorical w) : Spec.Usable cs aligned ops where
  some_aspect := hcs
  kind c hc := by obtain ⟨w, h, h'⟩ := hcat c hc; exact ⟨w, h, Or.inl h'⟩
  ints d w x hd := by
    obtain ⟨w', -, h'⟩ := hcat _ (List.mem_of_getElem? hd)
    cases h'

/-! ### C20 -/

/-- **C20** (categorical couplings, node-aligned). A link between node-layers in the network reads its specified weight, and 0 if there is none. -/
theorem C20_read [Zero W] [LawfulIntNames α] (directed : Bool) {ops : List (POp α W)} {cs : List (Coupling α W)} (hcs : cs ≠ [])
    (hcat : ∀ c ∈ cs, ∃ w, w ≠ 0 ∧ c = .categorical w)
    {u v : List α} (hu : Spec.HasNodeLayer cs.length true ops u) (hv : Spec.HasNodeLayer cs.length true ops v)
    {item : List α} (ha : Spec.Addresses cs.length item u v) :
    (∀ x, Spec.LinkWeight cs directed true ops u v x → (afterP cs directed 0 true ops).view.readItem item = .ok (.weight x)) ∧
    (¬ Spec.Linked cs directed true ops u v → (afterP cs directed 0 true ops).view.readItem item = .ok (.weight 0)) :=
  main_read (usable_categorical hcs hcat) hu hv ha

/-- **C20** (categorical couplings, node-aligned). The specified weight is unique. -/
theorem C20_weight [Zero W] [LawfulIntNames α] (directed : Bool) {ops : List (POp α W)} {cs : List (Coupling α W)} (hcs : cs ≠ [])
    (hcat : ∀ c ∈ cs, ∃ w, w ≠ 0 ∧ c = .categorical w)
    {u v : List α} (hu : Spec.HasNodeLayer cs.length true ops u) (hv : Spec.HasNodeLayer cs.length true ops v) {x : W}
    (h : Spec.LinkWeight cs directed true ops u v x) :
    Spec.weight cs directed true ops u v = x :=
  main_weight (usable_categorical hcs hcat) hu hv h

/-- **C20** (categorical couplings, node-aligned). `iter_out` yields exactly the node-layers linked to, once each. -/
theorem C20_iter_out [Zero W] [LawfulIntNames α] (directed : Bool) {ops : List (POp α W)} {cs : List (Coupling α W)} (hcs : cs ≠ [])
    (hcat : ∀ c ∈ cs, ∃ w, w ≠ 0 ∧ c = .categorical w)
    (hs : Spec.NoIntraSelf ops) {u : List α}
    (hu : Spec.HasNodeLayer cs.length true ops u) :
    ∃ l, (afterP cs directed 0 true ops).view.iterOut u none = .ok l ∧ l.Nodup ∧
      ∀ v, v ∈ l ↔ Spec.HasNodeLayer cs.length true ops v ∧ Spec.Linked cs directed true ops u v :=
  main_out (usable_categorical hcs hcat) hs (Or.inl rfl) hu

/-- **C20** (categorical couplings, node-aligned). `iter_in` yields exactly the node-layers linking to the node-layer, once each. -/
theorem C20_iter_in [Zero W] [LawfulIntNames α] (directed : Bool) {ops : List (POp α W)} {cs : List (Coupling α W)} (hcs : cs ≠ [])
    (hcat : ∀ c ∈ cs, ∃ w, w ≠ 0 ∧ c = .categorical w)
    (hs : Spec.NoIntraSelf ops) {u : List α}
    (hu : Spec.HasNodeLayer cs.length true ops u) :
    ∃ l, (afterP cs directed 0 true ops).view.iterIn u none = .ok l ∧ l.Nodup ∧
      ∀ v, v ∈ l ↔ Spec.HasNodeLayer cs.length true ops v ∧ Spec.Linked cs directed true ops v u :=
  main_in (usable_categorical hcs hcat) hs (Or.inl rfl) hu

/-- **C20** (categorical couplings, node-aligned). Plain iteration yields exactly the in- or out-neighbours, once each. -/
theorem C20_iter_total [Zero W] [LawfulIntNames α] (directed : Bool) {ops : List (POp α W)} {cs : List (Coupling α W)} (hcs : cs ≠ [])
    (hcat : ∀ c ∈ cs, ∃ w, w ≠ 0 ∧ c = .categorical w)
    (hs : Spec.NoIntraSelf ops) {u : List α}
    (hu : Spec.HasNodeLayer cs.length true ops u) :
    ∃ l, (afterP cs directed 0 true ops).view.iterTotal u none = .ok l ∧ l.Nodup ∧
      ∀ v, v ∈ l ↔ Spec.HasNodeLayer cs.length true ops v ∧ (Spec.Linked cs directed true ops u v ∨ Spec.Linked cs directed true ops v u) :=
  main_total (usable_categorical hcs hcat) hs (Or.inl rfl) hu

/-- **C20** (categorical couplings, node-aligned). `deg_out` is the number of node-layers linked to. -/
theorem C20_deg_out [Zero W] [LawfulIntNames α] (directed : Bool) {ops : List (POp α W)} {cs : List (Coupling α W)} (hcs : cs ≠ [])
    (hcat : ∀ c ∈ cs, ∃ w, w ≠ 0 ∧ c = .categorical w)
    (hs : Spec.NoIntraSelf ops) {u : List α}
    (hu : Spec.HasNodeLayer cs.length true ops u) :
    (afterP cs directed 0 true ops).view.degOut u none =
      .ok ({v | Spec.HasNodeLayer cs.length true ops v ∧ Spec.Linked cs directed true ops u v}.ncard : Int) :=
  main_degOut (usable_categorical hcs hcat) hs (Or.inl rfl) hu

/-- **C20** (categorical couplings, node-aligned). `deg_in` is the number of node-layers linking to the node-layer. -/
theorem C20_deg_in [Zero W] [LawfulIntNames α] (directed : Bool) {ops : List (POp α W)} {cs : List (Coupling α W)} (hcs : cs ≠ [])
    (hcat : ∀ c ∈ cs, ∃ w, w ≠ 0 ∧ c = .categorical w)
    (hs : Spec.NoIntraSelf ops) {u : List α}
    (hu : Spec.HasNodeLayer cs.length true ops u) :
    (afterP cs directed 0 true ops).view.degIn u none =
      .ok ({v | Spec.HasNodeLayer cs.length true ops v ∧ Spec.Linked cs directed true ops v u}.ncard : Int) :=
  main_degIn (usable_categorical hcs hcat) hs (Or.inl rfl) hu

/-- **C20** (categorical couplings, node-aligned). `deg` of an undirected network is the number of neighbours. -/
theorem C20_deg_undirected [Zero W] [LawfulIntNames α] {ops : List (POp α W)} {cs : List (Coupling α W)} (hcs : cs ≠ [])
    (hcat : ∀ c ∈ cs, ∃ w, w ≠ 0 ∧ c = .categorical w)
    (hs : Spec.NoIntraSelf ops) {u : List α}
    (hu : Spec.HasNodeLayer cs.length true ops u) :
    (afterP cs false 0 true ops).view.deg u none =
      .ok ({v | Spec.HasNodeLayer cs.length true ops v ∧ Spec.Linked cs false true ops u v}.ncard : Int) :=
  main_deg (usable_categorical hcs hcat) hs (Or.inl rfl) hu

/-- **C20** (categorical couplings, node-aligned). `str_out` is the sum of the weights of the outgoing links. -/
theorem C20_str_out [AddCommGroup W] [LawfulIntNames α] (directed : Bool) {ops : List (POp α W)} {cs : List (Coupling α W)} (hcs : cs ≠ [])
    (hcat : ∀ c ∈ cs, ∃ w, w ≠ 0 ∧ c = .categorical w)
    (hs : Spec.NoIntraSelf ops) {u : List α}
    (hu : Spec.HasNodeLayer cs.length true ops u) :
    (afterP cs directed 0 true ops).strOut u none =
      .ok (∑ᶠ v ∈ {v | Spec.HasNodeLayer cs.length true ops v ∧ Spec.Linked cs directed true ops u v}, Spec.weight cs directed true ops u v) :=
  main_strOut (usable_categorical hcs hcat) hs (Or.inl rfl) hu

/-- **C20** (categorical couplings, node-aligned). `str_in` is the sum of the weights of the incoming links. -/
theorem C20_str_in [AddCommGroup W] [LawfulIntNames α] (directed : Bool) {ops : List (POp α W)} {cs : List (Coupling α W)} (hcs : cs ≠ [])
    (hcat : ∀ c ∈ cs, ∃ w, w ≠ 0 ∧ c = .categorical w)
    (hs : Spec.NoIntraSelf ops) {u : List α}
    (hu : Spec.HasNodeLayer cs.length true ops u) :
    (afterP cs directed 0 true ops).strIn u none =
      .ok (∑ᶠ v ∈ {v | Spec.HasNodeLayer cs.length true ops v ∧ Spec.Linked cs directed true ops v u}, Spec.weight cs directed true ops v u) :=
  main_strIn (usable_categorical hcs hcat) hs (Or.inl rfl) hu

/-- **C20** (categorical couplings, node-aligned). `str` of an undirected network is the sum of the weights of its links. -/
theorem C20_str_undirected [AddCommGroup W] [LawfulIntNames α] {ops : List (POp α W)} {cs : List (Coupling α W)} (hcs : cs ≠ [])
    (hcat : ∀ c ∈ cs, ∃ w, w ≠ 0 ∧ c = .categorical w)
    (hs : Spec.NoIntraSelf ops) {u : List α}
    (hu : Spec.HasNodeLayer cs.length true ops u) :
    (afterP cs false 0 true ops).str u none =
      .ok (∑ᶠ v ∈ {v | Spec.HasNodeLayer cs.length true ops v ∧ Spec.Linked cs false true ops u v}, Spec.weight cs false true ops u v) :=
  main_str (usable_categorical hcs hcat) hs (Or.inl rfl) hu

/-! ### C21 -/

/-- **C21** (ordinal (and mixed) couplings, node-aligned). A link between node-layers in the network reads its specified weight, and 0 if there is none. -/
theorem C21_read [Zero W] [LawfulIntNames α] (directed : Bool) {ops : List (POp α W)} {cs : List (Coupling α W)}
    (hU : Spec.Usable cs true ops)
    {u v : List α} (hu : Spec.HasNodeLayer cs.length true ops u) (hv : Spec.HasNodeLayer cs.length true ops v)
    {item : List α} (ha : Spec.Addresses cs.length item u v) :
    (∀ x, Spec.LinkWeight cs directed true ops u v x → (afterP cs directed 0 true ops).view.readItem item = .ok (.weight x)) ∧
    (¬ Spec.Linked cs directed true ops u v → (afterP cs directed 0 true ops).view.readItem item = .ok (.weight 0)) :=
  main_read hU hu hv ha

/-- **C21** (ordinal (and mixed) couplings, node-aligned). The specified weight is unique. -/
theorem C21_weight [Zero W] [LawfulIntNames α] (directed : Bool) {ops : List (POp α W)} {cs : List (Coupling α W)}
    (hU : Spec.Usable cs true ops)
    {u v : List α} (hu : Spec.HasNodeLayer cs.length true ops u) (hv : Spec.HasNodeLayer cs.length true ops v) {x : W}
    (h : Spec.LinkWeight cs directed true ops u v x) :
    Spec.weight cs directed true ops u v = x :=
  main_weight hU hu hv h

/-- **C21** (ordinal (and mixed) couplings, node-aligned). `iter_out` yields exactly the node-layers linked to, once each. -/
theorem C21_iter_out [Zero W] [LawfulIntNames α] (directed : Bool) {ops : List (POp α W)} {cs : List (Coupling α W)}
    (hU : Spec.Usable cs true ops)
    (hs : Spec.NoIntraSelf ops) {u : List α}
    (hu : Spec.HasNodeLayer cs.length true ops u) :
    ∃ l, (afterP cs directed 0 true ops).view.iterOut u none = .ok l ∧ l.Nodup ∧
      ∀ v, v ∈ l ↔ Spec.HasNodeLayer cs.length true ops v ∧ Spec.Linked cs directed true ops u v :=
  main_out hU hs (Or.inl rfl) hu

/-- **C21** (ordinal (and mixed) couplings, node-aligned). `iter_in` yields exactly the node-layers linking to the node-layer, once each. -/
theorem C21_iter_in [Zero W] [LawfulIntNames α] (directed : Bool) {ops : List (POp α W)} {cs : List (Coupling α W)}
    (hU : Spec.Usable cs true ops)
    (hs : Spec.NoIntraSelf ops) {u : List α}
    (hu : Spec.HasNodeLayer cs.length true ops u) :
    ∃ l, (afterP cs directed 0 true ops).view.iterIn u none = .ok l ∧ l.Nodup ∧
      ∀ v, v ∈ l ↔ Spec.HasNodeLayer cs.length true ops v ∧ Spec.Linked cs directed true ops v u :=
  main_in hU hs (Or.inl rfl) hu

/-- **C21** (ordinal (and mixed) couplings, node-aligned). Plain iteration yields exactly the in- or out-neighbours, once each. -/
theorem C21_iter_total [Zero W] [LawfulIntNames α] (directed : Bool) {ops : List (POp α W)} {cs : List (Coupling α W)}
    (hU : Spec.Usable cs true ops)
    (hs : Spec.NoIntraSelf ops) {u : List α}
    (hu : Spec.HasNodeLayer cs.length true ops u) :
    ∃ l, (afterP cs directed 0 true ops).view.iterTotal u none = .ok l ∧ l.Nodup ∧
      ∀ v, v ∈ l ↔ Spec.HasNodeLayer cs.length true ops v ∧ (Spec.Linked cs directed true ops u v ∨ Spec.Linked cs directed true ops v u) :=
  main_total hU hs (Or.inl rfl) hu

/-- **C21** (ordinal (and mixed) couplings, node-aligned). `deg_out` is the number of node-layers linked to. -/
theorem C21_deg_out [Zero W] [LawfulIntNames α] (directed : Bool) {ops : List (POp α W)} {cs : List (Coupling α W)}
    (hU : Spec.Usable cs true ops)
    (hs : Spec.NoIntraSelf ops) {u : List α}
    (hu : Spec.HasNodeLayer cs.length true ops u) :
    (afterP cs directed 0 true ops).view.degOut u none =
      .ok ({v | Spec.HasNodeLayer cs.length true ops v ∧ Spec.Linked cs directed true ops u v}.ncard : Int) :=
  main_degOut hU hs (Or.inl rfl) hu

/-- **C21** (ordinal (and mixed) couplings, node-aligned). `deg_in` is the number of node-layers linking to the node-layer. -/
theorem C21_deg_in [Zero W] [LawfulIntNames α] (directed : Bool) {ops : List (POp α W)} {cs : List (Coupling α W)}
    (hU : Spec.Usable cs true ops)
    (hs : Spec.NoIntraSelf ops) {u : List α}
    (hu : Spec.HasNodeLayer cs.length true ops u) :
    (afterP cs directed 0 true ops).view.degIn u none =
      .ok ({v | Spec.HasNodeLayer cs.length true ops v ∧ Spec.Linked cs directed true ops v u}.ncard : Int) :=
  main_degIn hU hs (Or.inl rfl) hu

/-- **C21** (ordinal (and mixed) couplings, node-aligned). `deg` of an undirected network is the number of neighbours. -/
theorem C21_deg_undirected [Zero W] [LawfulIntNames α] {ops : List (POp α W)} {cs : List (Coupling α W)}
    (hU : Spec.Usable cs true ops)
    (hs : Spec.NoIntraSelf ops) {u : List α}
    (hu : Spec.HasNodeLayer cs.length true ops u) :
    (afterP cs false 0 true ops).view.deg u none =
      .ok ({v | Spec.HasNodeLayer cs.length true ops v ∧ Spec.Linked cs false true ops u v}.ncard : Int) :=
  main_deg hU hs (Or.inl rfl) hu

/-- **C21** (ordinal (and mixed) couplings, node-aligned). `str_out` is the sum of the weights of the outgoing links. -/
theorem C21_str_out [AddCommGroup W] [LawfulIntNames α] (directed : Bool) {ops : List (POp α W)} {cs : List (Coupling α W)}
    (hU : Spec.Usable cs true ops)
    (hs : Spec.NoIntraSelf ops) {u : List α}
    (hu : Spec.HasNodeLayer cs.length true ops u) :
    (afterP cs directed 0 true ops).strOut u none =
      .ok (∑ᶠ v ∈ {v | Spec.HasNodeLayer cs.length true ops v ∧ Spec.Linked cs directed true ops u v}, Spec.weight cs directed true ops u v) :=
  main_strOut hU hs (Or.inl rfl) hu

/-- **C21** (ordinal (and mixed) couplings, node-aligned). `str_in` is the sum of the weights of the incoming links. -/
theorem C21_str_in [AddCommGroup W] [LawfulIntNames α] (directed : Bool) {ops : List (POp α W)} {cs : List (Coupling α W)}
    (hU : Spec.Usable cs true ops)
    (hs : Spec.NoIntraSelf ops) {u : List α}
    (hu : Spec.HasNodeLayer cs.length true ops u) :
    (afterP cs directed 0 true ops).strIn u none =
      .ok (∑ᶠ v ∈ {v | Spec.HasNodeLayer cs.length true ops v ∧ Spec.Linked cs directed true ops v u}, Spec.weight cs directed true ops v u) :=
  main_strIn hU hs (Or.inl rfl) hu

/-- **C21** (ordinal (and mixed) couplings, node-aligned). `str` of an undirected network is the sum of the weights of its links. -/
theorem C21_str_undirected [AddCommGroup W] [LawfulIntNames α] {ops : List (POp α W)} {cs : List (Coupling α W)}
    (hU : Spec.Usable cs true ops)
    (hs : Spec.NoIntraSelf ops) {u : List α}
    (hu : Spec.HasNodeLayer cs.length true ops u) :
    (afterP cs false 0 true ops).str u none =
      .ok (∑ᶠ v ∈ {v | Spec.HasNodeLayer cs.length true ops v ∧ Spec.Linked cs false true ops u v}, Spec.weight cs false true ops u v) :=
  main_str hU hs (Or.inl rfl) hu

/-! ### C22 -/

/-- **C22** (one categorical aspect, not node-aligned). A link between node-layers in the network reads its specified weight, and 0 if there is none. -/
theorem C22_read_partial [Zero W] [LawfulIntNames α] (directed : Bool) {ops : List (POp α W)} {w : W} (hw : w ≠ 0)
    {u v : List α} (hu : Spec.HasNodeLayer 1 false ops u) (hv : Spec.HasNodeLayer 1 false ops v)
    {item : List α} (ha : Spec.Addresses 1 item u v) :
    (∀ x, Spec.LinkWeight [.categorical w] directed false ops u v x → (afterP [.categorical w] directed 0 false ops).view.readItem item = .ok (.weight x)) ∧
    (¬ Spec.Linked [.categorical w] directed false ops u v → (afterP [.categorical w] directed 0 false ops).view.readItem item = .ok (.weight 0)) :=
  main_read (cs := [.categorical w]) (usable_categorical (by simp) (by simpa using hw)) hu hv ha

/-- **C22** (one categorical aspect, not node-aligned). The specified weight is unique. -/
theorem C22_weight_partial [Zero W] [LawfulIntNames α] (directed : Bool) {ops : List (POp α W)} {w : W} (hw : w ≠ 0)
    {u v : List α} (hu : Spec.HasNodeLayer 1 false ops u) (hv : Spec.HasNodeLayer 1 false ops v) {x : W}
    (h : Spec.LinkWeight [.categorical w] directed false ops u v x) :
    Spec.weight [.categorical w] directed false ops u v = x :=
  main_weight (cs := [.categorical w]) (usable_categorical (by simp) (by simpa using hw)) hu hv h

/-- **C22** (one categorical aspect, not node-aligned). `iter_out` yields exactly the node-layers linked to, once each. -/
theorem C22_iter_out_partial [Zero W] [LawfulIntNames α] (directed : Bool) {ops : List (POp α W)} {w : W} (hw : w ≠ 0)
    (hs : Spec.NoIntraSelf ops) {u : List α}
    (hu : Spec.HasNodeLayer 1 false ops u) :
    ∃ l, (afterP [.categorical w] directed 0 false ops).view.iterOut u none = .ok l ∧ l.Nodup ∧
      ∀ v, v ∈ l ↔ Spec.HasNodeLayer 1 false ops v ∧ Spec.Linked [.categorical w] directed false ops u v :=
  main_out (cs := [.categorical w]) (usable_categorical (by simp) (by simpa using hw)) hs (Or.inr ⟨w, rfl⟩) hu

/-- **C22** (one categorical aspect, not node-aligned). `iter_in` yields exactly the node-layers linking to the node-layer, once each. -/
theorem C22_iter_in_partial [Zero W] [LawfulIntNames α] (directed : Bool) {ops : List (POp α W)} {w : W} (hw : w ≠ 0)
    (hs : Spec.NoIntraSelf ops) {u : List α}
    (hu : Spec.HasNodeLayer 1 false ops u) :
    ∃ l, (afterP [.categorical w] directed 0 false ops).view.iterIn u none = .ok l ∧ l.Nodup ∧
      ∀ v, v ∈ l ↔ Spec.HasNodeLayer 1 false ops v ∧ Spec.Linked [.categorical w] directed false ops v u :=
  main_in (cs := [.categorical w]) (usable_categorical (by simp) (by simpa using hw)) hs (Or.inr ⟨w, rfl⟩) hu

/-- **C22** (one categorical aspect, not node-aligned). Plain iteration yields exactly the in- or out-neighbours, once each. -/
theorem C22_iter_total_partial [Zero W] [LawfulIntNames α] (directed : Bool) {ops : List (POp α W)} {w : W} (hw : w ≠ 0)
    (hs : Spec.NoIntraSelf ops) {u : List α}
    (hu : Spec.HasNodeLayer 1 false ops u) :
    ∃ l, (afterP [.categorical w] directed 0 false ops).view.iterTotal u none = .ok l ∧ l.Nodup ∧
      ∀ v, v ∈ l ↔ Spec.HasNodeLayer 1 false ops v ∧ (Spec.Linked [.categorical w] directed false ops u v ∨ Spec.Linked [.categorical w] directed false ops v u) :=
  main_total (cs := [.categorical w]) (usable_categorical (by simp) (by simpa using hw)) hs (Or.inr ⟨w, rfl⟩) hu

/-- **C22** (one categorical aspect, not node-aligned). `deg_out` is the number of node-layers linked to. -/
theorem C22_deg_out_partial [Zero W] [LawfulIntNames α] (directed : Bool) {ops : List (POp α W)} {w : W} (hw : w ≠ 0)
    (hs : Spec.NoIntraSelf ops) {u : List α}
    (hu : Spec.HasNodeLayer 1 false ops u) :
    (afterP [.categorical w] directed 0 false ops).view.degOut u none =
      .ok ({v | Spec.HasNodeLayer 1 false ops v ∧ Spec.Linked [.categorical w] directed false ops u v}.ncard : Int) :=
  main_degOut (cs := [.categorical w]) (usable_categorical (by simp) (by simpa using hw)) hs (Or.inr ⟨w, rfl⟩) hu

/-- **C22** (one categorical aspect, not node-aligned). `deg_in` is the number of node-layers linking to the node-layer. -/
theorem C22_deg_in_partial [Zero W] [LawfulIntNames α] (directed : Bool) {ops : List (POp α W)} {w : W} (hw : w ≠ 0)
    (hs : Spec.NoIntraSelf ops) {u : List α}
    (hu : Spec.HasNodeLayer 1 false ops u) :
    (afterP [.categorical w] directed 0 false ops).view.degIn u none =
      .ok ({v | Spec.HasNodeLayer 1 false ops v ∧ Spec.Linked [.categorical w] directed false ops v u}.ncard : Int) :=
  main_degIn (cs := [.categorical w]) (usable_categorical (by simp) (by simpa using hw)) hs (Or.inr ⟨w, rfl⟩) hu

/-- **C22** (one categorical aspect, not node-aligned). `deg` of an undirected network is the number of neighbours. -/
theorem C22_deg_undirected_partial [Zero W] [LawfulIntNames α] {ops : List (POp α W)} {w : W} (hw : w ≠ 0)
    (hs : Spec.NoIntraSelf ops) {u : List α}
    (hu : Spec.HasNodeLayer 1 false ops u) :
    (afterP [.categorical w] false 0 false ops).view.deg u none =
      .ok ({v | Spec.HasNodeLayer 1 false ops v ∧ Spec.Linked [.categorical w] false false ops u v}.ncard : Int) :=
  main_deg (cs := [.categorical w]) (usable_categorical (by simp) (by simpa using hw)) hs (Or.inr ⟨w, rfl⟩) hu

/-- **C22** (one categorical aspect, not node-aligned). `str_out` is the sum of the weights of the outgoing links. -/
theorem C22_str_out_partial [AddCommGroup W] [LawfulIntNames α] (directed : Bool) {ops : List (POp α W)} {w : W} (hw : w ≠ 0)
    (hs : Spec.NoIntraSelf ops) {u : List α}
    (hu : Spec.HasNodeLayer 1 false ops u) :
    (afterP [.categorical w] directed 0 false ops).strOut u none =
      .ok (∑ᶠ v ∈ {v | Spec.HasNodeLayer 1 false ops v ∧ Spec.Linked [.categorical w] directed false ops u v}, Spec.weight [.categorical w] directed false ops u v) :=
  main_strOut (cs := [.categorical w]) (usable_categorical (by simp) (by simpa using hw)) hs (Or.inr ⟨w, rfl⟩) hu

/-- **C22** (one categorical aspect, not node-aligned). `str_in` is the sum of the weights of the incoming links. -/
theorem C22_str_in_partial [AddCommGroup W] [LawfulIntNames α] (directed : Bool) {ops : List (POp α W)} {w : W} (hw : w ≠ 0)
    (hs : Spec.NoIntraSelf ops) {u : List α}
    (hu : Spec.HasNodeLayer 1 false ops u) :
    (afterP [.categorical w] directed 0 false ops).strIn u none =
      .ok (∑ᶠ v ∈ {v | Spec.HasNodeLayer 1 false ops v ∧ Spec.Linked [.categorical w] directed false ops v u}, Spec.weight [.categorical w] directed false ops v u) :=
  main_strIn (cs := [.categorical w]) (usable_categorical (by simp) (by simpa using hw)) hs (Or.inr ⟨w, rfl⟩) hu

/-- **C22** (one categorical aspect, not node-aligned). `str` of an undirected network is the sum of the weights of its links. -/
theorem C22_str_undirected_partial [AddCommGroup W] [LawfulIntNames α] {ops : List (POp α W)} {w : W} (hw : w ≠ 0)
    (hs : Spec.NoIntraSelf ops) {u : List α}
    (hu : Spec.HasNodeLayer 1 false ops u) :
    (afterP [.categorical w] false 0 false ops).str u none =
      .ok (∑ᶠ v ∈ {v | Spec.HasNodeLayer 1 false ops v ∧ Spec.Linked [.categorical w] false false ops u v}, Spec.weight [.categorical w] false false ops u v) :=
  main_str (cs := [.categorical w]) (usable_categorical (by simp) (by simpa using hw)) hs (Or.inr ⟨w, rfl⟩) hu



end Pymnet
