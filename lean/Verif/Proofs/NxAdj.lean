import Verif.Spec.NxAdj
import Verif.Proofs.ErLayers
import Verif.Proofs.Edges

/-! Networks shown to networkx. -/

set_option linter.unusedSectionVars false

namespace Pymnet

open Py

variable {α W : Type} [DecidableEq α] [DecidableEq W] {m : MNet α W} {z : W} {N N' : α → Prop} {w w' : α → α → W}

theorem Built.graph {S : Nat → α → Prop} {NL : List α → Prop} {R : List α → List α → W}
    (h : Built m 0 z false true S NL R) (hN : ∀ x, S 0 x ↔ N x) (hw : ∀ i j, R [i] [j] = w i j) : Spec.Graph m z N w := by
  have h' : Built m 0 z false true (fun k x => k = 0 ∧ N x) (fun _ => False) R :=
    Built.anyNL ⟨h.reach, fun k x => ?_, h.nl, h.rd⟩
  · have hl := h'.looks (fun _ => rfl) (fun h => (nomatch h))
    refine ⟨hl.reachable, ?_, fun i j => ?_⟩
    · obtain ⟨l, h1, h2, h3⟩ := hl.layers 0 le_rfl
      exact ⟨l, h1, h2, fun x => (h3 x).trans (by simp)⟩
    · rw [hl.reads [i, j] [i] [j] addresses_zero, hw]
  · rw [h.sl]
    constructor
    · intro hs
      have := h.inv.r.slen
      obtain ⟨s, e1, -⟩ := (h.sl k x).2 hs
      have h0 := (List.getElem?_eq_some_iff.1 e1).1
      have : k = 0 := by rw [this, h.params.1] at h0; omega
      subst this; exact ⟨rfl, (hN x).1 hs⟩
    · rintro ⟨rfl, hx⟩; exact (hN x).2 hx

namespace Spec.Graph

theorem inv (h : Graph m z N w) : m.Inv := by
  obtain ⟨ops, rfl⟩ := h.reachable; exact MNet.run_inv (MNet.init_inv ..) ops

theorem built (h : Graph m z N w) : Built m 0 z false true m.inSlice (fun _ => False) m.reads :=
  Built.anyNL (NL := fun _ => False) ⟨h.reachable, fun _ _ => Iff.rfl, fun _ h => (nomatch h), fun _ _ => rfl⟩

theorem inSlice (h : Graph m z N w) (x : α) : m.inSlice 0 x ↔ N x := by
  obtain ⟨l, h1, -, h3⟩ := h.nodes
  rw [← h3 x]
  unfold MNet.getLayers at h1
  unfold MNet.inSlice
  cases hs : m.slices[0]? with
  | none => rw [hs] at h1; cases h1
  | some s => rw [hs] at h1; cases h1; simp

theorem rd (h : Graph m z N w) (i j : α) : m.reads [i] [j] = w i j := by
  have h1 := h.reads i j
  have hl := MNet.getLink_interleave m (u := [i]) (v := [j]) rfl (by simp)
  have h2 := View.getItem_addresses (v := m.view) (item := [i, j]) (a := [i]) (b := [j])
    (by change Spec.Addresses m.aspects _ _ _; rw [h.built.params.1]; exact addresses_zero) hl
  rw [h1] at h2
  injection h2 with h2; injection h2 with h2
  exact h2.symm

theorem params (h : Graph m z N w) : m.aspects = 0 ∧ m.directed = false ∧ m.noEdge = z := by
  have := h.built.params; exact ⟨this.1, this.2.1, this.2.2.1⟩

/-- Every network that public calls can produce is a graph. -/
theorem of_reachable (z : W) (ops : List (Op α W)) :
    ∃ N w, Graph ((MNet.init 0 z false true).run ops : MNet α W) z N w := by
  have hb : Built ((MNet.init 0 z false true).run ops : MNet α W) 0 z false true _ (fun _ => False) _ :=
    Built.anyNL (NL := fun _ => False) ⟨⟨ops, rfl⟩, fun _ _ => Iff.rfl, fun _ h => (nomatch h), fun _ _ => rfl⟩
  exact ⟨_, _, hb.graph (fun _ => Iff.rfl) (fun _ _ => rfl)⟩

theorem lk_one (h : Graph m z N w) {a b : List α} (hl : (m.lk a b).isSome = true) : (∃ i, a = [i]) ∧ ∃ j, b = [j] := by
  have := MNet.lk_length h.inv hl
  rw [h.params.1] at this
  obtain ⟨h1, h2⟩ := this
  exact ⟨List.length_eq_one_iff.1 h1, List.length_eq_one_iff.1 h2⟩

theorem isSome (h : Graph m z N w) (i j : α) : (m.lk [i] [j]).isSome = true ↔ w i j ≠ z := by
  rw [← MNet.reads_ne_noEdge h.inv.l, h.rd, h.params.2.2]

theorem symm (h : Graph m z N w) (i j : α) : w i j = w j i := by
  rw [← h.rd, ← h.rd]
  unfold MNet.reads
  rw [h.inv.l.sym h.params.2.1]

theorem link_nodes (h : Graph m z N w) {i j : α} (hne : w i j ≠ z) : N i ∧ N j := by
  have hh := h.built.looks (fun _ => rfl) (fun h => (nomatch h))
  have := hh.linked (u := [i]) (v := [j]) (by simp) (by simp) (by rw [h.rd]; exact hne)
  have k1 := ((hh.mem_product [i]).1 this.1.1).2 0 i rfl
  have k2 := ((hh.mem_product [j]).1 this.2.1).2 0 j rfl
  exact ⟨(h.inSlice i).1 k1, (h.inSlice j).1 k2⟩

theorem iter (h : Graph m z N w) (u : α) :
    ∃ l, NxAdj.rowIter m u = .ok l ∧ l.Nodup ∧ ∀ v, v ∈ l ↔ w u v ≠ z := by
  have hone : ∀ b ∈ m.iterTotal [u] none, ∃ j, b = [j] := by
    intro b hb
    rcases ((MNet.mem_iterTotal h.inv.l _ _ _).1 hb).1 with h1 | h1
    · exact (h.lk_one h1).2
    · exact (h.lk_one h1).1
  refine ⟨(m.iterTotal [u] none).flatMap fun nl => nl.head?.toList, ?_, ?_, fun v => ?_⟩
  · change View.collect _ (m.iterTotal [u] none) = _
    refine View.collect_ok fun b hb => ?_
    obtain ⟨j, rfl⟩ := hone b hb
    rfl
  · rw [List.nodup_flatMap]
    refine ⟨fun b hb => ?_, ?_⟩
    · obtain ⟨j, rfl⟩ := hone b hb; simp
    · refine (MNet.iterTotal_nodup h.inv.l [u] none).imp_of_mem fun {a b} ha hb hab => ?_
      obtain ⟨i, rfl⟩ := hone a ha
      obtain ⟨j, rfl⟩ := hone b hb
      intro x hx hy
      simp at hx hy; subst hx; exact hab (by rw [hy])
  · rw [List.mem_flatMap]
    constructor
    · rintro ⟨b, hb, hv⟩
      obtain ⟨j, rfl⟩ := hone b hb
      simp only [List.head?_cons, Option.toList_some, List.mem_singleton] at hv
      subst hv
      rcases ((MNet.mem_iterTotal h.inv.l _ _ _).1 hb).1 with h1 | h1
      · exact (h.isSome _ _).1 h1
      · rw [h.symm]; exact (h.isSome _ _).1 h1
    · intro hne
      exact ⟨[v], (MNet.mem_iterTotal h.inv.l _ _ _).2 ⟨.inl ((h.isSome _ _).2 hne), trivial⟩, by simp⟩

theorem len (h : Graph m z N w) {u : α} {l : List α} (h2 : l.Nodup) (h3 : ∀ v, v ∈ l ↔ w u v ≠ z) :
    NxAdj.rowLen m u = .ok (l.length : Int) := by
  have hg := h
  obtain ⟨ops, rfl⟩ := h.reachable
  have := C04_deg_undirected 0 z true ops [u] (dims := none) trivial
  refine this.trans ?_
  rw [MNet.ncard_of_list (l := l.map fun v => [v]) (h2.map fun a b e => by simpa using e) (fun b => ?_), List.length_map]
  rw [List.mem_map, ← after_reads 0 z false true]
  constructor
  · rintro ⟨v, hv, rfl⟩
    refine ⟨?_, by simp [Spec.Allowed]⟩
    rw [show (after 0 z false true ops).reads [u] [v] = w u v from hg.rd u v]
    exact (h3 v).1 hv
  · rintro ⟨hne, -⟩
    have hn : ((MNet.init 0 z false true).run ops : MNet α W).reads [u] b ≠
        ((MNet.init 0 z false true).run ops : MNet α W).noEdge := by rw [hg.params.2.2]; exact hne
    obtain ⟨j, rfl⟩ := (hg.lk_one ((MNet.reads_ne_noEdge hg.inv.l ..).1 hn)).2
    refine ⟨j, (h3 j).2 ?_, rfl⟩
    rw [← hg.rd]; exact hne

theorem set (h : Graph m z N w) (u v : α) (c : W) (hok : u = v → c = z → w u u = z) :
    ∃ m', m.setItem [u, v] c = (m', none) ∧ Graph m' z (fun x => N x ∨ x = u ∨ x = v) (Spec.relink w u v c) := by
  obtain ⟨m', e, hb⟩ := h.built.setItem (item := [u, v]) (u := [u]) (v := [v]) addresses_zero c
    (fun _ e1 e2 => by
      injection e1 with e1 _; subst e1
      rw [h.rd]; exact hok rfl e2)
  refine ⟨m', ?_, hb.graph (fun x => ?_) (fun i j => ?_)⟩
  · unfold Outcome.toExcept at e
    generalize hr : m.setItem [u, v] c = r at e
    obtain ⟨r1, r2⟩ := r
    cases r2 with
    | none => injection e with e; subst e; rfl
    | some x => cases e
  · simp only [h.inSlice, List.getElem?_cons_zero, Option.some.injEq, eq_comm]
  · simp only [Spec.relink, List.cons.injEq, and_true, true_and, h.rd]

theorem set_err (h : Graph m z N w) (u : α) (hne : w u u ≠ z) :
    (m.setItem [u, u] z).2 = some .keyError := by
  have := (MNet.setItem_spec h.inv (item := [u, u]) (u := [u]) (v := [u])
    (by rw [h.params.1]; exact addresses_zero) z).1
  rw [this, if_pos ⟨h.params.2.2.symm, h.params.2.1, rfl, (h.isSome u u).2 hne⟩]

theorem add (h : Graph m z N w) (u : α) :
    ∃ m', (m.addNode u none).toExcept = .ok m' ∧ Graph m' z (fun x => N x ∨ x = u) w := by
  obtain ⟨m', e, hb⟩ := h.built.addNode u
  exact ⟨m', e, hb.graph (fun x => by simp [h.inSlice]) h.rd⟩

theorem congr (h : Graph m z N w) (hN : ∀ x, N x ↔ N' x) (hw : ∀ i j, w i j = w' i j) : Graph m z N' w' := by
  obtain ⟨l, h1, h2, h3⟩ := h.nodes
  exact ⟨h.reachable, ⟨l, h1, h2, fun x => (h3 x).trans (hN x)⟩, fun i j => by rw [h.reads, hw]⟩

end Spec.Graph

end Pymnet
