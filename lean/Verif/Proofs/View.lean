import Verif.Proofs.Edges

/-! A reachable `MultilayerNetwork` has a sound dispatch table. -/

set_option linter.unusedSectionVars false
set_option linter.unusedSimpArgs false

namespace Pymnet

open Py

variable {α W : Type} [DecidableEq α] [DecidableEq W]

namespace MNet

theorem forall₂_iff_getElem {β γ : Type} {p : β → γ → Prop} {l : List β} {l' : List γ} :
    List.Forall₂ p l l' ↔ l.length = l'.length ∧
      ∀ (i : Nat) x y, l[i]? = some x → l'[i]? = some y → p x y := by
  induction l generalizing l' with
  | nil => cases l' <;> simp
  | cons a l ih =>
    cases l' with
    | nil => simp
    | cons b l' =>
      rw [List.forall₂_cons, ih]
      simp only [List.length_cons, Nat.add_right_cancel_iff]
      constructor
      · rintro ⟨h1, h2, h3⟩
        refine ⟨h2, fun i x y hx hy => ?_⟩
        cases i with
        | zero => simp at hx hy; subst hx; subst hy; exact h1
        | succ i => exact h3 i x y (by simpa using hx) (by simpa using hy)
      · rintro ⟨h2, h3⟩
        exact ⟨h3 0 a b (by simp) (by simp), h2, fun i x y hx hy => h3 (i + 1) x y (by simpa) (by simpa)⟩

theorem reg_iff {m : MNet α W} (h : m.RInv) (nl : List α) : m.Reg nl ↔ nl ∈ product m.slices := by
  rw [mem_product, forall₂_iff_getElem, Reg, h.slen]
  refine and_congr_right fun hl => ?_
  constructor
  · intro h1 i x y hx hy
    obtain ⟨s, hs, hm⟩ := h1 i x hx
    rw [hs] at hy; cases hy; exact hm
  · intro h1 i x hx
    have hi : i < m.slices.length := by
      rw [h.slen, ← hl]; exact (List.getElem?_eq_some_iff.1 hx).1
    exact ⟨m.slices[i], by simp [hi], h1 i x _ hx (by simp [hi])⟩

theorem slices_split {m : MNet α W} (h : m.RInv) :
    m.slices = m.slices.headD [] :: m.slices.drop 1 := by
  cases hs : m.slices with
  | nil => have := h.slen; rw [hs] at this; simp at this
  | cons a t => simp

theorem iterLayers_toList {m : MNet α W} (h : m.RInv) (ha : 1 ≤ m.aspects) :
    m.iterLayers = (product (m.slices.drop 1)).map LKey.ofList := by
  unfold iterLayers
  by_cases h1 : 1 < m.aspects
  · rw [if_pos h1]
    apply List.map_congr_left
    intro l hl
    have := length_of_mem_product hl
    rw [List.length_drop, h.slen] at this
    match l, this with
    | [], e => simp at e; omega
    | [a], e => simp at e; omega
    | a :: b :: t, _ => rfl
  · have e1 : m.aspects = 1 := by omega
    rw [if_neg h1, if_pos e1]
    have hl := h.slen
    rw [e1] at hl
    match hs : m.slices, hl with
    | [s0, s1], _ =>
      simp only [List.getD_eq_getElem?_getD, List.getElem?_cons_succ, List.getElem?_cons_zero,
        Option.getD_some, List.drop_succ_cons, List.drop_zero]
      have : product [s1] = s1.map fun a => [a] := by
        simp only [product, List.map_cons, List.map_nil]
        exact View.flatMap_single s1 _
      rw [this, List.map_map]; rfl

theorem ofList_inj {l l' : List α} (h : LKey.ofList l = LKey.ofList l') : l = l' := by
  rw [← ofList_toList l, ← ofList_toList l', h]

theorem mem_drop_slices {m : MNet α W} (h : m.RInv) (t : List α) :
    t ∈ product (m.slices.drop 1) ↔ t.length = m.aspects ∧ ∀ i x, t[i]? = some x → m.inSlice (i + 1) x := by
  rw [mem_product, forall₂_iff_getElem, List.length_drop, h.slen]
  rw [Nat.add_sub_cancel]
  refine and_congr_right fun hl => ?_
  constructor
  · intro h1 i x hx
    have hi : i + 1 < m.slices.length := by
      have := (List.getElem?_eq_some_iff.1 hx).1
      rw [h.slen]; omega
    exact ⟨m.slices[i + 1], by simp [hi], h1 i x _ hx (by simp [Nat.add_comm 1 i, hi])⟩
  · intro h1 i x y hx hy
    obtain ⟨s, hs, hm⟩ := h1 i x hx
    rw [List.getElem?_drop, Nat.add_comm, hs] at hy
    cases hy; exact hm

theorem mem_nodeLayers {m : MNet α W} (h : m.RInv) (nl : List α) :
    nl ∈ m.nodeLayers ↔
      if m.fic then nl ∈ product m.slices
      else nl.length = m.aspects + 1 ∧ ∃ n t, nl = n :: t ∧ m.onLayer n (.ofList t) := by
  unfold nodeLayers
  cases hf : m.fic with
  | true => simp
  | false =>
    have ha : 1 ≤ m.aspects := by
      rcases Nat.eq_zero_or_pos m.aspects with h0 | h0
      · have := h.fic0 h0; rw [hf] at this; cases this
      · exact h0
    simp only [Bool.false_eq_true, if_false]
    rw [iterLayers_toList h ha]
    simp only [List.mem_flatMap, List.mem_map, iterNodes, hf, Bool.false_eq_true, if_false]
    constructor
    · rintro ⟨L, ⟨t, ht, rfl⟩, n, hn, rfl⟩
      rw [ofList_toList]
      rw [mem_drop_slices h] at ht
      exact ⟨by simp [ht.1], n, t, rfl, (h.n2l n _).2 hn⟩
    · rintro ⟨hl, n, t, rfl, hn⟩
      refine ⟨.ofList t, ⟨t, ?_, rfl⟩, n, (h.n2l n _).1 hn, by rw [ofList_toList]⟩
      rw [mem_drop_slices h]
      refine ⟨by simpa using hl, fun i x hx => (h.nlreg n _ hn).2 i x ?_⟩
      rw [ofList_toList]; exact hx

theorem nodeLayers_nodup {m : MNet α W} (h : m.RInv) : m.nodeLayers.Nodup := by
  unfold nodeLayers
  cases hf : m.fic with
  | true => simpa using nodup_product h.snodup
  | false =>
    have ha : 1 ≤ m.aspects := by
      rcases Nat.eq_zero_or_pos m.aspects with h0 | h0
      · have := h.fic0 h0; rw [hf] at this; cases this
      · exact h0
    simp only [Bool.false_eq_true, if_false]
    rw [iterLayers_toList h ha]
    rw [List.nodup_flatMap]
    constructor
    · intro L _
      simp only [iterNodes, hf, Bool.false_eq_true, if_false]
      exact (h.l2nnodup L).map (fun x y e => by simpa using e)
    · have hn : ((product (m.slices.drop 1)).map (LKey.ofList (α := α))).Nodup :=
        (nodup_product (fun s hs => h.snodup s (List.mem_of_mem_drop hs))).map (fun x y e => ofList_inj e)
      have hL : ∀ L ∈ (product (m.slices.drop 1)).map (LKey.ofList (α := α)), L = .ofList L.toList := by
        intro L hL
        obtain ⟨t, -, rfl⟩ := List.mem_map.1 hL
        rw [ofList_toList]
      refine List.Pairwise.imp_of_mem ?_ hn
      intro L L' hLm hLm' hne
      simp only [Function.onFun, List.disjoint_left, List.mem_map]
      rintro x ⟨n, -, rfl⟩ ⟨n', -, e⟩
      apply hne
      rw [hL L hLm, hL L' hLm']
      simp at e; rw [e.2]

theorem nodeLayers_sub {m : MNet α W} (h : m.RInv) {nl : List α} (hm : nl ∈ m.nodeLayers) :
    nl ∈ product m.slices := by
  rw [mem_nodeLayers h] at hm
  split at hm
  · exact hm
  · obtain ⟨hl, n, t, rfl, hn⟩ := hm
    rw [← reg_iff h]
    refine ⟨hl, fun i x hx => ?_⟩
    obtain ⟨h1, h2⟩ := h.nlreg n _ hn
    cases i with
    | zero => simp at hx; subst hx; exact h1
    | succ i => rw [ofList_toList] at h2; exact h2 i x (by simpa using hx)

/-- A reachable network is a sound view with link values `reads`. -/
theorem Inv.sound {m : MNet α W} (h : m.Inv) : m.view.Sound m.reads := by
  have nonempty : ∀ a, a ∈ product m.slices → a ≠ [] := by
    rintro a ha rfl
    have := length_of_mem_product ha
    rw [h.r.slen] at this; simp at this
  have lenP : ∀ a, a ∈ product m.slices → a.length = m.aspects + 1 := by
    intro a ha; rw [length_of_mem_product ha, h.r.slen]
  have inP : ∀ a b, (m.lk a b).isSome = true → a ∈ product m.slices ∧ b ∈ product m.slices := by
    intro a b hl
    obtain ⟨w, hw⟩ := Option.isSome_iff_exists.1 hl
    exact ⟨(reg_iff h.r a).1 (h.reg a b w hw).1, (reg_iff h.r b).1 (h.reg a b w hw).2⟩
  refine ⟨h.r.slen, h.r.snodup, ?_, ?_, ?_, ?_, ?_, ?_, ?_, ?_, ?_⟩
  · intro a _
    refine ⟨m.iterOut a none, rfl, iterOut_nodup h.l a none, fun b => ?_⟩
    rw [mem_iterOut, ← reads_ne_noEdge h.l]
    simp only [dimsOk, and_true]
    exact ⟨fun hb => ⟨(inP _ _ ((reads_ne_noEdge h.l ..).1 hb)).2, hb⟩, fun hb => hb.2⟩
  · intro a _
    refine ⟨m.iterIn a none, rfl, iterIn_nodup h.l a none, fun b => ?_⟩
    rw [mem_iterIn h.l, ← reads_ne_noEdge h.l]
    simp only [dimsOk, and_true]
    exact ⟨fun hb => ⟨(inP _ _ ((reads_ne_noEdge h.l ..).1 hb)).1, hb⟩, fun hb => hb.2⟩
  · intro a _
    refine ⟨m.iterTotal a none, rfl, iterTotal_nodup h.l a none, fun b => ?_⟩
    rw [mem_iterTotal h.l, ← reads_ne_noEdge h.l, ← reads_ne_noEdge h.l]
    simp only [dimsOk, and_true]
    refine ⟨fun hb => ⟨?_, hb⟩, fun hb => hb.2⟩
    rcases hb with hb | hb
    · exact (inP _ _ ((reads_ne_noEdge h.l ..).1 hb)).2
    · exact (inP _ _ ((reads_ne_noEdge h.l ..).1 hb)).1
  · intro a ha b hb _
    exact getLink_interleave m (by rw [lenP a ha, lenP b hb]) (nonempty a ha)
  · intro hd a _ b _
    unfold reads; rw [h.l.sym hd]
  · intro _ _ a _ l hl
    cases hl
    simp only [view, degOut, degDict_eq, iterOut]
  · intro _ _ a _ l hl
    cases hl
    simp only [view, degIn, degInDir, degOut, degDict_eq, iterIn, iterInDir, iterOut]
    split <;> rfl
  · intro hd _ _ a _ l hl
    cases hl
    have hd' : m.directed = false := hd
    simp only [view, deg, degOut, degDict_eq, iterTotal, hd', Bool.false_eq_true, if_false, iterOut]
  · refine ⟨m.nodeLayers, rfl, nodeLayers_nodup h.r, fun a ha => nodeLayers_sub h.r ha, ?_⟩
    intro a ha b hb hR
    change m.reads a b ≠ m.noEdge at hR
    rw [reads_ne_noEdge h.l] at hR
    obtain ⟨w, hw⟩ := Option.isSome_iff_exists.1 hR
    rw [mem_nodeLayers h.r, mem_nodeLayers h.r]
    cases hf : m.fic with
    | true => simpa using ⟨ha, hb⟩
    | false =>
      simp only [Bool.false_eq_true, if_false]
      exact ⟨⟨lenP a ha, (h.edgeNl hf a b w hw).1⟩, ⟨lenP b hb, (h.edgeNl hf a b w hw).2⟩⟩

end MNet

end Pymnet
