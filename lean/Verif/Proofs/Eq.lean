import Verif.Proofs.View

/-! Equality of networks. -/

set_option linter.unusedSectionVars false
set_option linter.unusedSimpArgs false

namespace Pymnet

open Py

variable {α W : Type} [DecidableEq α] [DecidableEq W]

/-! ### index tuples without colons -/

theorem vals?_map (l : List α) : View.vals? (l.map Idx.val) = some l := by
  induction l with
  | nil => rfl
  | cons a l ih => simp [View.vals?, ih]

theorem shortLinkToLink_map {β γ : Type} (f : β → γ) (l : List β) :
    shortLinkToLink (l.map f) = (shortLinkToLink l).map f := by
  unfold shortLinkToLink
  rw [← List.map_drop, List.flatMap_map, List.map_append, List.map_flatMap, List.map_take]
  rfl

theorem colon_notMem (l : List α) : Idx.colon ∉ l.map (Idx.val (α := α)) := by simp

/-- reading with an index tuple that addresses a link -/
theorem View.getItem_addresses {v : View α W} {item a b : List α} {w : W}
    (ha : Spec.Addresses v.aspects item a b) (hl : v.getLink (interleave a b) = .ok w) :
    v.readItem item = .ok (.weight w) := by
  obtain ⟨h1, h2, h3, h4⟩ := addresses_iff.1 ha
  unfold readItem getItem
  simp only [List.length_map]
  by_cases hc : item.length = 2 * (v.aspects + 1)
  · rw [if_neg (by omega), if_pos hc]
    rw [linkOf, if_pos hc] at h4
    unfold getFull
    rw [vals?_map, h4]
    simp only [hl]
  · have hs : item.length = v.aspects + 1 + 1 := by omega
    rw [if_neg (by omega), if_neg hc, if_pos hs]
    rw [linkOf, if_neg hc] at h4
    rw [if_pos (by rw [← List.map_drop]; exact colon_notMem _)]
    unfold getFull
    rw [shortLinkToLink_map, vals?_map, h4]
    simp only [hl]

/-- reading with an index tuple that addresses a link is reading the link, exception or not -/
theorem View.readItem_addresses {v : View α W} {item a b : List α} (ha : Spec.Addresses v.aspects item a b) :
    v.readItem item = (v.getLink (interleave a b)).map .weight := by
  cases hl : v.getLink (interleave a b) with
  | ok w => exact View.getItem_addresses ha hl
  | error e =>
    obtain ⟨h1, h2, h3, h4⟩ := addresses_iff.1 ha
    unfold readItem getItem
    simp only [List.length_map]
    by_cases hc : item.length = 2 * (v.aspects + 1)
    · rw [if_neg (by omega), if_pos hc]
      rw [linkOf, if_pos hc] at h4
      unfold getFull
      rw [vals?_map, h4]
      simp only [hl, Except.map]
    · have hs : item.length = v.aspects + 1 + 1 := by omega
      rw [if_neg (by omega), if_neg hc, if_pos hs]
      rw [linkOf, if_neg hc] at h4
      rw [if_pos (by rw [← List.map_drop]; exact colon_notMem _)]
      unfold getFull
      rw [shortLinkToLink_map, vals?_map, h4]
      simp only [hl, Except.map]

theorem addresses_interleave {aspects : Nat} {a b : List α} (ha : a.length = aspects + 1)
    (hb : b.length = aspects + 1) : Spec.Addresses aspects (interleave a b) a b :=
  ⟨ha, hb, Or.inl (interleave_eq_link a b)⟩

/-! ### sets -/

theorem setEq_iff {β : Type} [DecidableEq β] {s t : List β} : setEq s t = true ↔ ∀ x, x ∈ s ↔ x ∈ t := by
  simp only [setEq, Bool.and_eq_true, List.all_eq_true, decide_eq_true_eq]
  exact ⟨fun h x => ⟨h.1 x, h.2 x⟩, fun h => ⟨fun x => (h x).1, fun x => (h x).2⟩⟩

theorem slicesEq_iff {β : Type} [DecidableEq β] {s t : List (List β)} :
    slicesEq s t = true ↔ s.length = t.length ∧
      ∀ (i : Nat) a b, s[i]? = some a → t[i]? = some b → ∀ x, x ∈ a ↔ x ∈ b := by
  induction s generalizing t with
  | nil => cases t <;> simp [slicesEq]
  | cons a s ih =>
    cases t with
    | nil => simp [slicesEq]
    | cons b t =>
      simp only [slicesEq, Bool.and_eq_true, setEq_iff, ih, List.length_cons, Nat.add_right_cancel_iff]
      constructor
      · rintro ⟨h1, h2, h3⟩
        refine ⟨h2, fun i x y hx hy => ?_⟩
        cases i with
        | zero => simp at hx hy; subst hx; subst hy; exact h1
        | succ i => exact h3 i x y (by simpa using hx) (by simpa using hy)
      · rintro ⟨h2, h3⟩
        exact ⟨h3 0 a b (by simp) (by simp), h2, fun i x y hx hy => h3 (i + 1) x y (by simpa) (by simpa)⟩

theorem dictSetEq_iff {κ β : Type} [DecidableEq κ] [DecidableEq β] {d e : Dict κ (List β)}
    (hd : ∀ k s, Dict.get d k = some s → s ≠ []) (he : ∀ k s, Dict.get e k = some s → s ≠ []) :
    dictSetEq d e = true ↔ ∀ k x, x ∈ (Dict.get d k).getD [] ↔ x ∈ (Dict.get e k).getD [] := by
  unfold dictSetEq
  simp only [List.all_eq_true, List.mem_append]
  constructor
  · intro h k
    by_cases hk : k ∈ Dict.keys d ∨ k ∈ Dict.keys e
    · have := h k hk
      cases h1 : Dict.get d k <;> cases h2 : Dict.get e k <;> simp [h1, h2, setEq_iff] at this ⊢
      exact this
    · rw [not_or] at hk
      rw [Dict.get_eq_none.2 hk.1, Dict.get_eq_none.2 hk.2]; simp
  · intro h k _
    have := h k
    cases h1 : Dict.get d k with
    | none =>
      cases h2 : Dict.get e k with
      | none => rfl
      | some t =>
        simp [h1, h2] at this
        exact absurd (List.eq_nil_iff_forall_not_mem.2 this) (he k t h2)
    | some s =>
      cases h2 : Dict.get e k with
      | none =>
        simp [h1, h2] at this
        exact absurd (List.eq_nil_iff_forall_not_mem.2 this) (hd k s h1)
      | some t =>
        simp [h1, h2] at this
        exact setEq_iff.2 this

theorem Outcome.andThen_pres {σ : Type} {P : σ → Prop} {r : Outcome σ} {f : σ → Outcome σ}
    (h1 : P r.1) (h2 : ∀ s, P s → P (f s).1) : P (r.andThen f).1 := by
  obtain ⟨s, e⟩ := r
  cases e with
  | none => exact h2 s h1
  | some e => exact h1

namespace MNet

/-- no node is recorded with an empty set of layers -/
def NE (m : MNet α W) : Prop := ∀ n s, Dict.get m.nodeToLayers n = some s → s ≠ []

theorem NE.of_eq {m m' : MNet α W} (h : m.NE) (e : m'.nodeToLayers = m.nodeToLayers) : m'.NE := by
  unfold NE; rw [e]; exact h

theorem sliceAdd_ne {m : MNet α W} (h : m.NE) (a : Nat) (x : α) : (m.sliceAdd a x).1.NE :=
  h.of_eq (sliceAdd_other m a x).1

theorem addElemLayers_ne {m : MNet α W} (h : m.NE) (l : List α) (a : Nat) : (m.addElemLayers l a).1.NE := by
  induction l generalizing m a with
  | nil => exact h
  | cons x l ih =>
    unfold addElemLayers
    split
    · exact h
    · split
      · exact ih h _
      · exact Outcome.andThen_pres (sliceAdd_ne h _ _) (fun s hs => ih hs _)

theorem addNodeToLayer_ne {m : MNet α W} (h : m.NE) (n : α) (L : LKey α) : (m.addNodeToLayer n L).NE := by
  intro k s hs
  simp only [addNodeToLayer, Dict.get_set] at hs
  split at hs
  · cases hs
    intro e
    have : L ∈ sadd ((Dict.get m.nodeToLayers n).getD []) L := mem_sadd.2 (Or.inr rfl)
    rw [e] at this; simp at this
  · exact h k s hs

theorem addNode_ne {m : MNet α W} (h : m.NE) (n : α) (l : Option (LKey α)) : (m.addNode n l).1.NE := by
  unfold addNode
  refine Outcome.andThen_pres (sliceAdd_ne h _ _) (fun s hs => ?_)
  split
  · exact hs
  · split
    · exact hs
    · split
      · split
        · exact Outcome.andThen_pres (addElemLayers_ne hs _ _) (fun s hs => addNodeToLayer_ne hs _ _)
        · exact hs
      · split
        · exact Outcome.andThen_pres (addElemLayers_ne hs _ _) (fun s hs => addNodeToLayer_ne hs _ _)
        · exact hs

theorem addLayer_ne {m : MNet α W} (h : m.NE) (x : α) (a : Nat) : (m.addLayer x a).1.NE := by
  unfold addLayer; split
  · exact addNode_ne h x none
  · exact sliceAdd_ne h a x

theorem addLinkLayers_ne (l : List α) {m : MNet α W} (h : m.NE) (a : Nat) : (m.addLinkLayers l a).1.NE := by
  match l with
  | [] => exact h
  | [_] => exact h
  | x :: y :: t =>
    unfold addLinkLayers
    refine Outcome.andThen_pres (Outcome.andThen_pres (addLayer_ne h _ _) (fun s hs => addLayer_ne hs _ _))
      (fun s hs => addLinkLayers_ne t hs _)

theorem setLink_ne {m : MNet α W} (h : m.NE) (l : List α) (w : W) : (m.setLink l w).1.NE := by
  have d1 : ∀ {m : MNet α W}, m.NE → ∀ a b, (m.delNet a b).1.NE := by
    intro m h a b; unfold delNet; split
    · exact h
    · split
      · exact h.of_eq rfl
      · exact h
  have d2 : ∀ {m : MNet α W}, m.NE → ∀ a b, (m.delRnet a b).1.NE := by
    intro m h a b; unfold delRnet; split
    · exact h
    · split
      · exact h.of_eq rfl
      · exact h
  have d3 : ∀ {m : MNet α W}, m.NE → ∀ a, (m.decTotalStrict a).1.NE := by
    intro m h a; unfold decTotalStrict; split
    · exact h
    · exact h.of_eq rfl
  have d4 : ∀ {m : MNet α W}, m.NE → ∀ a b, (m.delTotals a b).1.NE := by
    intro m h a b; unfold delTotals; split
    · exact h.of_eq rfl
    · refine Outcome.andThen_pres ?_ (fun s hs => ?_)
      · split
        · exact d3 h _
        · exact h
      · split
        · exact d3 hs _
        · exact hs
  have p1 : ∀ {m : MNet α W}, m.NE → ∀ a b w, (m.putNet a b w).1.NE := by
    intro m h a b w; unfold putNet; split
    · exact h
    · exact h.of_eq rfl
  have p2 : ∀ {m : MNet α W}, m.NE → ∀ a b w, (m.putRnet a b w).1.NE := by
    intro m h a b w; unfold putRnet; split
    · exact h
    · exact h.of_eq rfl
  have p3 : ∀ {m : MNet α W}, m.NE → ∀ a, (m.addKey a).NE := by
    intro m h a; exact h.of_eq (addKey_lframe m a).fields.2.2.2.2.2.2
  have p4 : ∀ {m : MNet α W}, m.NE → ∀ a b, (m.putTotals a b).1.NE := by
    intro m h a b; unfold putTotals; split
    · exact h
    · split
      · exact h.of_eq rfl
      · split
        · exact h
        · simp only
          split
          · split <;> exact h.of_eq rfl
          · split <;> split <;> exact h.of_eq rfl
  unfold setLink
  split
  · exact h
  · split
    · unfold delLink
      split
      · exact h
      · split
        · split
          · exact Outcome.andThen_pres (Outcome.andThen_pres (d4 h _ _) (fun s hs => d2 hs _ _))
              (fun s hs => d1 hs _ _)
          · exact Outcome.andThen_pres (d1 h _ _) (fun s hs => d1 hs _ _)
        · exact h
    · unfold putLink
      simp only
      refine Outcome.andThen_pres ?_ (fun s hs => p1 hs _ _ _)
      split
      · exact Outcome.andThen_pres (p4 (p3 (p3 h _) _) _ _) (fun s hs => p2 hs _ _ _)
      · exact p1 (p3 (p3 h _) _) _ _ _

theorem setItem_ne {m : MNet α W} (h : m.NE) (i : List α) (w : W) : (m.setItem i w).1.NE := by
  unfold setItem
  simp only
  split
  · refine Outcome.andThen_pres (Outcome.andThen_pres ?_ (fun s hs => addLinkLayers_ne _ hs _))
      (fun s hs => setLink_ne hs _ _)
    unfold addLinkNodes
    split
    · split
      · exact Outcome.andThen_pres (addLayer_ne h _ _) (fun s hs => addLayer_ne hs _ _)
      · exact Outcome.andThen_pres (addNode_ne h _ _) (fun s hs => addNode_ne hs _ _)
    · exact h
  · exact h

theorem run_ne {m : MNet α W} (h : m.NE) (ops : List (Op α W)) : (m.run ops).NE := by
  induction ops using List.reverseRecOn with
  | nil => exact h
  | append_singleton ops op ih =>
    rw [run_snoc]
    cases op with
    | addNode n l => exact addNode_ne ih n l
    | addLayer l a => exact addLayer_ne ih l a
    | setItem i w => exact setItem_ne ih i w

theorem init_ne (aspects : Nat) (noEdge : W) (directed fic : Bool) :
    (init aspects noEdge directed fic : MNet α W).NE := by
  intro n s h; simp [init] at h

theorem readItem_link {m : MNet α W} {a b : List α} (ha : a.length = m.aspects + 1)
    (hb : b.length = m.aspects + 1) : m.view.readItem (interleave a b) = .ok (.weight (m.reads a b)) :=
  View.getItem_addresses (v := m.view) (addresses_interleave ha hb)
    (getLink_interleave m (by omega) (by rintro rfl; simp at ha))

theorem eqLoop_spec {m o : MNet α W} (hasp : m.aspects = o.aspects)
    (ps : List (List α × List α)) (hps : ∀ p ∈ ps, p.1.length = m.aspects + 1 ∧ p.2.length = m.aspects + 1) :
    ∃ b, eqLoop m.view o.view (ps.map (View.tuple m.reads)) = .ok b ∧
      (b = true ↔ ∀ p ∈ ps, m.reads p.1 p.2 = o.reads p.1 p.2) := by
  induction ps with
  | nil => exact ⟨true, rfl, by simp⟩
  | cons p ps ih =>
    obtain ⟨b, h1, h2⟩ := ih (fun q hq => hps q (by simp [hq]))
    obtain ⟨l1, l2⟩ := hps p (by simp)
    simp only [List.map_cons, eqLoop, View.tuple]
    rw [readItem_link l1 l2, readItem_link (by omega) (by omega)]
    simp only
    by_cases hc : m.reads p.1 p.2 = o.reads p.1 p.2
    · refine ⟨b, ?_, ?_⟩
      · rw [if_neg (by simp [hc])]; exact h1
      · rw [h2]; simp [hc]
    · exact ⟨false, by rw [if_pos (by simp [hc])], by simp [hc]⟩

/-- `__eq__` on reachable networks with the same alignment. -/
theorem eq_spec {m o : MNet α W} (hm : m.Inv) (ho : o.Inv) (nm : m.fic = false → m.NE)
    (no : o.fic = false → o.NE) (hfic : m.fic = o.fic) :
    ∃ b, m.eq o = .ok b ∧ (b = true ↔
      m.directed = o.directed ∧ m.aspects = o.aspects ∧ m.noEdge = o.noEdge ∧
      (∀ i x, m.inSlice i x ↔ o.inSlice i x) ∧
      (m.fic = false → ∀ n L, m.onLayer n L ↔ o.onLayer n L) ∧
      ∀ a b, m.lk a b = o.lk a b) := by
  have hsl : m.aspects = o.aspects → (slicesEq m.slices o.slices = true ↔
      ∀ i x, m.inSlice i x ↔ o.inSlice i x) := by
    intro hasp
    rw [slicesEq_iff]
    have hlen : m.slices.length = o.slices.length := by rw [hm.r.slen, ho.r.slen, hasp]
    constructor
    · rintro ⟨-, h⟩ i x
      constructor
      · rintro ⟨s, hs, hx⟩
        have hi : i < o.slices.length := by rw [← hlen]; exact (List.getElem?_eq_some_iff.1 hs).1
        exact ⟨o.slices[i], by simp [hi], (h i s _ hs (by simp [hi]) x).1 hx⟩
      · rintro ⟨s, hs, hx⟩
        have hi : i < m.slices.length := by rw [hlen]; exact (List.getElem?_eq_some_iff.1 hs).1
        exact ⟨m.slices[i], by simp [hi], (h i _ s (by simp [hi]) hs x).2 hx⟩
    · intro h
      refine ⟨hlen, fun i a b ha hb x => ?_⟩
      have := h i x
      simp only [inSlice, ha, hb, Option.some.injEq] at this
      constructor
      · intro hx; obtain ⟨s, rfl, hx⟩ := this.1 ⟨a, rfl, hx⟩; exact hx
      · intro hx; obtain ⟨s, rfl, hx⟩ := this.2 ⟨b, rfl, hx⟩; exact hx
  unfold MNet.eq
  rw [if_neg (by rintro ⟨h1, h2⟩; rw [hfic, h2] at h1; cases h1)]
  by_cases hn : m.fic = false ∧ dictSetEq m.nodeToLayers o.nodeToLayers = false
  · rw [if_pos hn]
    refine ⟨false, rfl, ?_⟩
    simp only [Bool.false_eq_true, false_iff, not_and]
    intro _ _ _ _ h5
    exfalso
    have h6 : dictSetEq m.nodeToLayers o.nodeToLayers = true := (dictSetEq_iff (nm hn.1) (no (hfic ▸ hn.1))).2 (h5 hn.1)
    rw [hn.2] at h6; cases h6
  · rw [if_neg hn]
    have hn' : m.fic = false → ∀ n L, m.onLayer n L ↔ o.onLayer n L := by
      intro hf
      have : dictSetEq m.nodeToLayers o.nodeToLayers = true := by
        rcases Bool.eq_false_or_eq_true (dictSetEq m.nodeToLayers o.nodeToLayers) with h | h
        · exact h
        · exact absurd ⟨hf, h⟩ hn
      exact (dictSetEq_iff (nm hf) (no (hfic ▸ hf))).1 this
    by_cases hc : m.directed = o.directed ∧ m.aspects = o.aspects ∧ m.fic = o.fic ∧
        m.noEdge = o.noEdge ∧ slicesEq m.slices o.slices = true
    · rw [if_pos hc]
      obtain ⟨hdir, hasp, -, hne, hs⟩ := hc
      have hs' := (hsl hasp).1 hs
      have SM := hm.sound
      have SO := ho.sound
      obtain ⟨pm, m1, m2, m3, m4, m5⟩ := SM.edges
      obtain ⟨po, o1, o2, o3, o4, o5⟩ := SO.edges
      obtain ⟨em, m1', m6⟩ := SM.edgesLen
      obtain ⟨eo, o1', o6⟩ := SO.edgesLen
      rw [m1] at m1'; cases m1'
      rw [o1] at o1'; cases o1'
      rw [m6, o6]
      simp only [List.length_map, Nat.cast_inj]
      -- equal products
      have hP : ∀ a, a ∈ product m.slices ↔ a ∈ product o.slices := by
        intro a
        rw [← reg_iff hm.r, ← reg_iff ho.r]
        unfold Reg; rw [hasp]; simp only [hs']
      have inP : ∀ {m : MNet α W}, m.Inv → ∀ a b, (m.lk a b).isSome = true →
          a ∈ product m.slices ∧ b ∈ product m.slices := by
        intro m h a b hl
        obtain ⟨w, hw⟩ := Option.isSome_iff_exists.1 hl
        exact ⟨(reg_iff h.r a).1 (h.reg a b w hw).1, (reg_iff h.r b).1 (h.reg a b w hw).2⟩
      -- reading equal is storing equal
      have hlk : ∀ a b, m.reads a b = o.reads a b → m.lk a b = o.lk a b := by
        intro a b h
        cases h1 : m.lk a b with
        | none =>
          have := (reads_eq_noEdge hm.l a b).2 h1
          rw [h, hne, reads_eq_noEdge ho.l] at this
          exact this.symm
        | some w =>
          have hw : m.reads a b = w := by simp [reads, h1]
          have h2 : o.reads a b ≠ o.noEdge := by
            rw [← h, ← hne, reads_ne_noEdge hm.l, h1]; rfl
          rw [reads_ne_noEdge ho.l] at h2
          obtain ⟨w', hw'⟩ := Option.isSome_iff_exists.1 h2
          have : o.reads a b = w' := by simp [reads, hw']
          rw [hw', ← hw, h, this]
      have hreads : (∀ a b, m.lk a b = o.lk a b) → ∀ a b, m.reads a b = o.reads a b := by
        intro h a b; simp [reads, h, hne]
      have hlenP : ∀ p ∈ pm, p.1.length = m.aspects + 1 ∧ p.2.length = m.aspects + 1 := by
        intro p hp
        exact ⟨SM.length_of_mem (m3 p hp).1, SM.length_of_mem (m3 p hp).2.1⟩
      have symm : ∀ {m : MNet α W}, m.Inv → m.directed = false → ∀ a b, m.reads a b = m.reads b a := by
        intro m h hd a b; unfold reads; rw [h.l.sym hd]
      by_cases hlen : pm.length = po.length
      · rw [if_pos hlen, m1]
        simp only
        obtain ⟨b, b1, b2⟩ := eqLoop_spec hasp pm hlenP
        refine ⟨b, b1, ?_⟩
        rw [b2]
        constructor
        · intro heq
          refine ⟨hdir, hasp, hne, hs', hn', ?_⟩
          -- every edge of m is an edge of o with the same weight; same number of edges
          have key : ∀ a ∈ product o.slices, ∀ b ∈ product o.slices, o.reads a b ≠ o.noEdge →
              m.reads a b ≠ m.noEdge ∧ m.reads a b = o.reads a b := by
            cases hd : m.directed with
            | true =>
              have hdo : o.directed = true := by rw [← hdir, hd]
              have sub : pm ⊆ po := by
                rintro ⟨a, b⟩ hp
                have h3 := m3 _ hp
                refine o4 hdo a ((hP a).1 h3.1) b ((hP b).1 h3.2.1) ?_
                rw [← heq _ hp]; change _ ≠ o.noEdge; rw [← hne]; exact h3.2.2
              have sp : pm.Perm po := (List.subperm_of_subset m2 sub).perm_of_length_le (by omega)
              intro a ha b hb hR
              have hp : (a, b) ∈ pm := sp.symm.subset (o4 hdo a ha b hb hR)
              exact ⟨(m3 _ hp).2.2, heq _ hp⟩
            | false =>
              have hdo : o.directed = false := by rw [← hdir, hd]
              -- orient the pairs of m as o does
              let f : List α × List α → List α × List α := fun p => if p ∈ po then p else p.swap
              have fmem : ∀ p ∈ pm, f p ∈ po := by
                rintro ⟨a, b⟩ hp
                have h3 := m3 _ hp
                have := (o5 hdo).1 a ((hP a).1 h3.1) b ((hP b).1 h3.2.1) (by
                  rw [← heq _ hp]; change _ ≠ o.noEdge; rw [← hne]; exact h3.2.2)
                simp only [f]
                split
                · assumption
                · rename_i hno; exact this.resolve_left hno
              have finj : ∀ p ∈ pm, ∀ q ∈ pm, f p = f q → p = q := by
                rintro ⟨a, b⟩ hp ⟨c, d⟩ hq hfe
                simp only [f] at hfe
                split at hfe <;> split at hfe
                · exact hfe
                · simp only [Prod.swap_prod_mk, Prod.mk.injEq] at hfe
                  obtain ⟨rfl, rfl⟩ := hfe
                  by_cases hab : a = b
                  · subst hab; rfl
                  · exact absurd hq ((m5 hd).2 _ _ hab hp)
                · simp only [Prod.swap_prod_mk, Prod.mk.injEq] at hfe
                  obtain ⟨rfl, rfl⟩ := hfe
                  by_cases hab : a = b
                  · subst hab; rfl
                  · exact absurd hq ((m5 hd).2 _ _ hab hp)
                · simpa [Prod.swap_inj, and_comm] using hfe
              have fnd : (pm.map f).Nodup := m2.map_on finj
              have sub : pm.map f ⊆ po := by
                intro x hx
                obtain ⟨p, hp, rfl⟩ := List.mem_map.1 hx
                exact fmem p hp
              have sp : (pm.map f).Perm po :=
                (List.subperm_of_subset fnd sub).perm_of_length_le (by rw [List.length_map]; omega)
              have back : ∀ a b, (a, b) ∈ po → (a, b) ∈ pm ∨ (b, a) ∈ pm := by
                intro a b hp
                obtain ⟨⟨c, d⟩, hq, he⟩ := List.mem_map.1 (sp.symm.subset hp)
                simp only [f] at he
                split at he
                · cases he; exact Or.inl hq
                · cases he; exact Or.inr hq
              intro a ha b hb hR
              have : (a, b) ∈ pm ∨ (b, a) ∈ pm := by
                rcases (o5 hdo).1 a ha b hb hR with h | h
                · exact back _ _ h
                · exact (back _ _ h).symm
              rcases this with h | h
              · exact ⟨(m3 _ h).2.2, heq _ h⟩
              · have h1 := (m3 _ h).2.2
                have h2 := heq _ h
                simp only at h1 h2
                rw [symm hm hd a b, symm ho hdo a b]
                exact ⟨h1, h2⟩
          intro a b
          apply hlk
          by_cases ho' : o.reads a b = o.noEdge
          · by_cases hm' : m.reads a b = m.noEdge
            · rw [hm', ho', hne]
            · -- an edge of m
              have hs1 := (reads_ne_noEdge hm.l a b).1 hm'
              obtain ⟨p1, p2⟩ := inP hm a b hs1
              cases hd : m.directed with
              | true => exact heq _ (m4 hd a p1 b p2 hm')
              | false =>
                have hdo : o.directed = false := by rw [← hdir, hd]
                rcases (m5 hd).1 a p1 b p2 hm' with h | h
                · exact heq _ h
                · rw [symm hm hd a b, symm ho hdo a b]; exact heq _ h
          · have hs1 := (reads_ne_noEdge ho.l a b).1 ho'
            obtain ⟨p1, p2⟩ := inP ho a b hs1
            exact (key a p1 b p2 ho').2
        · rintro ⟨-, -, -, -, -, h⟩ p _
          exact hreads h _ _
      · rw [if_neg hlen]
        refine ⟨false, rfl, ?_⟩
        simp only [Bool.false_eq_true, false_iff, not_and]
        intro _ _ _ _ _ h
        apply hlen
        have hrd := hreads h
        -- same links, hence as many edges
        cases hd : m.directed with
        | true =>
          have hdo : o.directed = true := by rw [← hdir, hd]
          have hperm : pm.Perm po := by
            rw [List.perm_ext_iff_of_nodup m2 o2]
            rintro ⟨a, b⟩
            constructor
            · intro hp
              have h3 := m3 _ hp
              refine o4 hdo a ((hP a).1 h3.1) b ((hP b).1 h3.2.1) ?_
              rw [← hrd]; change _ ≠ o.noEdge; rw [← hne]; exact h3.2.2
            · intro hp
              have h3 := o3 _ hp
              refine m4 hd a ((hP a).2 h3.1) b ((hP b).2 h3.2.1) ?_
              rw [hrd]; change _ ≠ m.noEdge; rw [hne]; exact h3.2.2
          exact hperm.length_eq
        | false =>
          have hdo : o.directed = false := by rw [← hdir, hd]
          have card : ∀ (p q : List (List α × List α)), p.Nodup → q.Nodup →
              (∀ a b, a ≠ b → (a, b) ∈ p → (b, a) ∉ p) → (∀ a b, (a, b) ∈ p → (a, b) ∈ q ∨ (b, a) ∈ q) →
              p.length ≤ q.length := by
            intro p q hp hq hex hsub
            let f : List α × List α → List α × List α := fun x => if x ∈ q then x else x.swap
            have fnd : (p.map f).Nodup := by
              refine hp.map_on ?_
              rintro ⟨a, b⟩ hp1 ⟨c, d⟩ hp2 hfe
              simp only [f] at hfe
              split at hfe <;> split at hfe
              · exact hfe
              · simp only [Prod.swap_prod_mk, Prod.mk.injEq] at hfe
                obtain ⟨rfl, rfl⟩ := hfe
                by_cases hab : a = b
                · subst hab; rfl
                · exact absurd hp2 (hex _ _ hab hp1)
              · simp only [Prod.swap_prod_mk, Prod.mk.injEq] at hfe
                obtain ⟨rfl, rfl⟩ := hfe
                by_cases hab : a = b
                · subst hab; rfl
                · exact absurd hp2 (hex _ _ hab hp1)
              · simpa [Prod.swap_inj, and_comm] using hfe
            have sub : p.map f ⊆ q := by
              intro x hx
              obtain ⟨⟨a, b⟩, hp, rfl⟩ := List.mem_map.1 hx
              simp only [f]
              split
              · assumption
              · rename_i hno; exact (hsub a b hp).resolve_left hno
            have := (List.subperm_of_subset fnd sub).length_le
            rwa [List.length_map] at this
          apply Nat.le_antisymm
          · refine card pm po m2 o2 (m5 hd).2 (fun a b hp => ?_)
            have h3 := m3 _ hp
            refine (o5 hdo).1 a ((hP a).1 h3.1) b ((hP b).1 h3.2.1) ?_
            rw [← hrd]; change _ ≠ o.noEdge; rw [← hne]; exact h3.2.2
          · refine card po pm o2 m2 (o5 hdo).2 (fun a b hp => ?_)
            have h3 := o3 _ hp
            refine (m5 hd).1 a ((hP a).2 h3.1) b ((hP b).2 h3.2.1) ?_
            rw [hrd]; change _ ≠ m.noEdge; rw [hne]; exact h3.2.2
    · rw [if_neg hc]
      refine ⟨false, rfl, ?_⟩
      simp only [Bool.false_eq_true, false_iff]
      rintro ⟨h1, h2, h3, h4, -, -⟩
      exact hc ⟨h1, h2, hfic, h3, (hsl h2).2 h4⟩

end MNet

end Pymnet
