import Verif.Proofs.SubnetP2
import Verif.Spec.PlexTransforms

/-! Sub-networks of multiplex networks: C84. -/

set_option linter.unusedSectionVars false
set_option linter.unusedSimpArgs false

namespace Pymnet

open Py MPlex

variable {α W : Type} [DecidableEq α] [DecidableEq W] [Zero W]

/-- Internal: every multiplex network is under construction. -/
theorem builtX_after (cs : List (Coupling α W)) (dir : Bool) (z : W) (al : Bool) (ops : List (POp α W)) :
    BuiltX (afterP cs dir z al ops) cs dir z al (Spec.NoIntraSelf ops)
      (fun x => Spec.Happened (Spec.NamesNodeP cs.length al x) ops)
      (fun a x => ∃ op ∈ ops, Spec.NamesLayerP cs.length al a x op)
      (fun n s => Spec.Happened (Spec.PutsOnLayer cs.length n s) ops)
      (fun s i j => Spec.readP cs.length dir al ops s i j) :=
  ⟨ops, rfl, id, fun _ => Iff.rfl, fun _ _ _ _ => Iff.rfl, fun _ _ _ _ => Iff.rfl, fun _ _ _ _ => rfl⟩

/-- Internal: links are between nodes of layers. -/
theorem readP_ne {cs : List (Coupling α W)} (hcs : cs ≠ []) {dir al : Bool} {ops : List (POp α W)} {s : List α} {i j : α}
    (hs : s.length = cs.length) (hne : Spec.readP cs.length dir al ops s i j ≠ 0) :
    Spec.HasLayer cs.length al ops (.ofList s) ∧ Spec.Happened (Spec.NamesNodeP cs.length al i) ops ∧
      Spec.Happened (Spec.NamesNodeP cs.length al j) ops := by
  obtain ⟨s0, -, s2, -, s4⟩ := after_spec hcs dir 0 al ops
  have hb := builtX_after cs dir 0 al ops
  rw [← s4 s i j hs] at hne
  have hL : Spec.HasLayer cs.length al ops (.ofList s) := by
    rw [← s2]
    by_contra h
    rw [Option.not_isSome_iff_eq_none] at h
    simp [lkA, h] at hne
  refine ⟨hL, ?_⟩
  obtain ⟨c, c1, c2, c3, c4, c5, -, c7, c8⟩ := hb.child hcs ((hasLayer_LYs (fun _ _ _ _ => Iff.rfl) s).1 hL)
  rw [s4 s i j hs, ← c8, ← c5] at hne
  obtain ⟨⟨x, ex, hx⟩, y, ey, hy⟩ := c2.one c3 hne
  cases ex; cases ey
  rw [c7] at hx hy
  cases al with
  | true => exact ⟨hx, hy⟩
  | false =>
    simp only [Bool.false_eq_true, if_false] at hx hy
    exact ⟨(hb.onLayer hcs hs hx).1, (hb.onLayer hcs hs hy).1⟩

section
variable {cs : List (Coupling α W)} {dir al : Bool} {z : W} {ops : List (POp α W)} {sel : List (Option (List α))}

/-- Internal: for names of the network, the sets of selected names are the selection. -/
theorem inSel_chosen (hcs : cs ≠ []) (hsel : sel.length = cs.length + 1) {a : Nat} (ha : a ≤ cs.length) {x : α}
    (hx : if a = 0 then Spec.Happened (Spec.NamesNodeP cs.length al x) ops
      else ∃ op ∈ ops, Spec.NamesLayerP cs.length al a x op) :
    inSel (selSets (afterP cs dir z al ops).slices sel) a x ↔ Spec.Chosen sel a x := by
  have hb := builtX_after cs dir z al ops
  have hpi := hb.pinv hcs
  have hpar := hb.params hcs
  have hm := (hb.mem_slices hcs ha x).2 hx
  unfold inSel
  rw [mem_selSets]
  obtain ⟨s, hs⟩ : ∃ s, (afterP cs dir z al ops).slices[a]? = some s :=
    ⟨_, List.getElem?_eq_getElem (by rw [hpi.core.slen, hpar.1]; omega)⟩
  have hxs : x ∈ s := by simpa [List.getD, hs] using hm
  constructor
  · rintro ⟨s', o, -, h2, h3⟩
    refine ⟨o, h2, ?_⟩
    rintro l rfl
    exact h3
  · rintro ⟨o, h1, h2⟩
    refine ⟨s, o, hs, h1, ?_⟩
    cases o with
    | none => exact hxs
    | some l => exact h2 l rfl

/-- Internal: the layers asked for are the tuples the loop goes over. -/
theorem asked_iff (hcs : cs ≠ []) (hsel : sel.length = cs.length + 1) (s : List α) :
    s ∈ product ((selSets (afterP cs dir z al ops).slices sel).drop 1) ↔ Spec.Asked cs.length al ops sel s := by
  have hb := builtX_after cs dir z al ops
  have hpi := hb.pinv hcs
  have hpar := hb.params hcs
  rw [mem_product_drop, length_selSets (by rw [hsel, hpi.core.slen, hpar.1]), hpi.core.slen, hpar.1, Nat.add_sub_cancel]
  refine and_congr_right fun hl => forall_congr' fun k => forall_congr' fun x => imp_congr_right fun hx => ?_
  have hk : k + 1 ≤ cs.length := by
    have := (List.getElem?_eq_some_iff.1 hx).1; omega
  have hm := hb.mem_slices hcs hk x
  rw [if_neg (by omega)] at hm
  unfold inSel
  rw [mem_selSets]
  obtain ⟨t, ht⟩ : ∃ t, (afterP cs dir z al ops).slices[k + 1]? = some t :=
    ⟨_, List.getElem?_eq_getElem (by rw [hpi.core.slen, hpar.1]; omega)⟩
  have hmt : x ∈ t ↔ ∃ op ∈ ops, Spec.NamesLayerP cs.length al (k + 1) x op := by
    rw [← hm]; simp [List.getD, ht]
  constructor
  · rintro ⟨s', o, h1, h2, h3⟩
    rw [ht] at h1; cases h1
    cases o with
    | none => exact .inr ⟨h2, hmt.1 h3⟩
    | some l => exact .inl ⟨l, h2, h3⟩
  · rintro (⟨l, h1, h2⟩ | ⟨h1, h2⟩)
    · exact ⟨t, some l, ht, h1, h2⟩
    · exact ⟨t, none, ht, h1, hmt.2 h2⟩

/-- **C84.** `subnet` of a multiplex network whose couplings are not networks: if every layer asked for exists (or no
links are copied), the result is a multiplex network with the same couplings, directedness and alignment, and it is the
part of the network that is selected; names that are not in the network are ignored. -/
theorem C84_subnet (hcs : cs ≠ []) (hnet : ∀ c, .net c ∉ cs) (hsel : sel.length = cs.length + 1) (nolinks : Bool)
    (hex : nolinks = true ∨ ∀ s, Spec.Asked cs.length al ops sel s → Spec.HasLayer cs.length al ops (.ofList s)) :
    ∃ ops', (afterP cs dir z al ops).subnet sel nolinks = .ok (afterP cs dir z al ops') ∧
      Spec.Part cs.length dir al ops sel (!nolinks) ops' := by
  classical
  have hb := builtX_after cs dir z al ops
  have hpi := hb.pinv hcs
  have hpar := hb.params hcs
  have hnet' : ∀ c ∈ cs, c.isNet = false := by
    intro c hc
    cases c with
    | net c => exact absurd hc (hnet c)
    | _ => rfl
  set p := afterP cs dir z al ops with hp
  set sets := selSets p.slices sel with hsets
  have hslen : sets.length = cs.length + 1 := by
    rw [hsets, length_selSets (by rw [hsel, hpi.core.slen, hpar.1]), hpi.core.slen, hpar.1]
  obtain ⟨m, e, hm⟩ := subnet_base hb hcs hnet' hsel (Spec.NoIntraSelf ops) nolinks
  have hself : Spec.NoIntraSelf ops → ∀ s i, LYs cs.length (fun a x => ∃ op ∈ ops, Spec.NamesLayerP cs.length al a x op) s →
      Spec.readP cs.length dir al ops s i i = 0 := by
    intro hn s i hs
    obtain ⟨-, -, -, -, s4⟩ := after_spec hcs dir z al ops
    rw [← s4 s i i hs.1, after_noself hcs dir z al ops hn]; rfl
  have hnd : (product (sets.drop 1)).Nodup :=
    nodup_product fun s hs => sets_nodup hpi.core.snodup sel s (List.mem_of_mem_drop hs)
  have hhead : ∀ x, x ∈ sets.headD [] ↔ inSel sets 0 x := by
    intro x
    unfold inSel
    cases sets <;> simp
  have hcons : ∀ n s, s.length = cs.length → (n :: s ∈ product sets ↔ n ∈ sets.headD [] ∧ s ∈ product (sets.drop 1)) := by
    intro n s hl
    rw [inSel_product (by omega), hhead, mem_product_drop, hslen]
    simp [hl]
  -- the copied links
  have hfin : ∃ q, p.subnet sel nolinks = .ok q ∧ BuiltX q cs dir z al (Spec.NoIntraSelf ops)
        (fun x => if al then Spec.Happened (Spec.NamesNodeP cs.length al x) ops ∧ inSel sets 0 x
          else ∃ s, s.length = cs.length ∧ Spec.Happened (Spec.PutsOnLayer cs.length x s) ops ∧ x :: s ∈ product sets)
        (fun a x => (∃ op ∈ ops, Spec.NamesLayerP cs.length al a x op) ∧ inSel sets a x)
        (fun n s => Spec.Happened (Spec.PutsOnLayer cs.length n s) ops ∧ n :: s ∈ product sets)
        (fun t a b => if nolinks = false ∧ t ∈ product (sets.drop 1) ∧ a ∈ sets.headD [] ∧ b ∈ sets.headD [] then
          Spec.readP cs.length dir al ops t a b else 0) := by
    rw [e]
    cases hnl : nolinks with
    | true => exact ⟨m, by simp, hm.congr (fun _ => Iff.rfl) (fun _ _ _ _ => Iff.rfl) (fun _ _ _ _ => Iff.rfl) (by simp)⟩
    | false =>
      have hex' := hex.resolve_left (by simp [hnl])
      have hl : ∀ s ∈ product (sets.drop 1), LYs cs.length (fun a x => ∃ op ∈ ops, Spec.NamesLayerP cs.length al a x op) s := by
        intro s hs
        exact (hasLayer_LYs (fun _ _ _ _ => Iff.rfl) s).1 (hex' s ((asked_iff hcs hsel s).1 hs))
      obtain ⟨q, e2, hq⟩ := subnetLoop hb hcs hself hm (sets.headD []) (product (sets.drop 1)) hnd
        (by
          intro x hx h1 h2
          cases al with
          | true => exact ⟨h1 rfl, (hhead x).1 hx⟩
          | false =>
            obtain ⟨s, hs, hs2⟩ := h2 rfl
            have := (hl s hs).1
            simp only [Bool.false_eq_true, if_false]
            exact ⟨s, this, hs2, (hcons x s this).2 ⟨hx, hs⟩⟩)
        (by
          intro ha n s hn hs h
          exact ⟨h, (hcons n s (hl s hs).1).2 ⟨hn, hs⟩⟩)
        (by
          intro s hs h
          refine ⟨h.1, fun k x hx => ⟨h.2 k x hx, ?_⟩⟩
          exact (mem_product_drop.1 hs).2 k x hx)
        hl
      refine ⟨q, by simpa using e2, hq.congr (fun _ => Iff.rfl) (fun _ _ _ _ => Iff.rfl) (fun _ _ _ _ => Iff.rfl) ?_⟩
      intro s i j _
      simp only [true_and]
  obtain ⟨q, e2, ops', rfl, h1, h2, h3, h4, h5⟩ := hfin
  refine ⟨ops', e2, ⟨?_, ?_, ?_, ?_, h1⟩⟩
  · -- nodes
    intro x
    rw [h2]
    cases al with
    | true =>
      simp only [if_true]
      refine and_congr_right fun hx => ?_
      exact inSel_chosen hcs hsel (Nat.zero_le _) (by simpa using hx)
    | false =>
      simp only [Bool.false_eq_true, if_false]
      constructor
      · rintro ⟨s, s1, s2, s3⟩
        refine ⟨s, ⟨x, s, rfl, s1, .inr ⟨rfl, s2⟩⟩, ?_⟩
        have hon := hb.onLayer hcs s1 s2
        rw [inSel_product (by omega)] at s3
        intro a y hy
        cases a with
        | zero => cases hy; exact (inSel_chosen hcs hsel (Nat.zero_le _) (by simpa using hon.1)).1 s3.1
        | succ k =>
          have hk : k + 1 ≤ cs.length := by
            have := (List.getElem?_eq_some_iff.1 hy).1; simp at this; omega
          exact (inSel_chosen hcs hsel hk (by simpa using hon.2.2 k y (by simpa using hy))).1 (s3.2 k y (by simpa using hy))
      · rintro ⟨s, ⟨x', s', e', s1, s2⟩, s3⟩
        cases e'
        have s2' : Spec.Happened (Spec.PutsOnLayer cs.length x s) ops := by simpa using s2
        have hon := hb.onLayer hcs s1 s2'
        refine ⟨s, s1, s2', (inSel_product (by omega)).2 ⟨?_, fun k y hy => ?_⟩⟩
        · exact (inSel_chosen hcs hsel (Nat.zero_le _) (by simpa using hon.1)).2 (s3 0 x rfl)
        · have hk : k + 1 ≤ cs.length := by
            have := (List.getElem?_eq_some_iff.1 hy).1; omega
          exact (inSel_chosen hcs hsel hk (by simpa using hon.2.2 k y hy)).2 (s3 (k + 1) y (by simpa using hy))
  · -- layers
    intro a x a1 a2
    rw [h3 a x a1 a2]
    refine and_congr_right fun hx => ?_
    exact inSel_chosen hcs hsel a2 (by rw [if_neg (by omega)]; exact hx)
  · -- node-layers
    intro u
    have key : ∀ n s, s.length = cs.length → Spec.Happened (Spec.NamesNodeP cs.length al n) ops →
        Spec.HasLayer cs.length al ops (.ofList s) → (n :: s ∈ product sets ↔ Spec.ChosenNL sel (n :: s)) := by
      intro n s hl hn hL
      have hL' := (hasLayer_LYs (LY := fun a x => ∃ op ∈ ops, Spec.NamesLayerP cs.length al a x op) (fun _ _ _ _ => Iff.rfl) s).1 hL
      rw [inSel_product (by omega)]
      constructor
      · rintro ⟨g1, g2⟩ a y hy
        cases a with
        | zero => cases hy; exact (inSel_chosen hcs hsel (Nat.zero_le _) (by simpa using hn)).1 g1
        | succ k =>
          have hk : k + 1 ≤ cs.length := by
            have := (List.getElem?_eq_some_iff.1 hy).1; simp at this; omega
          exact (inSel_chosen hcs hsel hk (by simpa using hL'.2 k y (by simpa using hy))).1 (g2 k y (by simpa using hy))
      · intro g
        refine ⟨(inSel_chosen hcs hsel (Nat.zero_le _) (by simpa using hn)).2 (g 0 n rfl), fun k y hy => ?_⟩
        have hk : k + 1 ≤ cs.length := by
          have := (List.getElem?_eq_some_iff.1 hy).1; omega
        exact (inSel_chosen hcs hsel hk (by simpa using hL'.2 k y hy)).2 (g (k + 1) y (by simpa using hy))
    unfold Spec.HasNodeLayer
    constructor
    · rintro ⟨n, s, rfl, hl, ⟨ha, g1, g2⟩ | ⟨ha, g1⟩⟩
      · rw [h2, if_pos ha] at g1
        rw [hasLayer_LYs h3] at g2
        have hL : Spec.HasLayer cs.length al ops (.ofList s) :=
          (hasLayer_LYs (LY := fun a x => ∃ op ∈ ops, Spec.NamesLayerP cs.length al a x op) (fun _ _ _ _ => Iff.rfl) s).2
            ⟨hl, fun k x hx => (g2.2 k x hx).1⟩
        refine ⟨⟨n, s, rfl, hl, .inl ⟨ha, g1.1, hL⟩⟩, (key n s hl g1.1 hL).1 ?_⟩
        exact (inSel_product (by omega)).2 ⟨g1.2, fun k x hx => (g2.2 k x hx).2⟩
      · rw [h4 ha n s hl] at g1
        subst ha
        have hon := hb.onLayer hcs hl g1.1
        exact ⟨⟨n, s, rfl, hl, .inr ⟨rfl, g1.1⟩⟩,
          (key n s hl hon.1 ((hasLayer_LYs (fun _ _ _ _ => Iff.rfl) s).2 hon.2)).1 g1.2⟩
    · rintro ⟨⟨n, s, rfl, hl, ⟨ha, g1, g2⟩ | ⟨ha, g1⟩⟩, hch⟩
      · have hc := (inSel_product (by omega)).1 ((key n s hl g1 g2).2 hch)
        have g2' := (hasLayer_LYs (LY := fun a x => ∃ op ∈ ops, Spec.NamesLayerP cs.length al a x op) (fun _ _ _ _ => Iff.rfl) s).1 g2
        refine ⟨n, s, rfl, hl, .inl ⟨ha, ?_, ?_⟩⟩
        · rw [h2]; dsimp only; rw [if_pos ha]; exact ⟨g1, hc.1⟩
        · rw [hasLayer_LYs h3]; exact ⟨hl, fun k x hx => ⟨g2'.2 k x hx, hc.2 k x hx⟩⟩
      · subst ha
        have hon := hb.onLayer hcs hl g1
        refine ⟨n, s, rfl, hl, .inr ⟨rfl, ?_⟩⟩
        rw [h4 rfl n s hl]
        exact ⟨g1, (key n s hl hon.1 ((hasLayer_LYs (fun _ _ _ _ => Iff.rfl) s).2 hon.2)).2 hch⟩
  · -- links
    intro s i j hl
    rw [h5 s i j hl]
    dsimp only
    by_cases hne : Spec.readP cs.length dir al ops s i j = 0
    · rw [hne, ite_self, ite_self]
    · obtain ⟨g1, g2, g3⟩ := readP_ne hcs hl hne
      have g1' := (hasLayer_LYs (LY := fun a x => ∃ op ∈ ops, Spec.NamesLayerP cs.length al a x op) (fun _ _ _ _ => Iff.rfl) s).1 g1
      have hs : s ∈ product (sets.drop 1) ↔ Spec.ChosenLayer sel s := by
        rw [mem_product_drop, hslen, Nat.add_sub_cancel, and_iff_right hl]
        refine forall_congr' fun k => forall_congr' fun x => imp_congr_right fun hx => ?_
        have hk : k + 1 ≤ cs.length := by
          have := (List.getElem?_eq_some_iff.1 hx).1; omega
        exact inSel_chosen hcs hsel hk (by simpa using g1'.2 k x hx)
      have hiff : (nolinks = false ∧ s ∈ product (sets.drop 1) ∧ i ∈ sets.headD [] ∧ j ∈ sets.headD []) ↔
          ((!nolinks) = true ∧ Spec.ChosenLayer sel s ∧ Spec.Chosen sel 0 i ∧ Spec.Chosen sel 0 j) := by
        rw [hhead, hhead, hs, inSel_chosen hcs hsel (Nat.zero_le _) (by simpa using g2),
          inSel_chosen hcs hsel (Nat.zero_le _) (by simpa using g3)]
        refine and_congr_left fun _ => ?_
        cases nolinks <;> simp
      by_cases hc : nolinks = false ∧ s ∈ product (sets.drop 1) ∧ i ∈ sets.headD [] ∧ j ∈ sets.headD []
      · rw [if_pos hc, if_pos (hiff.1 hc)]
      · rw [if_neg hc, if_neg (fun h => hc (hiff.2 h))]

/-- **C84.** If a layer asked for does not exist, `subnet` raises `KeyError` (unless no links are copied); this does not
hold for nodes that do not exist. -/
theorem C84_missing_layer (hcs : cs ≠ []) (hnet : ∀ c, .net c ∉ cs) (hsel : sel.length = cs.length + 1)
    (hex : ∃ s, Spec.Asked cs.length al ops sel s ∧ ¬ Spec.HasLayer cs.length al ops (.ofList s)) :
    (afterP cs dir z al ops).subnet sel false = .error .keyError := by
  have hb := builtX_after cs dir z al ops
  have hpi := hb.pinv hcs
  have hnet' : ∀ c ∈ cs, c.isNet = false := by
    intro c hc
    cases c with
    | net c => exact absurd hc (hnet c)
    | _ => rfl
  obtain ⟨m, e, hm⟩ := subnet_base hb hcs hnet' hsel False false
  rw [e, if_neg (by simp)]
  refine forE_keyError (good := fun s => Spec.HasLayer cs.length al ops (.ofList s)) ?_ ?_ ?_
  · intro pre post hpre hgood
    have hnd : (product ((selSets (afterP cs dir z al ops).slices sel).drop 1)).Nodup :=
      nodup_product fun s hs => sets_nodup hpi.core.snodup sel s (List.mem_of_mem_drop hs)
    rw [hpre] at hnd
    have hsub : ∀ s ∈ pre, s ∈ product ((selSets (afterP cs dir z al ops).slices sel).drop 1) := by
      intro s hs; rw [hpre]; simp [hs]
    have hl : ∀ s ∈ pre, LYs cs.length (fun a x => ∃ op ∈ ops, Spec.NamesLayerP cs.length al a x op) s :=
      fun s hs => (hasLayer_LYs (fun _ _ _ _ => Iff.rfl) s).1 (hgood s hs)
    have hpar := hb.params hcs
    set sets := selSets (afterP cs dir z al ops).slices sel with hsets
    have hslen : sets.length = cs.length + 1 := by
      rw [hsets, length_selSets (by rw [hsel, hpi.core.slen, hpar.1]), hpi.core.slen, hpar.1]
    have hhead : ∀ x, x ∈ sets.headD [] ↔ inSel sets 0 x := by
      intro x
      unfold inSel
      cases sets <;> simp
    have hcons : ∀ n s, s.length = cs.length → (n :: s ∈ product sets ↔ n ∈ sets.headD [] ∧ s ∈ product (sets.drop 1)) := by
      intro n s hl
      rw [inSel_product (by omega), hhead, mem_product_drop, hslen]
      simp [hl]
    have hbF : BuiltX (afterP cs dir z al ops) cs dir z al False
      (fun x => Spec.Happened (Spec.NamesNodeP cs.length al x) ops)
      (fun a x => ∃ op ∈ ops, Spec.NamesLayerP cs.length al a x op)
      (fun n s => Spec.Happened (Spec.PutsOnLayer cs.length n s) ops)
      (fun s i j => Spec.readP cs.length dir al ops s i j) :=
        ⟨ops, rfl, False.elim, fun _ => Iff.rfl, fun _ _ _ _ => Iff.rfl, fun _ _ _ _ => Iff.rfl, fun _ _ _ _ => rfl⟩
    obtain ⟨q, e2, -⟩ := subnetLoop hbF hcs (fun h => h.elim) hm (sets.headD []) pre (List.nodup_append.1 hnd).1
        (by
          intro x hx h1 h2
          cases al with
          | true => exact ⟨h1 rfl, (hhead x).1 hx⟩
          | false =>
            obtain ⟨s, hs, hs2⟩ := h2 rfl
            have := (hl s hs).1
            simp only [Bool.false_eq_true, if_false]
            exact ⟨s, this, hs2, (hcons x s this).2 ⟨hx, hsub s hs⟩⟩)
        (by
          intro ha n s hn hs h
          exact ⟨h, (hcons n s (hl s hs).1).2 ⟨hn, hsub s hs⟩⟩)
        (by
          intro s hs h
          refine ⟨h.1, fun k x hx => ⟨h.2 k x hx, ?_⟩⟩
          exact (mem_product_drop.1 (hsub s hs)).2 k x hx)
        hl
    exact ⟨q, e2⟩
  · intro s hs hbad q
    obtain ⟨-, -, s2, -⟩ := after_spec hcs dir z al ops
    rw [← s2, Option.not_isSome_iff_eq_none] at hbad
    unfold subnetLayerA
    rw [hbad]
  · obtain ⟨s, h1, h2⟩ := hex
    exact ⟨s, (asked_iff hcs hsel s).2 h1, h2⟩

/-- **C84.** A wrong number of layer selections is an `AssertionError`. -/
theorem C84_wrong_number (hcs : cs ≠ []) (hsel : sel.length ≠ cs.length + 1) (nolinks : Bool) :
    (afterP cs dir z al ops).subnet sel nolinks = .error .assertionError := by
  have hpar := after_params hcs dir z al ops
  unfold MPlex.subnet
  rw [if_pos (by rw [hpar.1]; exact hsel)]

/-- **C86, a defect.** A multiplex network one of whose couplings is a network has no sub-networks: `subnet` raises
`AssertionError` whatever is selected. -/
theorem C86_false_subnet (hcs : cs ≠ []) {c : MNet α W} (hc : .net c ∈ cs) (nolinks : Bool) :
    (afterP cs dir z al ops).subnet sel nolinks = .error .assertionError := by
  have hpar := after_params hcs dir z al ops
  unfold MPlex.subnet
  split
  · rfl
  · have : (afterP cs dir z al ops).emptyCopy = .error .assertionError := by
      unfold emptyCopy
      rw [hpar.2.2.2.2, if_pos]
      exact List.any_eq_true.2 ⟨_, hc, rfl⟩
    simp only [this]

end

/-! ### The hypotheses are met -/

/-- Two layers, a link on each; the part with nodes 1 and 2 (and a node that is not there) on layer 10. -/
def exSubOps : List (POp Int Int) := [.setItem [1, 2, 10] 5, .setItem [2, 3, 20] 7, .addNode 4 none]

example : ((MPlex.init [.categorical 1] false 0 true).run exSubOps).subnet [some [1, 2, 9], some [10]] false =
    .ok ((MPlex.init [.categorical 1] false 0 true).run
      [.addLayer 1 0, .addLayer 2 0, .addLayer 10 1, .intraAddNode (.el 10) 1, .intraAddNode (.el 10) 2,
        .intraSet (.el 10) 1 2 5, .intraSet (.el 10) 2 1 5]) := by
  decide +kernel

example : ((MPlex.init [.categorical 1] false 0 true).run exSubOps).subnet [none, some [10, 30]] false =
    .error .keyError := by
  decide +kernel

example : ((MPlex.init [.categorical (1 : Int)] false 0 false).run exSubOps).subnet [some [1, 2, 3, 9], none] false ≠
    .error .keyError := by
  decide +kernel

example : ∃ s, Spec.Asked 1 true exSubOps [none, some [10, 30]] s ∧ ¬ Spec.HasLayer 1 true exSubOps (.ofList s) := by
  refine ⟨[30], ⟨rfl, fun k x hx => ?_⟩, ?_⟩
  · cases k with
    | zero => cases hx; exact .inl ⟨[10, 30], rfl, by simp⟩
    | succ k => simp at hx
  · rintro ⟨t, h1, h2, h3⟩
    cases ofList_inj' h1
    obtain ⟨op, hop, o, ho, hn⟩ := h3 0 30 rfl
    simp only [exSubOps, List.mem_cons, List.not_mem_nil, or_false] at hop
    have key : ∀ (i j s : Int) (w : Int), s ≠ 30 → ¬ Spec.NamesLayer 1 true 1 30 (.setItem [i, j, s] w : Op Int Int) := by
      rintro i j s w hs ⟨u, v, ⟨hu, hv, hlink⟩, h⟩
      match u, v, hu, hv with
      | [a, b], [c, d], _, _ =>
        rcases hlink with hl | ⟨i', j', s', e1, e2, e3⟩
        · simp [Spec.link] at hl
        · simp at e1 e2 e3 h
          obtain ⟨-, e1⟩ := e1
          obtain ⟨-, e2⟩ := e2
          obtain ⟨-, -, e3⟩ := e3
          rw [← e1] at e2 e3
          simp at e2 e3
          omega
    rcases hop with rfl | rfl | rfl
    · cases ho; exact key _ _ _ _ (by decide) hn
    · cases ho; exact key _ _ _ _ (by decide) hn
    · cases ho; exact hn

end Pymnet
