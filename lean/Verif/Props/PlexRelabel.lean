import Verif.Proofs.RelabelP
import Verif.Props.PlexSubnet
import Verif.Props.Transforms4
import Verif.Props.TransformsPlex

/-! Renaming of multiplex networks: C85. -/

set_option linter.unusedSectionVars false
set_option linter.unusedSimpArgs false

namespace Pymnet

open Py MPlex

variable {α W : Type} [DecidableEq α] [DecidableEq W] [Zero W]

section
variable [IntNames α] {p : MPlex α W} {cs : List (Coupling α W)} {dir al : Bool} {z : W} {ns : Prop} {S : α → Prop}
  {LY : Nat → α → Prop} {NL : α → List α → Prop} {R : List α → α → α → W}

/-- Internal: the new names of a layer tuple. -/
theorem renameAll_renL {d : Nat} (nodeNames : Dict α α) (layerNames : List (Dict α α)) {s : List α} (hs : s.length = d) :
    renameAll (padNames d layerNames) s = renL (Spec.newName nodeNames layerNames) s := by
  apply List.ext_getElem?
  intro k
  by_cases hk : k < d
  · obtain ⟨D, h1, h2⟩ := allNames_get (d := d) nodeNames layerNames (k := k + 1) (by omega)
    unfold allNames at h1
    rw [List.getElem?_cons_succ, List.getElem?_take_of_lt hk] at h1
    have e : s[k]? = some s[k] := List.getElem?_eq_getElem (by omega)
    rw [(renameAll_get k (dget D s[k])).2 ⟨D, s[k], h1, e, rfl⟩, ((renL_get _ s k _).2 ⟨_, e, rfl⟩), h2]
  · rw [List.getElem?_eq_none, List.getElem?_eq_none]
    · rw [renL_length]; omega
    · unfold renameAll; rw [List.length_zipWith]; omega

/-- Internal: the state of `relabel` before the links are copied. -/
theorem relabel_base (h : BuiltX p cs dir z al ns S LY NL R) (hcs : cs ≠ []) (hnet : ∀ c ∈ cs, c.isNet = false)
    (ns' : Prop) (nodeNames : Dict α α) (layerNames : List (Dict α α)) :
    ∃ q, p.relabel nodeNames layerNames =
        forE (relabelLayerA p nodeNames (padNames cs.length layerNames)) p.iterLayers q ∧
      BuiltX q cs dir z al ns' (fun y => ∃ x, S x ∧ y = Spec.newName nodeNames layerNames 0 x)
        (fun a y => ∃ x, LY a x ∧ y = Spec.newName nodeNames layerNames a x)
        (fun n s => ∃ x t, t.length = cs.length ∧ NL x t ∧ n = Spec.newName nodeNames layerNames 0 x ∧
          s = renL (Spec.newName nodeNames layerNames) t) (fun _ _ _ => 0) := by
  set f := Spec.newName nodeNames layerNames with hf
  have hp := h.pinv hcs
  have hpar := h.params hcs
  have hnn : ∀ x, dget nodeNames x = f 0 x := fun _ => rfl
  have he : p.emptyCopy = .ok (MPlex.init cs dir z al) := by
    unfold emptyCopy
    rw [hpar.2.2.2.2, hpar.2.1, hpar.2.2.1, hpar.2.2.2.1, if_neg]
    rw [Bool.not_eq_true, List.any_eq_false]
    intro c hc
    simp [hnet c hc]
  obtain ⟨q1, e1, h1⟩ := (BuiltX.init cs dir z al ns').addNodes hcs (dget nodeNames) (p.slices.headD [])
  have hsl : p.slices.length = cs.length + 1 := by rw [hp.core.slen, hpar.1]
  obtain ⟨q2, e2, h2⟩ := h1.relabelLayers hcs ((padNames cs.length layerNames).take cs.length) (p.slices.drop 1) 1 (le_refl _)
    (by rw [List.length_drop, hsl]; omega) (by rw [List.length_take, List.length_drop, hsl]; unfold padNames; simp; omega)
  have hhead : ∀ x, x ∈ p.slices.headD [] ↔ S x := by
    intro x
    have := h.mem_slices hcs (Nat.zero_le _) x
    rw [if_pos rfl] at this
    rw [← this]
    cases p.slices <;> simp
  have h3 : BuiltX q2 cs dir z al ns' (fun y => ∃ x, S x ∧ y = f 0 x) (fun a y => ∃ x, LY a x ∧ y = f a x) (fun _ _ => False)
      (fun _ _ _ => 0) := by
    refine h2.congr (fun y => ?_) (fun a y a1 a2 => ?_) (fun _ _ _ _ => Iff.rfl) (fun _ _ _ _ => rfl)
    · simp only [hhead, false_or]
      rfl
    · rw [false_or, and_iff_right a1]
      obtain ⟨b, rfl⟩ : ∃ b, a = b + 1 := ⟨a - 1, by omega⟩
      obtain ⟨D, g1, g2⟩ := allNames_get (d := cs.length) nodeNames layerNames (k := b + 1) a2
      unfold allNames at g1
      rw [List.getElem?_cons_succ] at g1
      have hlt : b + 1 < p.slices.length := by omega
      have hm : ∀ x, x ∈ p.slices[b + 1] ↔ LY (b + 1) x := by
        intro x
        have := h.mem_slices hcs a2 x
        rw [if_neg (by omega)] at this
        rw [← this]
        simp [List.getD, List.getElem?_eq_getElem hlt]
      have hs : (p.slices.drop 1)[b]? = some p.slices[b + 1] := by
        rw [List.getElem?_drop, Nat.add_comm]; exact List.getElem?_eq_getElem hlt
      rw [Nat.add_sub_cancel]
      constructor
      · rintro ⟨d, s, x, d1, d2, d3, rfl⟩
        rw [g1] at d1; cases d1
        rw [hs] at d2; cases d2
        exact ⟨x, (hm x).1 d3, g2 x⟩
      · rintro ⟨x, hx, rfl⟩
        exact ⟨D, _, x, g1, hs, (hm x).2 hx, (g2 x).symm⟩
  have hunf : ∀ nls q3, (if p.fic then Except.ok [] else p.nodeLayers) = .ok nls →
      forE (relabelNodeLayerP nodeNames (padNames cs.length layerNames)) nls q2 = .ok q3 →
      p.relabel nodeNames layerNames =
        forE (relabelLayerA p nodeNames (padNames cs.length layerNames)) p.iterLayers q3 := by
    intro nls q3 hn hq
    unfold MPlex.relabel
    rw [he]
    dsimp only
    rw [e1]
    dsimp only
    rw [hpar.1, e2]
    dsimp only
    rw [hn]
    dsimp only
    rw [hq]
  cases al with
  | true =>
    refine ⟨q2, hunf [] q2 (by rw [hpar.2.2.2.1]; rfl) rfl,
      h3.congr (fun _ => Iff.rfl) (fun _ _ _ _ => Iff.rfl) (by simp) (fun _ _ _ _ => rfl)⟩
  | false =>
    obtain ⟨l, l1, l2, l3⟩ := h.nodeLayers hcs
    have hu : ∀ u ∈ l, ∃ n s, u = n :: s ∧ s.length = cs.length ∧ NL n s ∧ S n ∧ LYs cs.length LY s := by
      intro u hu
      obtain ⟨n, s, r1, r2, r3⟩ := (l3 u).1 hu
      exact ⟨n, s, r1, r2, r3, h.onLayer hcs r2 r3⟩
    obtain ⟨q3, e3, h4⟩ := h3.addNodeLs' hcs (g := relabelNodeLayerP nodeNames (padNames cs.length layerNames))
      (f 0) (renL f) l (by
        intro u hul
        obtain ⟨n, s, rfl, r1, r2, r3, r4⟩ := hu u hul
        refine ⟨n, s, rfl, ⟨n, r3, rfl⟩, ⟨by rw [renL_length, r1], fun k y hy => ?_⟩, fun q => ?_⟩
        · obtain ⟨x, hx, rfl⟩ := (renL_get f s k y).1 hy
          exact ⟨x, r4.2 k x hx, rfl⟩
        · unfold relabelNodeLayerP
          dsimp only
          rw [renameAll_renL nodeNames layerNames r1, hnn])
    refine ⟨q3, hunf l q3 (by rw [hpar.2.2.2.1]; exact l1) e3,
      h4.congr (fun _ => Iff.rfl) (fun _ _ _ _ => Iff.rfl) (fun _ n s _ => ?_) (fun _ _ _ _ => rfl)⟩
    rw [false_or]
    constructor
    · rintro ⟨x, t, ht, h1, h2⟩
      obtain ⟨n', s', e', r1, r2⟩ := (l3 _).1 ht
      cases e'
      exact ⟨x, t, r1, r2, h1, h2⟩
    · rintro ⟨x, t, r1, r2, h1, h2⟩
      exact ⟨x, t, (l3 _).2 ⟨x, t, rfl, r1, r2⟩, h1, h2⟩

end

section
variable [IntNames α] {cs : List (Coupling α W)} {dir al : Bool} {z : W} {ops : List (POp α W)}

/-- Internal: a layer is a tuple of names. -/
theorem hasLayer_iff (al : Bool) (ops : List (POp α W)) (s : List α) : Spec.HasLayer cs.length al ops (.ofList s) ↔
    LYs cs.length (fun a x => ∃ op ∈ ops, Spec.NamesLayerP cs.length al a x op) s :=
  hasLayer_LYs (fun _ _ _ _ => Iff.rfl) s

/-- **C85.** `relabel` of a multiplex network whose couplings are not networks and that has no self-links: if different
nodes, and different elementary layers of an aspect, get different names, the result is a multiplex network with the same
couplings, directedness and alignment, and it is the network with the new names. -/
theorem C85_relabel (hcs : cs ≠ []) (hnet : ∀ c, .net c ∉ cs) (hself : Spec.NoIntraSelf ops) (nodeNames : Dict α α)
    (layerNames : List (Dict α α))
    (hnodes : ∀ x y, Spec.Happened (Spec.NamesNodeP cs.length al x) ops → Spec.Happened (Spec.NamesNodeP cs.length al y) ops →
      Spec.newName nodeNames layerNames 0 x = Spec.newName nodeNames layerNames 0 y → x = y)
    (hlayers : ∀ a, 1 ≤ a → a ≤ cs.length → ∀ x y, (∃ op ∈ ops, Spec.NamesLayerP cs.length al a x op) →
      (∃ op ∈ ops, Spec.NamesLayerP cs.length al a y op) →
      Spec.newName nodeNames layerNames a x = Spec.newName nodeNames layerNames a y → x = y) :
    ∃ ops', (afterP cs dir z al ops).relabel nodeNames layerNames = .ok (afterP cs dir z al ops') ∧
      Spec.RenamedNet cs.length dir al ops (Spec.newName nodeNames layerNames) ops' := by
  have hb := (builtX_after cs dir z al ops).weaken (ns' := True) (fun _ => hself)
  have hnet' : ∀ c ∈ cs, c.isNet = false := by
    intro c hc
    cases c with
    | net c => exact absurd hc (hnet c)
    | _ => rfl
  obtain ⟨q, e, hq⟩ := relabel_base hb hcs hnet' True nodeNames layerNames
  set f := Spec.newName nodeNames layerNames with hf
  have hren : ∀ s, LYs cs.length (fun a x => ∃ op ∈ ops, Spec.NamesLayerP cs.length al a x op) s →
      LYs cs.length (fun a y => ∃ x, (∃ op ∈ ops, Spec.NamesLayerP cs.length al a x op) ∧ y = f a x) (renL f s) := by
    intro s hs
    refine ⟨by rw [renL_length, hs.1], fun k y hy => ?_⟩
    obtain ⟨x, hx, rfl⟩ := (renL_get f s k y).1 hy
    exact ⟨x, hs.2 k x hx, rfl⟩
  obtain ⟨q', e', R', hq', r1, r2⟩ := relabelLinks (f := f) hb hcs
    (by
      intro s i hs
      obtain ⟨-, -, -, -, s4⟩ := after_spec hcs dir z al ops
      rw [← s4 s i i hs.1, after_noself hcs dir z al ops hself]; rfl)
    (by rintro rfl t i j; exact readP_symm ..) hnodes hlayers nodeNames (padNames cs.length layerNames) (fun _ => rfl)
    (fun s hs => renameAll_renL nodeNames layerNames hs) (fun x hx => ⟨x, hx, rfl⟩) hren
    (fun _ x s hs hx => ⟨x, s, hs, hx, rfl, rfl⟩) hq
  obtain ⟨ops', rfl, h1, h2, h3, h4, h5⟩ := hq'
  refine ⟨ops', e.trans e', ⟨h2, h3, fun u => ?_, fun s i j hs hi hj => ?_, fun t a b ht hne => ?_, h1 trivial⟩⟩
  · have hrn : ∀ n s, Spec.renamed f (n :: s) = f 0 n :: renL f s := by
      intro n s
      simp [Spec.renamed, renL, List.mapIdx_cons]
    unfold Spec.HasNodeLayer
    constructor
    · rintro ⟨n, s, rfl, hl, ⟨ha, g1, g2⟩ | ⟨ha, g1⟩⟩
      · obtain ⟨x, hx, rfl⟩ := (h2 n).1 g1
        have g2' := (hasLayer_LYs h3 s).1 g2
        -- the names of the layer
        obtain ⟨t, ht1, ht2⟩ : ∃ t, LYs cs.length (fun a x => ∃ op ∈ ops, Spec.NamesLayerP cs.length al a x op) t ∧
            s = renL f t := by
          choose! g hg using fun (k : Nat) (y : α) (hy : s[k]? = some y) => g2'.2 k y hy
          refine ⟨s.mapIdx g, ⟨by simp [hl], fun k x hx => ?_⟩, ?_⟩
          · rw [List.getElem?_mapIdx] at hx
            cases hk : s[k]? with
            | none => rw [hk] at hx; simp at hx
            | some y =>
              rw [hk] at hx
              simp at hx; subst hx
              exact (hg k y hk).1
          · apply List.ext_getElem?
            intro k
            unfold renL
            rw [List.getElem?_mapIdx, List.getElem?_mapIdx]
            cases hk : s[k]? with
            | none => rfl
            | some y => simp [← (hg k y hk).2]
        exact ⟨x :: t, ⟨x, t, rfl, ht1.1, .inl ⟨ha, hx, (hasLayer_iff al ops t).2 ht1⟩⟩, by rw [hrn, ht2]⟩
      · obtain ⟨x, t, t1, t2, rfl, rfl⟩ := (h4 ha n s hl).1 g1
        exact ⟨x :: t, ⟨x, t, rfl, t1, .inr ⟨ha, t2⟩⟩, (hrn x t).symm⟩
    · rintro ⟨v, ⟨n, s, rfl, hl, ⟨ha, g1, g2⟩ | ⟨ha, g1⟩⟩, rfl⟩
      · refine ⟨f 0 n, renL f s, hrn n s, by rw [renL_length, hl], .inl ⟨ha, (h2 _).2 ⟨n, g1, rfl⟩, ?_⟩⟩
        exact (hasLayer_LYs h3 _).2 (hren s ((hasLayer_iff al ops s).1 g2))
      · exact ⟨f 0 n, renL f s, hrn n s, by rw [renL_length, hl], .inr ⟨ha, (h4 ha _ _ (by rw [renL_length, hl])).2
          ⟨n, s, hl, g1, rfl, rfl⟩⟩⟩
  · have hs' := (hasLayer_iff al ops s).1 hs
    have hl : (renL f s).length = cs.length := by rw [renL_length, hs'.1]
    change Spec.readP cs.length dir al ops' (renL f s) _ _ = _
    rw [h5 _ _ _ hl]
    rcases r1 s i j hs' hi hj with r | ⟨rn, r⟩
    · exact r
    · rw [not_not] at rn
      rw [r, rn]
  · rw [h5 t a b ht] at hne
    obtain ⟨s, i, j, g1, g2, g3, g4, g5, g6, -⟩ := r2 t a b hne
    exact ⟨s, i, j, (hasLayer_iff al ops s).2 g1, g2, g3, g4, g5, g6⟩

/-- **C85.** If two linked nodes get the same name, or a node is linked to itself inside a layer, `relabel` raises
`KeyError`. -/
theorem C85_merged_nodes (hcs : cs ≠ []) (hnet : ∀ c, .net c ∉ cs) (nodeNames : Dict α α) (layerNames : List (Dict α α))
    {s : List α} {i j : α} (hs : s.length = cs.length) (hne : Spec.readP cs.length dir al ops s i j ≠ 0)
    (hij : Spec.newName nodeNames layerNames 0 i = Spec.newName nodeNames layerNames 0 j) :
    (afterP cs dir z al ops).relabel nodeNames layerNames = .error .keyError := by
  have hb := (builtX_after cs dir z al ops).weaken (ns' := False) False.elim
  have hnet' : ∀ c ∈ cs, c.isNet = false := by
    intro c hc
    cases c with
    | net c => exact absurd hc (hnet c)
    | _ => rfl
  obtain ⟨q, e, hq⟩ := relabel_base hb hcs hnet' False nodeNames layerNames
  rw [e]
  have hpar := hb.params hcs
  set p := afterP cs dir z al ops with hp
  set f := Spec.newName nodeNames layerNames with hf
  -- one assignment on any network under construction
  have hlink : ∀ t a b q, LYs cs.length (fun a x => ∃ op ∈ ops, Spec.NamesLayerP cs.length al a x op) t →
      (∃ S LY NL R, BuiltX q cs dir z al False S LY NL R) →
      (f 0 a ≠ f 0 b → ∃ q', relabelLinkA p nodeNames (padNames cs.length layerNames) t a q [b] = .ok q' ∧
        ∃ S LY NL R, BuiltX q' cs dir z al False S LY NL R) ∧
      (f 0 a = f 0 b → relabelLinkA p nodeNames (padNames cs.length layerNames) t a q [b] = .error .keyError) := by
    rintro t a b q ht ⟨S, LY, NL, R, hq⟩
    obtain ⟨c, c1, c2, c3, c4, c5, c6, c7, c8⟩ := hb.child hcs ht
    obtain ⟨w, hread⟩ : ∃ w, p.view.readItem (a :: b :: t) = .ok (.weight w) := by
      rw [View.readItem_addresses (a := a :: t) (b := b :: t) (v := p.view) ⟨by
        change _ = p.aspects + 1; rw [hpar.1]; simp [ht.1], by
        change _ = p.aspects + 1; rw [hpar.1]; simp [ht.1], .inr ⟨_, _, _, rfl, rfl, rfl⟩⟩]
      change ∃ w, (p.getLink _).map _ = _
      by_cases hab : a = b
      · subst hab
        rw [getLink_self]; exact ⟨_, rfl⟩
      · rw [getLink_intra c1 hab]; exact ⟨_, rfl⟩
    have hl : (renL f t).length = cs.length := by rw [renL_length, ht.1]
    have ha : Spec.Addresses cs.length (f 0 a :: f 0 b :: renL f t) (f 0 a :: renL f t) (f 0 b :: renL f t) :=
      ⟨by simp [hl], by simp [hl], .inr ⟨_, _, _, rfl, rfl, rfl⟩⟩
    have hval : relabelLinkA p nodeNames (padNames cs.length layerNames) t a q [b] =
        (q.setItem (f 0 a :: f 0 b :: renL f t) w).toExcept := by
      unfold relabelLinkA
      simp only [hread, Item.num, renameAll_renL nodeNames layerNames ht.1]
      rfl
    rw [hval]
    constructor
    · intro hab
      obtain ⟨q', e', hq'⟩ := hq.setItem hcs hab ha w
      exact ⟨q', e', _, _, _, _, hq'⟩
    · intro hab
      have := (setItem_spec (hq.pinv hcs) (item := f 0 a :: f 0 b :: renL f t) (i := f 0 a) (j := f 0 b) (s := renL f t)
        (t := renL f t) (by rw [(hq.params hcs).1]; exact ha) w).1
      rw [if_neg (by simp [hab])] at this
      unfold Outcome.toExcept
      rw [this]
  have hnode : ∀ t (c : MNet α W), LYs cs.length (fun a x => ∃ op ∈ ops, Spec.NamesLayerP cs.length al a x op) t → c.Inv →
      c.aspects = 0 → ∀ a (nl : List α), nl ∈ c.iterTotal [a] none → ∃ b, nl = [b] := by
    intro t c ht c2 c3 a nl hnl
    rw [MNet.mem_iterTotal c2.l, ← MNet.reads_ne_noEdge c2.l, ← MNet.reads_ne_noEdge c2.l] at hnl
    rcases hnl.1 with hne | hne
    · obtain ⟨b, rfl, -⟩ := (c2.one c3 hne).2; exact ⟨b, rfl⟩
    · obtain ⟨b, rfl, -⟩ := (c2.one c3 hne).1; exact ⟨b, rfl⟩
  have hstep : ∀ t a nl q, LYs cs.length (fun a x => ∃ op ∈ ops, Spec.NamesLayerP cs.length al a x op) t →
      (∃ b, nl = [b]) → (∃ S LY NL R, BuiltX q cs dir z al False S LY NL R) →
      (∃ q', relabelLinkA p nodeNames (padNames cs.length layerNames) t a q nl = .ok q' ∧
        ∃ S LY NL R, BuiltX q' cs dir z al False S LY NL R) ∨
      relabelLinkA p nodeNames (padNames cs.length layerNames) t a q nl = .error .keyError := by
    rintro t a nl q ht ⟨b, rfl⟩ hq
    by_cases hab : f 0 a = f 0 b
    · exact .inr ((hlink t a b q ht hq).2 hab)
    · exact .inl ((hlink t a b q ht hq).1 hab)
  have hL := (readP_ne hcs hs hne).1
  have hs' := (hasLayer_iff al ops s).1 hL
  refine forE_stop (P := fun q => ∃ S LY NL R, BuiltX q cs dir z al False S LY NL R) p.iterLayers ⟨_, _, _, _, hq⟩ ?_
    ⟨.ofList s, hb.mem_iterLayers' hcs hs', ?_⟩
  · intro L hLm q1 hq1
    obtain ⟨t, rfl, ht⟩ := hb.mem_iterLayers hcs hLm
    obtain ⟨c, c1, c2, c3, c4, c5, c6, c7, c8⟩ := hb.child hcs ht
    unfold relabelLayerA
    rw [c1, ofList_toList']
    dsimp only
    refine forE_either (P := fun q => ∃ S LY NL R, BuiltX q cs dir z al False S LY NL R) _ hq1 fun a ha q2 hq2 => ?_
    exact forE_either (P := fun q => ∃ S LY NL R, BuiltX q cs dir z al False S LY NL R) _ hq2 fun nl hnl q3 hq3 =>
      hstep t a nl q3 ht (hnode t c ht c2 c3 a nl hnl) hq3
  · intro q1 hq1
    obtain ⟨c, c1, c2, c3, c4, c5, c6, c7, c8⟩ := hb.child hcs hs'
    unfold relabelLayerA
    rw [c1, ofList_toList']
    dsimp only
    have hne' : c.reads [i] [j] ≠ c.noEdge := by rw [c8, c5]; exact hne
    obtain ⟨⟨x, ex, hx⟩, -⟩ := c2.one c3 hne'
    cases ex
    refine forE_stop (P := fun q => ∃ S LY NL R, BuiltX q cs dir z al False S LY NL R) _ hq1 (fun a ha q2 hq2 => ?_)
      ⟨i, hx, fun q2 hq2 => ?_⟩
    · exact forE_either (P := fun q => ∃ S LY NL R, BuiltX q cs dir z al False S LY NL R) _ hq2 fun nl hnl q3 hq3 =>
        hstep s a nl q3 hs' (hnode s c hs' c2 c3 a nl hnl) hq3
    · refine forE_stop (P := fun q => ∃ S LY NL R, BuiltX q cs dir z al False S LY NL R) _ hq2 (fun nl hnl q3 hq3 =>
        hstep s i nl q3 hs' (hnode s c hs' c2 c3 i nl hnl) hq3) ⟨[j], ?_, fun q3 hq3 => (hlink s i j q3 hs' hq3).2 hij⟩
      rw [MNet.mem_iterTotal c2.l]
      exact ⟨.inl ((MNet.reads_ne_noEdge c2.l ..).1 hne'), trivial⟩

/-- **C86, a defect.** A multiplex network one of whose couplings is a network cannot be renamed: `relabel` raises
`AssertionError` whatever the names are. -/
theorem C86_false_relabel (hcs : cs ≠ []) {c : MNet α W} (hc : .net c ∈ cs) (nodeNames : Dict α α)
    (layerNames : List (Dict α α)) :
    (afterP cs dir z al ops).relabel nodeNames layerNames = .error .assertionError := by
  have hpar := after_params hcs dir z al ops
  have : (afterP cs dir z al ops).emptyCopy = .error .assertionError := by
    unfold emptyCopy
    rw [hpar.2.2.2.2, if_pos]
    exact List.any_eq_true.2 ⟨_, hc, rfl⟩
  unfold MPlex.relabel
  simp only [this]

end

/-! ### The hypotheses are met -/

/-- Nodes 1 and 2 swapped, node 3 called 8, layer 10 called 30. -/
example : ((MPlex.init [.categorical 1] false 0 true).run exSubOps).relabel [(1, 2), (2, 1), (3, 8)] [[(10, 30)]] =
    .ok ((MPlex.init [.categorical 1] false 0 true).run
      [.addNode 2 none, .addNode 1 none, .addNode 8 none, .addNode 4 none, .addLayer 30 1, .addLayer 20 1,
        .setItem [2, 1, 30] 5, .setItem [1, 2, 30] 5, .setItem [1, 8, 20] 7, .setItem [8, 1, 20] 7]) := by
  decide +kernel

example : Spec.NoIntraSelf exSubOps := by simp [exSubOps, Spec.NoIntraSelf]

/-- Nodes 1 and 2 get the same name. -/
example : ((MPlex.init [.categorical 1] false 0 true).run exSubOps).relabel [(1, 2)] [] = .error .keyError := by
  decide +kernel

example : ((MPlex.init [.categorical 1] false 0 true).run [.addLayer 10 1, .intraSet (.el 10) 1 1 (5 : Int)]).relabel
    ([] : Dict Int Int) [] = .error .keyError := by
  decide +kernel

end Pymnet
