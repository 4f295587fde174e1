import Verif.Props.Transforms3

/-! Properties C30, C31, C33: `relabel`, `normalize` and the supra-adjacency matrix. -/

set_option linter.unusedSectionVars false
set_option linter.unusedSimpArgs false

namespace Pymnet

open Py

variable {α W : Type} [DecidableEq α] [DecidableEq W]

variable {m : MNet α W} {d : Nat} {z : W} {dir al : Bool} {S : Nat → α → Prop} {NL : List α → Prop}
  {R : List α → List α → W}

theorem allNames_get {d : Nat} (nodeNames : Dict α α) (layerNames : List (Dict α α)) {k : Nat} (hk : k ≤ d) :
    ∃ D, (allNames d nodeNames layerNames)[k]? = some D ∧ ∀ x, dget D x = Spec.newName nodeNames layerNames k x := by
  unfold allNames padNames Spec.newName dget
  cases k with
  | zero => exact ⟨nodeNames, rfl, fun x => rfl⟩
  | succ k =>
    simp only [List.getElem?_cons_succ]
    rw [List.getElem?_take_of_lt (by omega), List.getElem?_append]
    by_cases hl : k < layerNames.length
    · rw [if_pos hl, List.getElem?_eq_getElem hl]
      exact ⟨_, rfl, fun x => rfl⟩
    · rw [if_neg hl, List.getElem?_replicate, if_pos (by omega), List.getElem?_eq_none (by omega)]
      exact ⟨_, rfl, fun x => by simp⟩

theorem renamed_eq {d : Nat} (nodeNames : Dict α α) (layerNames : List (Dict α α)) {nl : List α} (hl : nl.length = d + 1) :
    renameAll (allNames d nodeNames layerNames) nl = Spec.renamed (Spec.newName nodeNames layerNames) nl := by
  apply List.ext_getElem?
  intro i
  unfold Spec.renamed
  rw [List.getElem?_mapIdx]
  by_cases hi : i ≤ d
  · obtain ⟨D, h1, h2⟩ := allNames_get nodeNames layerNames hi
    have e : nl[i]? = some nl[i] := List.getElem?_eq_getElem (by omega)
    rw [(renameAll_get i (dget D nl[i])).2 ⟨D, nl[i], h1, e, rfl⟩, e, h2]
    rfl
  · rw [List.getElem?_eq_none (l := nl) (by omega), List.getElem?_eq_none]
    · rfl
    · rw [renameAll_length (by rw [length_allNames]; exact hl)]; omega

/-! ### C30 -/

/-- **C30.** If the renaming is injective on the nodes and on the elementary layers of each aspect,
`relabel` gives the network with the renamed nodes, layers and node-layers, and reads at renamed indices
what the network reads at the original ones. -/
theorem C30_relabel (h : Spec.Looks m d z dir al S NL R) (nodeNames : Dict α α) (layerNames : List (Dict α α))
    (hinj : ∀ k ≤ d, ∀ x y, S k x → S k y →
      Spec.newName nodeNames layerNames k x = Spec.newName nodeNames layerNames k y → x = y) :
    ∃ m' R', m.relabel nodeNames layerNames = .ok m' ∧
      Spec.Looks m' d z dir al (fun k y => ∃ x, S k x ∧ y = Spec.newName nodeNames layerNames k x)
        (fun nl => ∃ a, NL a ∧ nl = Spec.renamed (Spec.newName nodeNames layerNames) a) R' ∧
      (∀ u v, NL u → NL v → R' (Spec.renamed (Spec.newName nodeNames layerNames) u)
        (Spec.renamed (Spec.newName nodeNames layerNames) v) = R u v) ∧
      ∀ x y, R' x y ≠ z → ∃ u v, NL u ∧ NL v ∧ x = Spec.renamed (Spec.newName nodeNames layerNames) u ∧
        y = Spec.renamed (Spec.newName nodeNames layerNames) v := by
  have h1 : m.aspects = d := h.aspects_eq
  have h2 : m.noEdge = z := h.noEdge_eq
  have h3 : m.directed = dir := h.directed_eq
  have h4 : m.fic = al := h.aligned_eq
  have hsl : m.slices.length = d + 1 := by rw [h.inv.r.slen, h.aspects_eq]
  obtain ⟨m', R', e, hb, r1, r2⟩ := relabel_spec h.inv (fic_pos h) nodeNames layerNames (by
    intro i D s hD hs x hx y hy he
    have hi : i ≤ d := by have := (List.getElem?_eq_some_iff.1 hs).1; omega
    obtain ⟨D', e1, e2⟩ := allNames_get nodeNames layerNames hi
    rw [h1, e1] at hD; cases hD
    rw [e2, e2] at he
    exact hinj i hi x y ((h.inSlice hi x).1 ⟨s, hs, hx⟩) ((h.inSlice hi y).1 ⟨s, hs, hy⟩) he)
  rw [h1, h2, h3, h4] at hb
  rw [h1] at r1
  rw [h1, h2] at r2
  have hlen : ∀ a ∈ product m.slices, a.length = d + 1 := by
    intro a ha
    exact (h.sound.length_of_mem ha).trans (congrArg (· + 1) h.aspects_eq)
  have hR1 : ∀ u v, NL u → NL v → R' (Spec.renamed (Spec.newName nodeNames layerNames) u)
      (Spec.renamed (Spec.newName nodeNames layerNames) v) = R u v := by
    intro u v hu hv
    have := r1 u (h.nl_product hu) v (h.nl_product hv)
    rwa [renamed_eq _ _ (h.nl_length hu), renamed_eq _ _ (h.nl_length hv), h.reads_eq (h.nl_length hu) (h.nl_length hv)] at this
  refine ⟨m', R', e, (hb.looks h.al0 ?_).congr (fun k hk y => ?_) (fun nl => ?_) (fun _ _ _ _ => rfl), hR1, ?_⟩
  · rintro - nl ⟨a, ha, rfl⟩
    have hl := h.nl_length ((h.nodeLayers.2 a).1 ha)
    rw [renameAll_length (by rw [length_allNames]; exact hl)]; exact hl
  · obtain ⟨D, e1, e2⟩ := allNames_get nodeNames layerNames hk
    constructor
    · rintro ⟨D', s, e3, hs, x, hx, rfl⟩
      rw [e1] at e3; cases e3
      exact ⟨x, (h.inSlice hk x).1 ⟨s, hs, hx⟩, e2 x⟩
    · rintro ⟨x, hx, rfl⟩
      obtain ⟨s, hs, hx⟩ := (h.inSlice hk x).2 hx
      exact ⟨D, s, e1, hs, x, hx, (e2 x).symm⟩
  · cases al with
    | false =>
      simp only [Bool.false_eq_true, if_false]
      refine exists_congr fun a => ?_
      rw [h.nodeLayers.2]
      refine and_congr_right fun ha => ?_
      rw [renamed_eq _ _ (h.nl_length ha)]
    | true =>
      rw [if_pos rfl]
      simp only [h.nl_aligned]
      constructor
      · rintro ⟨hl, g⟩
        have hch : ∀ i (hi : i < nl.length), ∃ x, S i x ∧ nl[i] = Spec.newName nodeNames layerNames i x := by
          intro i hi
          obtain ⟨D, s, e3, hs, x, hx, he⟩ := g i nl[i] (List.getElem?_eq_getElem hi)
          have hi' : i ≤ d := by omega
          obtain ⟨D', e1, e2⟩ := allNames_get nodeNames layerNames hi'
          rw [e1] at e3; cases e3
          exact ⟨x, (h.inSlice hi' x).1 ⟨s, hs, hx⟩, by rw [he, e2]⟩
        choose f hf1 hf2 using hch
        refine ⟨List.ofFn (fun i : Fin nl.length => f i.1 i.2), ⟨by simp [hl], fun i x hx => ?_⟩, ?_⟩
        · rw [List.getElem?_ofFn] at hx
          split at hx
          · rename_i hi; cases hx; exact hf1 i hi
          · cases hx
        · apply List.ext_getElem?
          intro i
          unfold Spec.renamed
          rw [List.getElem?_mapIdx, List.getElem?_ofFn]
          by_cases hi : i < nl.length
          · rw [dif_pos hi, List.getElem?_eq_getElem hi, hf2 i hi]; rfl
          · rw [dif_neg hi, List.getElem?_eq_none (by omega)]; rfl
      · rintro ⟨a, ⟨hl, g⟩, rfl⟩
        refine ⟨by simp [Spec.renamed, hl], fun i y hy => ?_⟩
        unfold Spec.renamed at hy
        rw [List.getElem?_mapIdx] at hy
        obtain ⟨x, hx, rfl⟩ := Option.map_eq_some_iff.1 hy
        have hi : i ≤ d := by have := (List.getElem?_eq_some_iff.1 hx).1; omega
        obtain ⟨D, e1, e2⟩ := allNames_get nodeNames layerNames hi
        obtain ⟨s, hs, hxs⟩ := (h.inSlice hi x).2 (g i x hx)
        exact ⟨D, s, e1, hs, x, hxs, (e2 x).symm⟩
  · intro x y hxy
    obtain ⟨a, ha, b, hb', rfl, rfl⟩ := r2 x y hxy
    rw [r1 a ha b hb', h.reads_eq (hlen a ha) (hlen b hb')] at hxy
    have hk := h.linked (hlen a ha) (hlen b hb') hxy
    exact ⟨a, b, hk.1.2, hk.2.2, renamed_eq _ _ (hlen a ha), renamed_eq _ _ (hlen b hb')⟩

/-- **C30**, relabelling back: if the second renaming undoes the first one, relabelling twice gives a network
that looks like the original one, and is `==` to it. Missing: `==` for networks with two or more aspects
that are not node-aligned. -/
theorem C30_back_partial (h : Spec.Looks m d z dir al S NL R) (nodeNames : Dict α α) (layerNames : List (Dict α α))
    (nodeNames' : Dict α α) (layerNames' : List (Dict α α))
    (hback : ∀ k ≤ d, ∀ x, S k x →
      Spec.newName nodeNames' layerNames' k (Spec.newName nodeNames layerNames k x) = x) :
    ∃ m' m'', m.relabel nodeNames layerNames = .ok m' ∧ m'.relabel nodeNames' layerNames' = .ok m'' ∧
      Spec.Looks m'' d z dir al S NL R ∧ (al = true ∨ d = 1 → m''.eq m = .ok true ∧ m.eq m'' = .ok true) := by
  obtain ⟨m', R', e, hl, r1, r2⟩ := C30_relabel h nodeNames layerNames (by
    intro k hk x y hx hy he
    rw [← hback k hk x hx, ← hback k hk y hy, he])
  obtain ⟨m'', R'', e', hl', r1', r2'⟩ := C30_relabel hl nodeNames' layerNames' (by
    rintro k hk _ _ ⟨x, hx, rfl⟩ ⟨y, hy, rfl⟩ he
    rw [hback k hk x hx, hback k hk y hy] at he
    rw [he])
  have hb : ∀ a, NL a → Spec.renamed (Spec.newName nodeNames' layerNames') (Spec.renamed (Spec.newName nodeNames layerNames) a) = a := by
    intro a ha
    apply List.ext_getElem?
    intro i
    unfold Spec.renamed
    rw [List.getElem?_mapIdx, List.getElem?_mapIdx]
    cases hx : a[i]? with
    | none => rfl
    | some x =>
      have hi : i ≤ d := by have := (List.getElem?_eq_some_iff.1 hx).1; have := h.nl_length ha; omega
      simp only [Option.map_some]
      rw [hback i hi x (((h.mem_product a).1 (h.nl_product ha)).2 i x hx)]
  have hl'' : Spec.Looks m'' d z dir al S NL R := by
    refine hl'.congr (fun k hk y => ?_) (fun nl => ?_) (fun u v hu hv => ?_)
    · constructor
      · rintro ⟨_, ⟨x, hx, rfl⟩, rfl⟩
        rw [hback k hk x hx]; exact hx
      · intro hy
        exact ⟨_, ⟨y, hy, rfl⟩, (hback k hk y hy).symm⟩
    · constructor
      · rintro ⟨_, ⟨a, ha, rfl⟩, rfl⟩
        rw [hb a ha]; exact ha
      · intro hn
        exact ⟨_, ⟨nl, hn, rfl⟩, (hb nl hn).symm⟩
    · by_cases hR : R u v = z
      · by_contra hne
        have hne' : R'' u v ≠ z := fun h0 => hne (h0.trans hR.symm)
        obtain ⟨_, _, ⟨a, ha, rfl⟩, ⟨b, hb', rfl⟩, e1, e2⟩ := r2' u v hne'
        rw [hb a ha] at e1
        rw [hb b hb'] at e2
        subst e1 e2
        have := r1' _ _ ⟨u, ha, rfl⟩ ⟨v, hb', rfl⟩
        rw [hb u ha, hb v hb', r1 u v ha hb'] at this
        exact hne this
      · have hk := h.linked hu hv hR
        have := r1' _ _ ⟨u, hk.1.2, rfl⟩ ⟨v, hk.2.2, rfl⟩
        rwa [hb u hk.1.2, hb v hk.2.2, r1 u v hk.1.2 hk.2.2] at this
  exact ⟨m', m'', e, e', hl'', fun hc => ⟨hl''.eq h hc, h.eq hl'' hc⟩⟩

example : ∃ m' m'', (after 1 0 false true transOps).relabel [(1, 2), (2, 1)] [[(10, 20)]] = .ok m' ∧
    m'.view.readItem [2, 3, 20, 11] = .ok (.weight 4) ∧ m'.relabel [(1, 2), (2, 1)] [[(20, 10)]] = .ok m'' ∧
    m''.eq (after 1 0 false true transOps) = .ok true := ⟨_, _, rfl, by decide, rfl, by decide⟩

/-! ### C31 -/

section

variable [LinearOrder α]

/-- The position in sorted order. -/
theorem sorted_numbers (idx : Int → α) (hidx : Function.Injective idx) (start : Int) {s : List α} (hn : s.Nodup) :
    Spec.Numbers (· ∈ s) s.length start (fun x => ((pySorted s).idxOf x : Int) + start) ∧
    Spec.NameToNumber idx (· ∈ s) (fun x => ((pySorted s).idxOf x : Int) + start) (indexMap idx start s) ∧
    Spec.NumberToName idx (· ∈ s) (fun x => ((pySorted s).idxOf x : Int) + start) (invertMap (indexMap idx start s)) := by
  have hp := pySorted_perm s
  have hnd : (pySorted s).Nodup := hp.nodup_iff.2 hn
  have hsorted : (pySorted s).Pairwise (· < ·) := by
    have := (pySorted_sorted s).and hnd
    exact this.imp fun ⟨h1, h2⟩ => lt_of_le_of_ne h1 h2
  have hget : ∀ x ∈ s, (pySorted s)[(pySorted s).idxOf x]? = some x := by
    intro x hx
    have : (pySorted s).idxOf x < (pySorted s).length := List.idxOf_lt_length_iff.2 (hp.mem_iff.2 hx)
    rw [List.getElem?_eq_getElem this, List.getElem_idxOf]
  have hmap : Spec.NameToNumber idx (· ∈ s) (fun x => ((pySorted s).idxOf x : Int) + start) (indexMap idx start s) := by
    intro x y
    by_cases hx : x ∈ s
    · rw [(indexMap_get idx start hn).1 _ x (hget x hx)]
      simp [hx, eq_comm]
    · rw [(indexMap_get idx start hn).2 x hx]
      simp [hx]
  have mono : ∀ x ∈ s, ∀ y ∈ s, x < y → (pySorted s).idxOf x < (pySorted s).idxOf y := by
    intro x hx y hy hxy
    by_contra hc
    rcases Nat.lt_or_eq_of_le (Nat.le_of_not_lt hc) with h1 | h1
    · have e1 : (pySorted s).idxOf x < (pySorted s).length := List.idxOf_lt_length_iff.2 (hp.mem_iff.2 hx)
      have := List.pairwise_iff_getElem.1 hsorted _ _ (by omega) e1 h1
      rw [List.getElem_idxOf, List.getElem_idxOf] at this
      exact absurd hxy (not_lt_of_gt this)
    · have e1 := hget x hx
      have e2 := hget y hy
      rw [h1, e1] at e2
      exact absurd (Option.some.inj e2) (ne_of_lt hxy)
  refine ⟨⟨?_, ?_⟩, hmap, ?_⟩
  · intro x y hx hy
    constructor
    · intro hxy
      have := mono x hx y hy hxy
      omega
    · intro hlt
      rcases lt_trichotomy x y with h1 | h1 | h1
      · exact h1
      · subst h1; omega
      · have := mono y hy x hx h1; omega
  · intro i
    constructor
    · rintro ⟨x, hx, rfl⟩
      have e1 : (pySorted s).idxOf x < (pySorted s).length := List.idxOf_lt_length_iff.2 (hp.mem_iff.2 hx)
      rw [hp.length_eq] at e1
      constructor <;> omega
    · rintro ⟨h1, h2⟩
      have hl : (i - start).toNat < (pySorted s).length := by rw [hp.length_eq]; omega
      refine ⟨(pySorted s)[(i - start).toNat], hp.mem_iff.1 (List.getElem_mem _), ?_⟩
      rw [hnd.idxOf_getElem]; omega
  · intro x y
    constructor
    · intro hg
      have hfold : ∀ (ps : List (α × α)) (e : Dict α α), (Dict.get (ps.foldl (fun e p => Dict.set e p.2 p.1) e) y = some x) →
          Dict.get e y = some x ∨ (x, y) ∈ ps := by
        intro ps
        induction ps with
        | nil => intro e h; exact Or.inl h
        | cons p ps ih =>
          intro e h
          rcases ih _ h with h1 | h1
          · rw [Dict.get_set] at h1
            split at h1
            · rename_i hc
              cases h1
              right
              obtain ⟨p1, p2⟩ := p
              simp only at hc
              subst hc
              exact List.mem_cons_self
            · exact Or.inl h1
          · exact Or.inr (List.mem_cons_of_mem _ h1)
      rcases hfold _ _ hg with h1 | h1
      · simp at h1
      · have hkeys : (Dict.keys (indexMap idx start s)).Nodup := by
          unfold indexMap
          have : ∀ (ps : List (α × Nat)) (d : Dict α α), (Dict.keys d).Nodup →
              (Dict.keys (ps.foldl (fun d p => Dict.set d p.1 (idx (p.2 + start))) d)).Nodup := by
            intro ps
            induction ps with
            | nil => exact fun d h => h
            | cons p ps ih => exact fun d h => ih _ (Dict.nodup_keys_set h _ _)
          exact this _ _ (by simp [Dict.keys])
        exact (hmap x y).1 (Dict.get_of_mem hkeys h1)
    · rintro ⟨hx, rfl⟩
      exact invertMap_get idx hidx start hn _ x (hget x hx)

/-- **C31.** `normalize` numbers the nodes and the elementary layers of each aspect in increasing order
with consecutive integers, returns the maps from names to numbers (or, on request, from numbers to names),
and carries the links along. `idx` is the embedding of the integers into the names. -/
theorem C31_normalize (h : Spec.Looks m d z dir al S NL R) (idx : Int → α) (hidx : Function.Injective idx)
    (nodesToIndices layersToIndices : Option Bool) (nodeStart layerStart : Int) :
    ∃ (f : Nat → α → Int) (m' : MNet α W) (R' : List α → List α → W) (nodeMap : Dict α α) (layerMaps : List (Dict α α)),
      m.normalize idx nodesToIndices layersToIndices nodeStart layerStart = .ok (m', nodeMap, layerMaps) ∧
      (∀ k ≤ d, ∃ l, m.getLayers k = .ok l ∧ Spec.Numbers (S k) l.length (if k = 0 then nodeStart else layerStart) (f k)) ∧
      (if nodesToIndices = some false then Spec.NumberToName idx (S 0) (f 0) nodeMap
        else Spec.NameToNumber idx (S 0) (f 0) nodeMap) ∧
      layerMaps.length = d ∧
      (∀ k D, layerMaps[k]? = some D → if layersToIndices = some false then Spec.NumberToName idx (S (k + 1)) (f (k + 1)) D
        else Spec.NameToNumber idx (S (k + 1)) (f (k + 1)) D) ∧
      Spec.Looks m' d z dir al (fun k y => ∃ x, S k x ∧ y = idx (f k x))
        (fun nl => ∃ a, NL a ∧ nl = Spec.renamed (fun k x => idx (f k x)) a) R' ∧
      (∀ u v, NL u → NL v → R' (Spec.renamed (fun k x => idx (f k x)) u) (Spec.renamed (fun k x => idx (f k x)) v) = R u v) ∧
      ∀ x y, R' x y ≠ z → ∃ u v, NL u ∧ NL v ∧ x = Spec.renamed (fun k x => idx (f k x)) u ∧
        y = Spec.renamed (fun k x => idx (f k x)) v := by
  have hsl : m.slices.length = d + 1 := by rw [h.inv.r.slen, h.aspects_eq]
  set st : Nat → Int := fun k => if k = 0 then nodeStart else layerStart with hst
  set f : Nat → α → Int := fun k x => ((pySorted (m.slices.getD k [])).idxOf x : Int) + st k with hf
  have hnd : ∀ k, (m.slices.getD k []).Nodup := by
    intro k
    rw [List.getD_eq_getElem?_getD]
    cases hs : m.slices[k]? with
    | none => simp
    | some s => exact h.inv.r.snodup s (List.mem_of_getElem? hs)
  have hmem : ∀ k ≤ d, ∀ x, x ∈ m.slices.getD k [] ↔ S k x := by
    intro k hk x
    rw [← h.inSlice hk, List.getD_eq_getElem?_getD]
    unfold MNet.inSlice
    rw [List.getElem?_eq_getElem (by omega)]; simp
  have hfun : ∀ k ≤ d, (fun x => x ∈ m.slices.getD k []) = S k := fun k hk => funext fun x => propext (hmem k hk x)
  have hnum := fun k => sorted_numbers idx hidx (st k) (hnd k)
  set nodeNames := indexMap idx nodeStart (m.slices.headD []) with hnn
  set layerNames := (m.slices.drop 1).map (indexMap idx layerStart) with hln
  have hmaps : ∀ k, k ≤ d → (nodeNames :: layerNames)[k]? = some (indexMap idx (st k) (m.slices.getD k [])) := by
    intro k hk
    cases k with
    | zero => simp [hnn, hst, List.headD_eq_head?_getD, List.head?_eq_getElem?]
    | succ k =>
      rw [List.getElem?_cons_succ, hln, List.getElem?_map, List.getElem?_drop, Nat.add_comm 1 k,
        List.getElem?_eq_getElem (by omega), List.getD_eq_getElem?_getD, List.getElem?_eq_getElem (by omega)]
      simp [hst]
  have hnew : ∀ k ≤ d, ∀ x, S k x → Spec.newName nodeNames layerNames k x = idx (f k x) := by
    intro k hk x hx
    unfold Spec.newName
    rw [hmaps k hk]
    have := ((hnum k).2.1 x (idx (f k x))).2 ⟨(hmem k hk x).2 hx, rfl⟩
    simp only [this, Option.getD_some]
  have finj : ∀ k ≤ d, ∀ x y, S k x → S k y → f k x = f k y → x = y := by
    intro k hk x y hx hy he
    have o := (hnum k).1.order
    rcases lt_trichotomy x y with h1 | h1 | h1
    · have := (o x y ((hmem k hk x).2 hx) ((hmem k hk y).2 hy)).1 h1
      have he' : f k x < f k y := this
      omega
    · exact h1
    · have := (o y x ((hmem k hk y).2 hy) ((hmem k hk x).2 hx)).1 h1
      have he' : f k y < f k x := this
      omega
  obtain ⟨m', R', e, hl, r1, r2⟩ := C30_relabel h nodeNames layerNames (by
    intro k hk x y hx hy he
    rw [hnew k hk x hx, hnew k hk y hy] at he
    exact finj k hk x y hx hy (hidx he))
  have hren : ∀ a, NL a → Spec.renamed (Spec.newName nodeNames layerNames) a = Spec.renamed (fun k x => idx (f k x)) a := by
    intro a ha
    apply List.ext_getElem?
    intro i
    unfold Spec.renamed
    rw [List.getElem?_mapIdx, List.getElem?_mapIdx]
    cases hx : a[i]? with
    | none => rfl
    | some x =>
      have hi : i ≤ d := by have := (List.getElem?_eq_some_iff.1 hx).1; have := h.nl_length ha; omega
      simp only [Option.map_some]
      rw [hnew i hi x (((h.mem_product a).1 (h.nl_product ha)).2 i x hx)]
  refine ⟨f, m', R', if nodesToIndices = some false then invertMap nodeNames else nodeNames,
    if layersToIndices = some false then layerNames.map invertMap else layerNames,
    by simp only [MNet.normalize, ← hnn, ← hln, e], ?_, ?_, ?_, ?_, hl.congr ?_ ?_ (fun _ _ _ _ => rfl), ?_, ?_⟩
  · intro k hk
    refine ⟨m.slices.getD k [], by simp [MNet.getLayers, List.getD_eq_getElem?_getD, List.getElem?_eq_getElem (l := m.slices) (i := k) (by omega)], ?_⟩
    rw [← hfun k hk]
    exact (hnum k).1
  · have e0 := hmaps 0 (Nat.zero_le _)
    simp only [List.getElem?_cons_zero, Option.some.injEq] at e0
    rw [← hfun 0 (Nat.zero_le _)]
    by_cases hc : nodesToIndices = some false
    · rw [if_pos hc, if_pos hc, e0]; exact (hnum 0).2.2
    · rw [if_neg hc, if_neg hc, e0]; exact (hnum 0).2.1
  · by_cases hc : layersToIndices = some false
    · rw [if_pos hc]; simp [hln, hsl]
    · rw [if_neg hc]; simp [hln, hsl]
  · intro k D hD
    by_cases hc : layersToIndices = some false
    · rw [if_pos hc] at hD ⊢
      rw [List.getElem?_map] at hD
      obtain ⟨D', hD', rfl⟩ := Option.map_eq_some_iff.1 hD
      have hk : k + 1 ≤ d := by
        have := (List.getElem?_eq_some_iff.1 hD').1
        simp only [hln, List.length_map, List.length_drop, hsl] at this; omega
      have e1 := hmaps (k + 1) hk
      rw [List.getElem?_cons_succ, hD'] at e1
      cases e1
      rw [← hfun (k + 1) hk]
      exact (hnum (k + 1)).2.2
    · rw [if_neg hc] at hD ⊢
      have hk : k + 1 ≤ d := by
        have := (List.getElem?_eq_some_iff.1 hD).1
        simp only [hln, List.length_map, List.length_drop, hsl] at this; omega
      have e1 := hmaps (k + 1) hk
      rw [List.getElem?_cons_succ, hD] at e1
      cases e1
      rw [← hfun (k + 1) hk]
      exact (hnum (k + 1)).2.1
  · intro k hk y
    exact exists_congr fun x => and_congr_right fun hx => by rw [hnew k hk x hx]
  · intro nl
    exact exists_congr fun a => and_congr_right fun ha => by rw [hren a ha]
  · intro u v hu hv
    rw [← hren u hu, ← hren v hv]; exact r1 u v hu hv
  · intro x y hxy
    obtain ⟨u, v, hu, hv, rfl, rfl⟩ := r2 x y hxy
    exact ⟨u, v, hu, hv, hren u hu, hren v hv⟩

example : ∃ m', (after 1 0 false true transOps).normalize Int.toNat none (some false) 5 0 =
    .ok (m', [(1, 5), (2, 6), (3, 7), (9, 8)], [[(0, 10), (1, 11), (2, 12)]]) ∧
    m'.view.readItem [5, 7, 0, 1] = .ok (.weight 4) := ⟨_, rfl, by decide⟩

/-! ### C33 -/

/-- **C33.** The rows and columns of the supra-adjacency matrix are the tuples of a node and elementary
layers, each once, ordered by their reversed tuples. With couplings, the entry of `a` and `b` is the link
value between `a` and `b`; without, only pairs on the same layer have their value. -/
theorem C33_supra [Zero W] (h : Spec.Looks m d z dir al S NL R) (hd : 1 ≤ d) (couplings : Bool) :
    ∃ rows nodes, m.view.supra couplings = .ok (rows, nodes) ∧ nodes.Nodup ∧
      (∀ nl, nl ∈ nodes ↔ Spec.AllNodeLayers d S nl) ∧ (∀ nl, NL nl → nl ∈ nodes) ∧
      (nodes.map List.reverse).Pairwise (· ≤ ·) ∧ rows.length = nodes.length ∧
      ∀ (i : Nat) a, nodes[i]? = some a → ∃ row, rows[i]? = some row ∧ row.length = nodes.length ∧
        ∀ (j : Nat) b, nodes[j]? = some b →
          row[j]? = some (if couplings = true ∨ a.drop 1 = b.drop 1 then R a b else 0) := by
  obtain ⟨rows, e, hl, hr⟩ := supra_spec h.inv couplings
  have hmem : ∀ nl, nl ∈ m.view.supraNodes ↔ nl ∈ product m.slices := fun nl => mem_supraNodes nl
  refine ⟨rows, m.view.supraNodes, e, supraNodes_nodup h.sound.snodup, fun nl => (hmem nl).trans (h.mem_product nl),
    fun nl hn => (hmem nl).2 (h.nl_product hn), ?_, hl, fun i a ha => ?_⟩
  · unfold View.supraNodes
    rw [List.map_map]
    have : (List.reverse ∘ List.reverse : List α → List α) = id := by funext l; simp
    rw [this, List.map_id]
    exact pySorted_sorted _
  · obtain ⟨row, h1, h2, h3⟩ := hr i a ha
    refine ⟨row, h1, h2, fun j b hb => ?_⟩
    rw [h3 j b hb]
    unfold supraValue
    have h0 : 0 < m.aspects := by rw [h.aspects_eq]; exact hd
    simp only [h0, if_true]
    have hlen : ∀ a ∈ m.view.supraNodes, a.length = d + 1 := fun a ha => ((h.mem_product a).1 ((hmem a).1 ha)).1
    rw [h.reads_eq (hlen a (List.mem_of_getElem? ha)) (hlen b (List.mem_of_getElem? hb))]

/-- **C33**, monoplex networks: the entry of two different nodes is the link value, the diagonal is zero. -/
theorem C33_supra_monoplex [Zero W] (h : Spec.Looks m 0 z dir al S NL R) (couplings : Bool) :
    ∃ rows nodes, m.view.supra couplings = .ok (rows, nodes) ∧ nodes.Nodup ∧
      (∀ nl, nl ∈ nodes ↔ ∃ x, S 0 x ∧ nl = [x]) ∧
      (nodes.map List.reverse).Pairwise (· ≤ ·) ∧ rows.length = nodes.length ∧
      ∀ (i : Nat) a, nodes[i]? = some a → ∃ row, rows[i]? = some row ∧ row.length = nodes.length ∧
        ∀ (j : Nat) b, nodes[j]? = some b → row[j]? = some (if a = b then 0 else R a b) := by
  obtain ⟨rows, e, hl, hr⟩ := supra_spec h.inv couplings
  have hmem : ∀ nl, nl ∈ m.view.supraNodes ↔ nl ∈ product m.slices := fun nl => mem_supraNodes nl
  have hnd := supraNodes_nodup h.sound.snodup
  refine ⟨rows, m.view.supraNodes, e, hnd, fun nl => ?_, ?_, hl, fun i a ha => ?_⟩
  · refine (hmem nl).trans ((h.mem_product nl).trans ?_)
    constructor
    · rintro ⟨hl, hx⟩
      match nl, hl with
      | [x], _ => exact ⟨x, hx 0 x rfl, rfl⟩
    · rintro ⟨x, hx, rfl⟩
      refine ⟨rfl, fun i y hy => ?_⟩
      cases i with
      | zero => simp at hy; subst hy; exact hx
      | succ i => simp at hy
  · unfold View.supraNodes
    rw [List.map_map]
    have : (List.reverse ∘ List.reverse : List α → List α) = id := by funext l; simp
    rw [this, List.map_id]
    exact pySorted_sorted _
  · obtain ⟨row, h1, h2, h3⟩ := hr i a ha
    refine ⟨row, h1, h2, fun j b hb => ?_⟩
    rw [h3 j b hb]
    unfold supraValue
    have h0 : ¬ 0 < m.aspects := by rw [h.aspects_eq]; omega
    simp only [h0, if_false]
    have hlen : ∀ a ∈ m.view.supraNodes, a.length = 1 := fun a ha => ((h.mem_product a).1 ((hmem a).1 ha)).1
    by_cases hij : i = j
    · subst hij
      rw [ha] at hb; cases hb
      simp
    · have hab : a ≠ b := by
        rintro rfl
        exact hij ((List.getElem?_inj (List.getElem?_eq_some_iff.1 ha).1 hnd).1 (ha.trans hb.symm))
      rw [if_pos hij, if_neg hab, h.reads_eq (hlen a (List.mem_of_getElem? ha)) (hlen b (List.mem_of_getElem? hb))]

/-- **C33**, symmetry: the matrix of an undirected network is symmetric. -/
theorem C33_symmetric [Zero W] (h : Spec.Looks m d z false al S NL R) (couplings : Bool) :
    ∃ rows nodes, m.view.supra couplings = .ok (rows, nodes) ∧
      ∀ (i j : Nat) (ri rj : List W), rows[i]? = some ri → rows[j]? = some rj → ri[j]? = rj[i]? := by
  have fin : ∀ {rows : List (List W)} {nodes : List (List α)} (F : List α → List α → W),
      rows.length = nodes.length → (∀ a ∈ nodes, ∀ b ∈ nodes, F a b = F b a) →
      (∀ (i : Nat) a, nodes[i]? = some a → ∃ row, rows[i]? = some row ∧ row.length = nodes.length ∧
        ∀ (j : Nat) b, nodes[j]? = some b → row[j]? = some (F a b)) →
      ∀ (i j : Nat) (ri rj : List W), rows[i]? = some ri → rows[j]? = some rj → ri[j]? = rj[i]? := by
    intro rows nodes F hl hsym hr i j ri rj hi hj
    have li := (List.getElem?_eq_some_iff.1 hi).1
    have lj := (List.getElem?_eq_some_iff.1 hj).1
    have ei : nodes[i]? = some nodes[i] := List.getElem?_eq_getElem (by omega)
    have ej : nodes[j]? = some nodes[j] := List.getElem?_eq_getElem (by omega)
    obtain ⟨r1, e1, -, g1⟩ := hr i _ ei
    obtain ⟨r2, e2, -, g2⟩ := hr j _ ej
    rw [hi] at e1; rw [hj] at e2
    cases e1; cases e2
    rw [g1 j _ ej, g2 i _ ei, hsym _ (List.getElem_mem _) _ (List.getElem_mem _)]
  rcases Nat.eq_zero_or_pos d with rfl | hd
  · obtain ⟨rows, nodes, e, -, hm, -, hl, hr⟩ := C33_supra_monoplex h couplings
    refine ⟨rows, nodes, e, fin (fun a b => if a = b then 0 else R a b) hl (fun a ha b hb => ?_) hr⟩
    obtain ⟨x, -, rfl⟩ := (hm a).1 ha
    obtain ⟨y, -, rfl⟩ := (hm b).1 hb
    rw [h.sym (u := [x]) (v := [y]) rfl rfl]
    simp only [eq_comm]
  · obtain ⟨rows, nodes, e, -, hm, -, -, hl, hr⟩ := C33_supra h hd couplings
    refine ⟨rows, nodes, e, fin (fun a b => if couplings = true ∨ a.drop 1 = b.drop 1 then R a b else 0) hl
      (fun a ha b hb => ?_) hr⟩
    rw [h.sym ((hm a).1 ha).1 ((hm b).1 hb).1]
    simp only [eq_comm]

example : (after 1 0 false true [.setItem [2, 1, 10] (5 : Int), .setItem [1, 1, 10, 11] 2]).view.supra true =
    .ok ([[0, 5, 2, 0], [5, 0, 0, 0], [2, 0, 0, 0], [0, 0, 0, 0]], [[1, 10], [2, 10], [1, 11], [2, 11]]) := by decide

example : (after 0 0 false true [.setItem [2, 1] (5 : Int), .setItem [1, 1] 2]).view.supra false =
    .ok ([[0, 5], [5, 0]], [[1], [2]]) := by decide

end

end Pymnet
