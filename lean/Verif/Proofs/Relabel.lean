import Verif.Proofs.Subnet

/-! `relabel` and `normalize` of a general network. -/

set_option linter.unusedSectionVars false
set_option linter.unusedSimpArgs false

namespace Pymnet

open Py

variable {α W : Type} [DecidableEq α] [DecidableEq W]

/-- the maps for all indices of a node-layer -/
def allNames (aspects : Nat) (nodeNames : Dict α α) (layerNames : List (Dict α α)) : List (Dict α α) :=
  nodeNames :: (padNames aspects layerNames).take aspects

theorem length_allNames (aspects : Nat) (nodeNames : Dict α α) (layerNames : List (Dict α α)) :
    (allNames aspects nodeNames layerNames).length = aspects + 1 := by
  simp [allNames, padNames]; omega

theorem renameAll_take (names : List (Dict α α)) (l : List α) : renameAll names l = renameAll (names.take l.length) l := by
  unfold renameAll
  induction l generalizing names with
  | nil => simp
  | cons x l ih => cases names with
    | nil => simp
    | cons d ds => simp [ih ds]

theorem renameAll_length {names : List (Dict α α)} {l : List α} (h : l.length = names.length) :
    (renameAll names l).length = l.length := by simp [renameAll, h]

theorem renameAll_get {names : List (Dict α α)} {l : List α} (i : Nat) (y : α) :
    (renameAll names l)[i]? = some y ↔ ∃ d x, names[i]? = some d ∧ l[i]? = some x ∧ y = dget d x := by
  unfold renameAll
  rw [List.getElem?_zipWith_eq_some]
  constructor
  · rintro ⟨d, x, h1, h2, rfl⟩; exact ⟨d, x, h1, h2, rfl⟩
  · rintro ⟨d, x, h1, h2, rfl⟩; exact ⟨d, x, h1, h2, rfl⟩

theorem relabelLink_interleave {names : List (Dict α α)} {a b : List α} (ha : a.length = names.length)
    (hb : b.length = names.length) : relabelLink names (interleave a b) = interleave (renameAll names a) (renameAll names b) := by
  induction names generalizing a b with
  | nil =>
    cases a <;> simp at ha
    cases b <;> simp at hb
    rfl
  | cons d ds ih =>
    match a, b, ha, hb with
    | x :: a, y :: b, ha, hb =>
      simp only [interleave, relabelLink, renameAll, List.zipWith_cons_cons]
      rw [ih (by simpa using ha) (by simpa using hb)]
      rfl

theorem relabelLayers_spec {d : Nat} {z : W} {dir al : Bool} {NL : List α → Prop} {R : List α → List α → W}
    (ds : List (Dict α α)) (ss : List (List α)) (a : Nat) {m : MNet α W} {S : Nat → α → Prop}
    (h : Built m d z dir al S NL R) (hl : a + ss.length ≤ d + 1) (hd : ds.length = ss.length) :
    ∃ m', relabelLayers ds ss a m = .ok m' ∧
      Built m' d z dir al (fun k y => S k y ∨ (a ≤ k ∧ ∃ f s, ds[k - a]? = some f ∧ ss[k - a]? = some s ∧ ∃ x ∈ s, y = dget f x))
        NL R := by
  induction ss generalizing a m S ds with
  | nil =>
    cases ds with
    | nil => exact ⟨m, rfl, h.congr (by simp) (by simp) (by simp)⟩
    | cons f ds => simp at hd
  | cons s ss ih =>
    cases ds with
    | nil => simp at hd
    | cons f ds =>
    simp only [List.length_cons] at hl
    obtain ⟨m1, e1, h1⟩ := h.addLayers (a := a) (by omega) (dget f) (fun _ => True) s
      (g := fun (m : MNet α W) x => (m.addLayer (dget f x) a).toExcept) (fun _ _ _ => rfl) (fun _ _ h => absurd trivial h)
    obtain ⟨m2, e2, h2⟩ := ih ds (a + 1) h1 (by omega) (by simpa using hd)
    refine ⟨m2, by simp only [relabelLayers, e1]; exact e2, h2.congr (fun k x => ?_) (by simp) (by simp)⟩
    rw [or_assoc]
    refine or_congr_right ?_
    rcases Nat.lt_trichotomy k a with hk | hk | hk
    · simp; omega
    · subst hk; simp
    · obtain ⟨j, rfl⟩ : ∃ j, k = a + 1 + j := ⟨k - a - 1, by omega⟩
      have e1 : a + 1 + j - (a + 1) = j := by omega
      have e2 : a + 1 + j - a = j + 1 := by omega
      rw [e1, e2]
      have e3 : a + 1 + j ≠ a := by omega
      simp [e3]; omega

/-- The map for each index is injective on the names of the network. -/
def Renames (m : MNet α W) (names : List (Dict α α)) : Prop :=
  ∀ (i : Nat) d s, names[i]? = some d → m.slices[i]? = some s → ∀ x ∈ s, ∀ y ∈ s, dget d x = dget d y → x = y

theorem renameAll_inj {m : MNet α W} (h : m.Inv) {names : List (Dict α α)} (hl : names.length = m.aspects + 1)
    (hinj : Renames m names) {a b : List α} (ha : a ∈ product m.slices) (hb : b ∈ product m.slices)
    (he : renameAll names a = renameAll names b) : a = b := by
  have la : a.length = m.aspects + 1 := h.sound.length_of_mem ha
  have lb : b.length = m.aspects + 1 := h.sound.length_of_mem hb
  apply List.ext_getElem?
  intro i
  by_cases hi : i < m.aspects + 1
  · have e1 : a[i]? = some a[i] := List.getElem?_eq_getElem (by omega)
    have e2 : b[i]? = some b[i] := List.getElem?_eq_getElem (by omega)
    have e3 : names[i]? = some names[i] := List.getElem?_eq_getElem (by omega)
    obtain ⟨s, hs, hx⟩ := ((h.sound.mem_product a).1 ha).2 i _ e1
    obtain ⟨s', hs', hy⟩ := ((h.sound.mem_product b).1 hb).2 i _ e2
    have hss : s = s' := by rw [hs] at hs'; exact Option.some.inj hs'
    subst hss
    have h1 := (renameAll_get (names := names) (l := a) i _).2 ⟨_, _, e3, e1, rfl⟩
    have h2 := (renameAll_get (names := names) (l := b) i _).2 ⟨_, _, e3, e2, rfl⟩
    rw [he, h2] at h1
    rw [e1, e2, hinj i _ s e3 hs _ hx _ hy (Option.some.inj h1).symm]
  · rw [List.getElem?_eq_none (by omega), List.getElem?_eq_none (by omega)]

theorem relabel_spec {m : MNet α W} (h : m.Inv) (hf0 : m.fic = false → 1 ≤ m.aspects) (nodeNames : Dict α α)
    (layerNames : List (Dict α α)) (hinj : Renames m (allNames m.aspects nodeNames layerNames)) :
    ∃ m' R', m.relabel nodeNames layerNames = .ok m' ∧
      Built m' m.aspects m.noEdge m.directed m.fic
        (fun k y => ∃ d s, (allNames m.aspects nodeNames layerNames)[k]? = some d ∧ m.slices[k]? = some s ∧
          ∃ x ∈ s, y = dget d x)
        (fun nl => ∃ a ∈ m.nodeLayers, nl = renameAll (allNames m.aspects nodeNames layerNames) a) R' ∧
      (∀ a ∈ product m.slices, ∀ b ∈ product m.slices,
        R' (renameAll (allNames m.aspects nodeNames layerNames) a) (renameAll (allNames m.aspects nodeNames layerNames) b) =
          m.reads a b) ∧
      ∀ x y, R' x y ≠ m.noEdge → ∃ a ∈ product m.slices, ∃ b ∈ product m.slices,
        x = renameAll (allNames m.aspects nodeNames layerNames) a ∧
        y = renameAll (allNames m.aspects nodeNames layerNames) b := by
  have hso := h.sound
  set names := allNames m.aspects nodeNames layerNames with hnames
  have hnl : names.length = m.aspects + 1 := length_allNames ..
  obtain ⟨nls, n1, n2, n3, n4⟩ := hso.nls
  have en : nls = m.nodeLayers := by cases n1; rfl
  subst en
  obtain ⟨ps, p1, p2, p3, p4, p5⟩ := hso.edges
  have lenP : ∀ a, a ∈ product m.slices → a.length = m.aspects + 1 := fun a ha => hso.length_of_mem ha
  obtain ⟨m1, e1, h1⟩ := (Built.init (α := α) m.aspects m.noEdge m.directed m.fic).addNodes (dget nodeNames)
    (m.slices.headD [])
  have hsl : m.slices.length = m.aspects + 1 := h.r.slen
  obtain ⟨m2, e2, h2⟩ := relabelLayers_spec ((padNames m.aspects layerNames).take m.aspects) (m.slices.drop 1) 1 h1
    (by rw [List.length_drop, hsl]; omega) (by rw [List.length_drop, hsl]; simp [padNames]; omega)
  have hS : ∀ k y, ((False ∨ k = 0 ∧ ∃ y_1 ∈ m.slices.headD [], y = dget nodeNames y_1) ∨
      1 ≤ k ∧ ∃ f s, ((padNames m.aspects layerNames).take m.aspects)[k - 1]? = some f ∧ (m.slices.drop 1)[k - 1]? = some s ∧
        ∃ x ∈ s, y = dget f x) ↔
      ∃ d s, names[k]? = some d ∧ m.slices[k]? = some s ∧ ∃ x ∈ s, y = dget d x := by
    intro k y
    have hs : m.slices = m.slices.headD [] :: m.slices.drop 1 := by
      cases hs : m.slices with
      | nil => rw [hs] at hsl; simp at hsl
      | cons a t => simp
    cases k with
    | zero =>
      rw [hs]
      simp [hnames, allNames]
    | succ k =>
      simp only [hnames, allNames, List.getElem?_cons_succ, List.getElem?_drop, Nat.add_sub_cancel]
      simp [Nat.add_comm 1 k]
  have nodes : ∃ m3, (if m.fic then .ok m2
          else forE (relabelNodeLayer nodeNames (padNames m.aspects layerNames)) m.nodeLayers m2) =
        (.ok m3 : Except Err (MNet α W)) ∧
      Built m3 m.aspects m.noEdge m.directed m.fic
        (fun k y => ∃ d s, names[k]? = some d ∧ m.slices[k]? = some s ∧ ∃ x ∈ s, y = dget d x)
        (fun nl => ∃ a ∈ m.nodeLayers, nl = renameAll names a) (fun _ _ => m.noEdge) := by
    by_cases hf : m.fic = true
    · rw [if_pos hf]
      refine ⟨m2, rfl, ?_⟩
      rw [hf] at h2 ⊢
      exact (Built.anyNL h2).congr' hS (fun _ _ => rfl)
    · rw [if_neg hf]
      have hff : m.fic = false := by simpa using hf
      obtain ⟨m3, e3, h3⟩ := h2.addNodeLs (hf0 hff) hff (renameAll names) m.nodeLayers
        (fun y hy => by
          have hl := lenP y (n3 y hy)
          rw [renameAll_length (by rw [hnl, hl]), hl])
        (g := relabelNodeLayer nodeNames (padNames m.aspects layerNames))
        (by
          intro n y x t hy he
          have hl := lenP y (n3 y hy)
          match y, hl with
          | x' :: l, hl =>
            have hl' : l.length = m.aspects := by simpa using hl
            have he' : dget nodeNames x' :: renameAll ((padNames m.aspects layerNames).take m.aspects) l = x :: t := he
            injection he' with he1 he2
            simp only [relabelNodeLayer]
            rw [renameAll_take, hl', he1, he2])
      refine ⟨m3, e3, h3.congr (fun k x => ?_) (fun nl => ?_) (fun _ _ => rfl)⟩
      · rw [hS]
        refine or_iff_left_of_imp ?_
        rintro ⟨y, hy, hx⟩
        obtain ⟨d, z, hd, hz, rfl⟩ := (renameAll_get _ _).1 hx
        obtain ⟨s, hs, hzs⟩ := ((hso.mem_product _).1 (n3 y hy)).2 _ _ hz
        exact ⟨d, s, hd, hs, z, hzs, rfl⟩
      · simp
  obtain ⟨m3, e3, h3⟩ := nodes
  obtain ⟨m4, R', e4, h4, h5⟩ := h3.setItems (ps.map (View.tuple m.reads)) (fun _ => True)
    (fun e => renameAll names (evens e.1)) (fun e => renameAll names (odds e.1)) (fun e => e.2)
    (g := fun (n : MNet α W) (e : List α × W) =>
            (n.setItem (relabelLink (nodeNames :: (padNames m.aspects layerNames).take m.aspects) e.1) e.2).toExcept)
    (by
      intro n e he _
      obtain ⟨p, hp1, rfl⟩ := List.mem_map.1 he
      obtain ⟨q1, q2, -⟩ := p3 p hp1
      have l1 := lenP _ q1
      have l2 := lenP _ q2
      have hl : p.1.length = p.2.length := by omega
      refine ⟨_, ?_, rfl⟩
      change Spec.Addresses m.aspects (relabelLink names _) _ _
      simp only [View.tuple, evens_interleave hl, odds_interleave hl]
      rw [relabelLink_interleave (by omega) (by omega)]
      exact ⟨by rw [renameAll_length (by omega), l1], by rw [renameAll_length (by omega), l2], Or.inl (interleave_eq_link _ _)⟩)
    (fun _ _ _ h => absurd trivial h)
    (by
      intro e he _ _ _
      obtain ⟨p, hp1, rfl⟩ := List.mem_map.1 he
      exact (p3 p hp1).2.2)
  have unp : ∀ e ∈ ps.map (View.tuple m.reads), ∃ a b, a ∈ product m.slices ∧ b ∈ product m.slices ∧
      m.reads a b ≠ m.noEdge ∧ evens e.1 = a ∧ odds e.1 = b ∧ e.2 = m.reads a b := by
    intro e he
    obtain ⟨p, hp1, rfl⟩ := List.mem_map.1 he
    obtain ⟨q1, q2, q3⟩ := p3 p hp1
    have hl : p.1.length = p.2.length := by rw [hso.length_of_mem q1, hso.length_of_mem q2]
    exact ⟨p.1, p.2, q1, q2, q3, evens_interleave hl, odds_interleave hl, rfl⟩
  refine ⟨m4, R', ?_, h4.congr (fun k x => ?_) (fun nl => ?_) (fun _ _ => rfl), ?_, ?_⟩
  · unfold MNet.relabel
    simp only [e1, e2, e3, p1]
    exact e4
  · refine or_iff_left_of_imp ?_
    rintro ⟨e, he, -, hx⟩
    obtain ⟨a, b, ha, hb, hR, ea, eb, -⟩ := unp e he
    rw [ea, eb] at hx
    have fin : ∀ a, a ∈ product m.slices → (renameAll names a)[k]? = some x →
        ∃ d s, names[k]? = some d ∧ m.slices[k]? = some s ∧ ∃ y ∈ s, x = dget d y := by
      intro a ha hx
      obtain ⟨d, z, hd, hz, rfl⟩ := (renameAll_get _ _).1 hx
      obtain ⟨s, hs, hzs⟩ := ((hso.mem_product _).1 ha).2 _ _ hz
      exact ⟨d, s, hd, hs, z, hzs, rfl⟩
    rcases hx with hx | hx
    · exact fin a ha hx
    · exact fin b hb hx
  · refine or_iff_left_of_imp ?_
    rintro ⟨e, he, -, hx⟩
    obtain ⟨a, b, ha, hb, hR, ea, eb, -⟩ := unp e he
    rw [ea, eb] at hx
    have := n4 a ha b hb hR
    rcases hx with hx | hx
    · exact ⟨a, this.1, hx⟩
    · exact ⟨b, this.2, hx⟩
  · intro a ha b hb
    rcases h5 (renameAll names a) (renameAll names b) with ⟨e, he, -, hab, hR⟩ | ⟨hno, hR⟩
    · obtain ⟨c, e', hc, he', hR', ec, ee, ew⟩ := unp e he
      rw [ec, ee] at hab
      rw [hR, ew]
      rcases hab with ⟨h1, h2⟩ | ⟨hd, h1, h2⟩
      · rw [renameAll_inj h hnl hinj ha hc h1, renameAll_inj h hnl hinj hb he' h2]
      · rw [renameAll_inj h hnl hinj ha he' h1, renameAll_inj h hnl hinj hb hc h2, hso.sym hd _ hc _ he']
    · rw [hR]
      by_contra hne
      have hne' : m.reads a b ≠ m.noEdge := fun e => hne e.symm
      have hl : a.length = b.length := by rw [lenP a ha, lenP b hb]
      have hin : (a, b) ∈ ps ∨ (m.directed = false ∧ (b, a) ∈ ps) := by
        cases hd : m.directed with
        | true => exact Or.inl (p4 hd a ha b hb hne')
        | false =>
          rcases (p5 hd).1 a ha b hb hne' with hh | hh
          · exact Or.inl hh
          · exact Or.inr ⟨rfl, hh⟩
      rcases hin with hin | ⟨hd, hin⟩
      · refine hno _ (List.mem_map_of_mem hin) trivial (Or.inl ?_)
        simp only [View.tuple, evens_interleave hl, odds_interleave hl, and_self]
      · refine hno _ (List.mem_map_of_mem hin) trivial (Or.inr ⟨hd, ?_⟩)
        simp only [View.tuple, evens_interleave hl.symm, odds_interleave hl.symm, and_self]
  · intro x y hxy
    rcases h5 x y with ⟨e, he, -, hab, hR⟩ | ⟨hno, hR⟩
    · obtain ⟨c, e', hc, he', hR', ec, ee, ew⟩ := unp e he
      rw [ec, ee] at hab
      rcases hab with ⟨h1, h2⟩ | ⟨hd, h1, h2⟩
      · exact ⟨c, hc, e', he', h1, h2⟩
      · exact ⟨e', he', c, hc, h1, h2⟩
    · exact absurd hR hxy

/-! ### normalize -/

theorem foldl_set_get {β : Type} (f : β → α) (g : β → α) (ps : List β) (hn : (ps.map f).Nodup) (d : Dict α α) :
    (∀ p ∈ ps, Dict.get (ps.foldl (fun d p => Dict.set d (f p) (g p)) d) (f p) = some (g p)) ∧
    ∀ x, x ∉ ps.map f → Dict.get (ps.foldl (fun d p => Dict.set d (f p) (g p)) d) x = Dict.get d x := by
  induction ps generalizing d with
  | nil => simp
  | cons p ps ih =>
    rw [List.map_cons, List.nodup_cons] at hn
    obtain ⟨h1, h2⟩ := ih hn.2 (Dict.set d (f p) (g p))
    refine ⟨fun q hq => ?_, fun x hx => ?_⟩
    · rcases List.mem_cons.1 hq with rfl | hq
      · rw [List.foldl_cons, h2 _ hn.1, Dict.get_set_self]
      · exact h1 q hq
    · rw [List.map_cons, List.mem_cons, not_or] at hx
      rw [List.foldl_cons, h2 _ hx.2, Dict.get_set_ne _ _ (Ne.symm hx.1)]

theorem pySorted_perm {β : Type} [LinearOrder β] (s : List β) : (pySorted s).Perm s := List.perm_insertionSort ..

theorem pySorted_sorted {β : Type} [LinearOrder β] (s : List β) : (pySorted s).Pairwise (· ≤ ·) :=
  List.pairwise_insertionSort ..

variable [LinearOrder α]

/-- The map gives the `i`-th name in sorted order the number `i + start`. -/
theorem indexMap_get (idx : Int → α) (start : Int) {s : List α} (hn : s.Nodup) :
    (∀ (i : Nat) x, (pySorted s)[i]? = some x → Dict.get (indexMap idx start s) x = some (idx (i + start))) ∧
    ∀ x, x ∉ s → Dict.get (indexMap idx start s) x = none := by
  have hp : (((pySorted s).zipIdx).map Prod.fst).Nodup := by
    rw [List.zipIdx_map_fst]
    exact (pySorted_perm s).nodup_iff.2 hn
  obtain ⟨h1, h2⟩ := foldl_set_get (Prod.fst) (fun p : α × Nat => idx (p.2 + start)) ((pySorted s).zipIdx) hp []
  refine ⟨fun i x hx => ?_, fun x hx => ?_⟩
  · exact h1 (x, i) (by rw [List.mem_zipIdx_iff_getElem?]; exact hx)
  · refine (h2 x ?_).trans (Dict.get_nil x)
    rw [List.zipIdx_map_fst]
    exact fun h => hx ((pySorted_perm s).mem_iff.1 h)

theorem indexMap_renames (idx : Int → α) (hidx : Function.Injective idx) (start : Int) {s : List α} (hn : s.Nodup) :
    ∀ x ∈ s, ∀ y ∈ s, dget (indexMap idx start s) x = dget (indexMap idx start s) y → x = y := by
  intro x hx y hy he
  obtain ⟨i, hi⟩ := List.getElem?_of_mem ((pySorted_perm s).mem_iff.2 hx)
  obtain ⟨j, hj⟩ := List.getElem?_of_mem ((pySorted_perm s).mem_iff.2 hy)
  unfold dget at he
  rw [(indexMap_get idx start hn).1 i x hi, (indexMap_get idx start hn).1 j y hj] at he
  have := hidx he
  have hij : i = j := by omega
  subst hij
  rw [hi] at hj; exact Option.some.inj hj

/-- The inverted map. -/
theorem invertMap_get (idx : Int → α) (hidx : Function.Injective idx) (start : Int) {s : List α} (hn : s.Nodup)
    (i : Nat) (x : α) (hx : (pySorted s)[i]? = some x) :
    Dict.get (invertMap (indexMap idx start s)) (idx (i + start)) = some x := by
  have hkeys : (Dict.keys (indexMap idx start s)).Nodup := by
    unfold indexMap
    have : ∀ (ps : List (α × Nat)) (d : Dict α α), (Dict.keys d).Nodup →
        (Dict.keys (ps.foldl (fun d p => Dict.set d p.1 (idx (p.2 + start))) d)).Nodup := by
      intro ps
      induction ps with
      | nil => exact fun d h => h
      | cons p ps ih => exact fun d h => ih _ (Dict.nodup_keys_set h _ _)
    exact this _ _ (by simp [Dict.keys])
  have hmem : ∀ k w, (k, w) ∈ indexMap idx start s → k ∈ s ∧ dget (indexMap idx start s) k = w := by
    intro k w h
    have hg := Dict.get_of_mem hkeys h
    refine ⟨?_, by simp [dget, hg]⟩
    by_contra hk
    rw [(indexMap_get idx start hn).2 k hk] at hg; cases hg
  have hvals : ((indexMap idx start s).map Prod.snd).Nodup := by
    refine List.Nodup.map_on ?_ ?_
    · rintro ⟨k, w⟩ h1 ⟨k', w'⟩ h2 he
      simp only at he
      subst he
      have a1 := hmem _ _ h1
      have a2 := hmem _ _ h2
      rw [indexMap_renames idx hidx start hn _ a1.1 _ a2.1 (a1.2.trans a2.2.symm)]
    · exact List.Nodup.of_map Prod.fst hkeys
  have := (foldl_set_get Prod.snd Prod.fst (indexMap idx start s) hvals []).1 (x, idx (i + start))
    (Dict.mem_of_get ((indexMap_get idx start hn).1 i x hx))
  exact this

end Pymnet
