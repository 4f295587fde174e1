import Verif.Proofs.Overlay

/-! `subnet` of a general network. -/

set_option linter.unusedSectionVars false
set_option linter.unusedSimpArgs false

namespace Pymnet

open Py

variable {α W : Type} [DecidableEq α] [DecidableEq W]

theorem mem_toSet {l : List α} {x : α} : x ∈ toSet l ↔ x ∈ l := by
  have : ∀ (l s : List α), x ∈ l.foldl sadd s ↔ x ∈ s ∨ x ∈ l := by
    intro l
    induction l with
    | nil => simp
    | cons y l ih => intro s; simp [ih, or_assoc]
  simp [toSet, this]

theorem length_selSets {sl : List (List α)} {sel : List (Option (List α))} (h : sel.length = sl.length) :
    (selSets sl sel).length = sl.length := by simp [selSets, h]

/-- A name is selected at index `i`. -/
def selName (sl : List (List α)) (sel : List (Option (List α))) (i : Nat) (x : α) : Prop :=
  ∃ s o, sl[i]? = some s ∧ sel[i]? = some o ∧ (match o with | none => x ∈ s | some l => x ∈ l)

theorem mem_selSets {sl : List (List α)} {sel : List (Option (List α))} (i : Nat) (x : α) :
    (∃ s, (selSets sl sel)[i]? = some s ∧ x ∈ s) ↔ selName sl sel i x := by
  unfold selSets selName
  rw [List.getElem?_map]
  constructor
  · rintro ⟨s, hs, hx⟩
    obtain ⟨p, hp, rfl⟩ := Option.map_eq_some_iff.1 hs
    rw [List.getElem?_zip_eq_some] at hp
    refine ⟨p.1, p.2, hp.1, hp.2, ?_⟩
    cases h : p.2 with
    | none => rw [h] at hx; exact hx
    | some l => rw [h] at hx; exact mem_toSet.1 hx
  · rintro ⟨s, o, h1, h2, h3⟩
    refine ⟨_, Option.map_eq_some_iff.2 ⟨(s, o), List.getElem?_zip_eq_some.2 ⟨h1, h2⟩, rfl⟩, ?_⟩
    cases o with
    | none => exact h3
    | some l => exact mem_toSet.2 h3

theorem mem_product_get {sets : List (List α)} {a : List α} : a ∈ product sets ↔
    a.length = sets.length ∧ ∀ (i : Nat) x, a[i]? = some x → ∃ s, sets[i]? = some s ∧ x ∈ s := by
  rw [Py.mem_product, MNet.forall₂_iff_getElem]
  refine and_congr_right fun hl => ?_
  constructor
  · intro h1 i x hx
    have hi : i < sets.length := by
      rw [← hl]; exact (List.getElem?_eq_some_iff.1 hx).1
    exact ⟨sets[i], by simp [hi], h1 i x _ hx (by simp [hi])⟩
  · intro h1 i x y hx hy
    obtain ⟨s, hs, hm⟩ := h1 i x hx
    rw [hs] at hy; cases hy; exact hm

theorem inSets_iff {sets : List (List α)} {a : List α} (h : a.length = sets.length) :
    inSets sets a = true ↔ a ∈ product sets := by
  rw [Py.mem_product]
  induction sets generalizing a with
  | nil => cases a <;> simp_all [inSets]
  | cons s ss ih =>
    cases a with
    | nil => simp at h
    | cons x a => simp [inSets, ih (a := a) (by simpa using h)]

theorem subnetLayers_spec {v : View α W} {d : Nat} {z : W} {dir al : Bool} {NL : List α → Prop} {R : List α → List α → W}
    (ss : List (List α)) (a : Nat) {m : MNet α W} {S : Nat → α → Prop} (h : Built m d z dir al S NL R)
    (hl : a + ss.length ≤ d + 1) :
    ∃ m', subnetLayers v ss a m = .ok m' ∧
      Built m' d z dir al (fun k x => S k x ∨ (a ≤ k ∧ (v.fic = true ∨ k ≠ 0) ∧ (∃ s, ss[k - a]? = some s ∧ x ∈ s) ∧
        x ∈ v.slices.getD k [])) NL R := by
  induction ss generalizing a m S with
  | nil => exact ⟨m, rfl, h.congr (by simp) (by simp) (by simp)⟩
  | cons s ss ih =>
    simp only [List.length_cons] at hl
    have step : ∃ m1, (if v.fic = true ∨ a ≠ 0 then
        forE (fun (m : MNet α W) x => if x ∈ v.slices.getD a [] then (m.addLayer x a).toExcept else .ok m) s m
        else .ok m) = .ok m1 ∧ Built m1 d z dir al (fun k x => S k x ∨ (k = a ∧ (v.fic = true ∨ k ≠ 0) ∧ x ∈ s ∧
          x ∈ v.slices.getD k [])) NL R := by
      by_cases hc : v.fic = true ∨ a ≠ 0
      · rw [if_pos hc]
        obtain ⟨m1, e1, h1⟩ := h.addLayers (a := a) (by omega) (fun x : α => x) (fun x => x ∈ v.slices.getD a []) s
          (g := fun (m : MNet α W) x => if x ∈ v.slices.getD a [] then (m.addLayer x a).toExcept else .ok m)
          (fun _ _ h => if_pos h) (fun _ _ h => if_neg h)
        refine ⟨m1, e1, h1.congr (fun k x => or_congr_right ?_) (fun _ => Iff.rfl) (fun _ _ => rfl)⟩
        constructor
        · rintro ⟨rfl, y, hy, hp, rfl⟩; exact ⟨rfl, hc, hy, hp⟩
        · rintro ⟨rfl, -, hy, hp⟩; exact ⟨rfl, x, hy, hp, rfl⟩
      · rw [if_neg hc]
        refine ⟨m, rfl, h.congr (fun k x => ?_) (fun _ => Iff.rfl) (fun _ _ => rfl)⟩
        refine (or_iff_left ?_).symm
        rintro ⟨rfl, h1, -⟩; exact hc h1
    obtain ⟨m1, e1, h1⟩ := step
    obtain ⟨m2, e2, h2⟩ := ih (a + 1) h1 (by omega)
    refine ⟨m2, ?_, h2.congr (fun k x => ?_) (by simp) (by simp)⟩
    · unfold subnetLayers
      by_cases hc : v.fic = true ∨ a ≠ 0
      · rw [if_pos hc] at e1 ⊢
        simp only [e1]; exact e2
      · rw [if_neg hc] at e1 ⊢
        cases e1; exact e2
    · rw [or_assoc]
      refine or_congr_right ?_
      rcases Nat.lt_trichotomy k a with hk | hk | hk
      · constructor
        · rintro (⟨h1, -⟩ | ⟨h1, -⟩) <;> omega
        · rintro ⟨h1, -⟩; omega
      · subst hk
        constructor
        · rintro (⟨-, h1, h2, h3⟩ | ⟨h1, -⟩)
          · exact ⟨le_refl _, h1, ⟨s, by simp, h2⟩, h3⟩
          · omega
        · rintro ⟨-, h1, ⟨s', h2, h3⟩, h4⟩
          simp at h2; subst h2
          exact Or.inl ⟨rfl, h1, h3, h4⟩
      · obtain ⟨j, rfl⟩ : ∃ j, k = a + 1 + j := ⟨k - a - 1, by omega⟩
        have e1 : a + 1 + j - (a + 1) = j := by omega
        have e2 : a + 1 + j - a = j + 1 := by omega
        rw [e1, e2]
        have e3 : a + 1 + j ≠ a := by omega
        simp only [e3, false_and, false_or, List.getElem?_cons_succ]
        refine and_congr_left fun _ => ?_
        constructor <;> intro _ <;> omega

theorem interleave_map {β : Type} (f : α → β) (u v : List α) : interleave (u.map f) (v.map f) = (interleave u v).map f := by
  induction u generalizing v with
  | nil => simp [interleave]
  | cons a u ih => cases v <;> simp [interleave, ih]

theorem MNet.nodeGet_eq {m : MNet α W} {a b : List α} (ha : a.length = m.aspects + 1) (hb : b.length = m.aspects + 1) :
    m.view.nodeGet a (b.map .val) = .ok (.weight (m.reads a b)) := by
  have hl := MNet.getLink_interleave m (u := a) (v := b) (by omega) (by rintro rfl; simp at ha)
  have := View.getItem_addresses (v := m.view) (item := interleave a b) (a := a) (b := b)
    ⟨ha, hb, Or.inl (interleave_eq_link a b)⟩ hl
  unfold View.nodeGet nodesToLink
  rw [if_pos (by simp; omega)]
  simp only [interleave_map]
  exact this

/-- the pairs whose links are copied -/
def copyPairs (m : MNet α W) (sets : List (List α)) (total : Nat) : List (List α × List α) :=
  (product sets).flatMap fun a => (if (total : Int) ≤ m.deg a none then product sets
    else (m.iterTotal a none).filter fun b => inSets sets b).map (Prod.mk a)

theorem subnetInto_spec {m : MNet α W} (h : m.Inv) (f : Bool) (hmf : m.fic = false → f = false) (hf0 : f = false → 1 ≤ m.aspects)
    {sel : List (Option (List α))} (hs : sel.length = m.aspects + 1) (nolinks : Bool) :
    ∃ m', m.view.subnetInto sel nolinks (MNet.init m.aspects m.noEdge m.directed f) = .ok m' ∧
      Built m' m.aspects m.noEdge m.directed f
        (fun k x => if m.fic = false ∧ k = 0 then
            ∃ nl ∈ m.nodeLayers, nl ∈ product (selSets m.slices sel) ∧ nl[0]? = some x
          else selName m.slices sel k x ∧ x ∈ m.slices.getD k [])
        (fun nl => nl ∈ m.nodeLayers ∧ nl ∈ product (selSets m.slices sel))
        (fun a b => if nolinks = false ∧ a ∈ product (selSets m.slices sel) ∧ b ∈ product (selSets m.slices sel) then m.reads a b
          else m.noEdge) := by
  have hso := h.sound
  set sets := selSets m.slices sel with hsets
  have hslen : sets.length = m.aspects + 1 := by
    rw [hsets, length_selSets (by rw [hs, h.r.slen]), h.r.slen]
  have lenP : ∀ a, a ∈ product sets → a.length = m.aspects + 1 := by
    intro a ha; rw [length_of_mem_product ha, hslen]
  have inS_iff : ∀ k x, x ∈ m.slices.getD k [] ↔ m.view.inS k x := by
    intro k x
    unfold View.inS
    change _ ↔ ∃ s, m.slices[k]? = some s ∧ x ∈ s
    cases hk : m.slices[k]? <;> simp [List.getD, hk]
  obtain ⟨nls, n1, n2, n3, n4⟩ := hso.nls
  have en : nls = m.nodeLayers := by cases n1; rfl
  subst en
  obtain ⟨m1, e1, h1⟩ := subnetLayers_spec (v := m.view) sets 0
    (Built.init (α := α) m.aspects m.noEdge m.directed f) (by rw [hslen]; omega)
  -- after the node-layers
  have nodes : ∃ m2, (if f then .ok m1
            else forE addNodeLayer (m.nodeLayers.filter fun nl => inSets sets nl) m1) =
        (.ok m2 : Except Err (MNet α W)) ∧
      Built m2 m.aspects m.noEdge m.directed f
        (fun k x => if m.fic = false ∧ k = 0 then
            ∃ nl ∈ m.nodeLayers, nl ∈ product sets ∧ nl[0]? = some x
          else selName m.slices sel k x ∧ x ∈ m.slices.getD k [])
        (fun nl => nl ∈ m.nodeLayers ∧ nl ∈ product sets) (fun _ _ => m.noEdge) := by
    have hnl : ∀ nl, nl ∈ (m.nodeLayers.filter fun nl => inSets sets nl) ↔ nl ∈ m.nodeLayers ∧ nl ∈ product sets := by
      intro nl
      rw [List.mem_filter]
      refine and_congr_right fun hm => ?_
      exact inSets_iff (by rw [hslen]; exact hso.length_of_mem (n3 nl hm))
    by_cases hf : f = true
    · rw [if_pos hf]
      refine ⟨m1, rfl, ?_⟩
      have hmt : m.fic = true := by
        cases hm : m.fic with
        | true => rfl
        | false => rw [hmf hm] at hf; cases hf
      rw [hf] at h1 ⊢
      refine (Built.anyNL h1).congr' (fun k x => ?_) (fun _ _ => rfl)
      have : m.view.fic = true := hmt
      rw [hmt]
      simp only [this, true_or, true_and, false_or, Bool.true_eq_false, false_and, if_false, Nat.zero_le, Nat.sub_zero,
        mem_selSets, hsets]
      rfl
    · rw [if_neg hf]
      have hff : f = false := by simpa using hf
      obtain ⟨m2, e2, h2⟩ := h1.addNodeLs (hf0 hff) hff (fun x : List α => x)
        (m.nodeLayers.filter fun nl => inSets sets nl)
        (fun y hy => hso.length_of_mem (n3 y ((hnl y).1 hy).1))
        (g := addNodeLayer)
        (by intro m y n t _ he; subst he; rfl)
      refine ⟨m2, e2, h2.congr (fun k x => ?_) (fun nl => ?_) (fun _ _ => rfl)⟩
      · simp only [false_or, hnl]
        have inj : (∃ y, (y ∈ m.nodeLayers ∧ y ∈ product sets) ∧ y[k]? = some x) → selName m.slices sel k x ∧ x ∈ m.slices.getD k [] := by
          rintro ⟨y, ⟨hy1, hy2⟩, hx⟩
          refine ⟨?_, ?_⟩
          · rw [← mem_selSets]; exact (mem_product_get.1 hy2).2 _ _ hx
          · have := ((hso.mem_product _).1 (n3 y hy1)).2 _ _ hx
            exact (inS_iff _ _).2 this
        simp only [Nat.sub_zero, hsets, mem_selSets, Nat.zero_le, true_and]
        by_cases hc : m.fic = false ∧ k = 0
        · rw [if_pos hc]
          have hvf : m.view.fic = false := hc.1
          obtain ⟨-, rfl⟩ := hc
          simp [hvf, and_assoc, hsets]
        · rw [if_neg hc]
          have hcc : m.view.fic = true ∨ k ≠ 0 := by
            cases hm : m.fic with
            | true => exact Or.inl hm
            | false => exact Or.inr fun h0 => hc ⟨hm, h0⟩
          simp only [hcc, true_and]
          exact or_iff_left_of_imp inj
      · simp only [false_or, hnl, exists_eq_right']
  obtain ⟨m2, e2, h2⟩ := nodes
  -- links
  have hlinked : ∀ a b, a ∈ product sets → b ∈ product sets → (m.reads a b ≠ m.noEdge ∨ m.reads b a ≠ m.noEdge) →
      (a ∈ m.nodeLayers ∧ a ∈ product m.slices) ∧ (b ∈ m.nodeLayers ∧ b ∈ product m.slices) := by
    intro a b ha hb hor
    have key : ∀ a b, m.reads a b ≠ m.noEdge → (a ∈ m.nodeLayers ∧ a ∈ product m.slices) ∧
        (b ∈ m.nodeLayers ∧ b ∈ product m.slices) := by
      intro a b hne
      have hsome : (m.lk a b).isSome = true := (MNet.reads_ne_noEdge h.l ..).1 hne
      obtain ⟨w, hw⟩ := Option.isSome_iff_exists.1 hsome
      have ra := (MNet.reg_iff h.r a).1 (h.reg a b w hw).1
      have rb := (MNet.reg_iff h.r b).1 (h.reg a b w hw).2
      have := n4 a ra b rb hne
      exact ⟨⟨this.1, ra⟩, this.2, rb⟩
    rcases hor with hne | hne
    · exact key a b hne
    · exact (key b a hne).symm
  have mem_pairs : ∀ total p, p ∈ copyPairs m sets total →
      p.1 ∈ product sets ∧ p.2 ∈ product sets ∧ ((total : Int) ≤ m.deg p.1 none ∨
        (m.reads p.1 p.2 ≠ m.noEdge ∨ m.reads p.2 p.1 ≠ m.noEdge)) := by
    rintro total ⟨a, b⟩ hp
    simp only [copyPairs, List.mem_flatMap, List.mem_map, Prod.mk.injEq] at hp
    obtain ⟨a', ha, b', hb, rfl, rfl⟩ := hp
    split at hb
    · rename_i hc; exact ⟨ha, hb, Or.inl hc⟩
    · rw [List.mem_filter, MNet.mem_iterTotal h.l, ← MNet.reads_ne_noEdge h.l, ← MNet.reads_ne_noEdge h.l] at hb
      have hor := hb.1.1
      have hlb : b'.length = m.aspects + 1 := by
        have hsome : (m.lk a' b').isSome = true ∨ (m.lk b' a').isSome = true := by
          rcases hor with hne | hne
          · exact Or.inl ((MNet.reads_ne_noEdge h.l ..).1 hne)
          · exact Or.inr ((MNet.reads_ne_noEdge h.l ..).1 hne)
        rcases hsome with hsm | hsm
        · obtain ⟨w, hw⟩ := Option.isSome_iff_exists.1 hsm
          exact hso.length_of_mem ((MNet.reg_iff h.r b').1 (h.reg _ _ w hw).2)
        · obtain ⟨w, hw⟩ := Option.isSome_iff_exists.1 hsm
          exact hso.length_of_mem ((MNet.reg_iff h.r b').1 (h.reg _ _ w hw).1)
      exact ⟨ha, (inSets_iff (by rw [hlb, hslen])).1 hb.2, Or.inr hor⟩
  have pairs_mem : ∀ total a b, a ∈ product sets → b ∈ product sets → m.reads a b ≠ m.noEdge →
      (a, b) ∈ copyPairs m sets total := by
    intro total a b ha hb hne
    simp only [copyPairs, List.mem_flatMap, List.mem_map, Prod.mk.injEq]
    refine ⟨a, ha, b, ?_, rfl, rfl⟩
    split
    · exact hb
    · rw [List.mem_filter, MNet.mem_iterTotal h.l, ← MNet.reads_ne_noEdge h.l]
      exact ⟨⟨Or.inl hne, by simp [dimsOk]⟩, (inSets_iff (by rw [lenP b hb, hslen])).2 hb⟩
  set total : Nat := if f = true then subnetCount m.view sets else (m.nodeLayers.filter fun nl => inSets sets nl).length
    with htot
  have hloop : forE (copyNode m.view sets total) (product sets) m2 =
      forE (fun (n : MNet α W) (p : List α × List α) =>
        copyLink m.view (decide ((total : Int) ≤ m.deg p.1 none)) p.1 n p.2) (copyPairs m sets total) m2 := by
    unfold copyPairs
    rw [← forE_nested (fun a n b => copyLink m.view (decide ((total : Int) ≤ m.deg a none)) a n b)]
    congr 1
    funext n a
    unfold copyNode
    simp only [MNet.view]
    by_cases hc : (total : Int) ≤ m.deg a none
    · simp [hc]
    · simp [hc]
  obtain ⟨m3, R', e3, h3, h4⟩ := h2.setItems (copyPairs m sets total)
    (fun p => (total : Int) ≤ m.deg p.1 none → m.reads p.1 p.2 ≠ m.noEdge)
    (fun p => p.1) (fun p => p.2) (fun p => m.reads p.1 p.2)
    (g := fun (n : MNet α W) (p : List α × List α) =>
        copyLink m.view (decide ((total : Int) ≤ m.deg p.1 none)) p.1 n p.2)
    (by
      intro n p hp hpp
      obtain ⟨q1, q2, -⟩ := mem_pairs total p hp
      refine ⟨interleave p.1 p.2, ⟨lenP _ q1, lenP _ q2, Or.inl (interleave_eq_link _ _)⟩, ?_⟩
      unfold copyLink
      simp only [MNet.nodeGet_eq (lenP _ q1) (lenP _ q2), Item.num]
      rw [if_neg (by
        rintro ⟨ht, hw⟩
        exact hpp (by simpa using ht) hw)]
      unfold MNet.nodeSet nodesToLink
      rw [if_pos (by rw [lenP _ q1, lenP _ q2])])
    (by
      intro n p hp hpp
      obtain ⟨q1, q2, -⟩ := mem_pairs total p hp
      rw [Classical.not_imp, not_not] at hpp
      unfold copyLink
      simp only [MNet.nodeGet_eq (lenP _ q1) (lenP _ q2), Item.num]
      rw [if_pos ⟨by simpa using hpp.1, hpp.2⟩])
    (by
      intro p hp hpp _ he
      obtain ⟨q1, q2, hor⟩ := mem_pairs total p hp
      rcases hor with hc | hor
      · exact hpp hc
      · rw [he] at hor ⊢; exact hor.elim id id)
  have written : ∀ p ∈ copyPairs m sets total, ((total : Int) ≤ m.deg p.1 none → m.reads p.1 p.2 ≠ m.noEdge) →
      (p.1 ∈ product sets ∧ p.1 ∈ m.nodeLayers ∧ p.1 ∈ product m.slices) ∧
      (p.2 ∈ product sets ∧ p.2 ∈ m.nodeLayers ∧ p.2 ∈ product m.slices) := by
    intro p hp hpp
    obtain ⟨q1, q2, hor⟩ := mem_pairs total p hp
    have hor' : m.reads p.1 p.2 ≠ m.noEdge ∨ m.reads p.2 p.1 ≠ m.noEdge := by
      rcases hor with hc | hor
      · exact Or.inl (hpp hc)
      · exact hor
    have := hlinked _ _ q1 q2 hor'
    exact ⟨⟨q1, this.1⟩, q2, this.2⟩
  have base : m.view.subnetInto sel nolinks (MNet.init m.aspects m.noEdge m.directed f) =
      if nolinks = true then .ok m2 else forE (copyNode m.view sets total) (product sets) m2 := by
    unfold View.subnetInto
    rw [if_neg (by change ¬ sel.length ≠ m.aspects + 1; rw [hs]; simp)]
    have hif : (MNet.init m.aspects m.noEdge m.directed f : MNet α W).fic = f := by
      have := (Built.init (α := α) m.aspects m.noEdge m.directed f).params.2.2.2
      rw [this]
      cases hf : f with
      | true => simp
      | false => have := hf0 hf; simp; omega
    rw [hif, if_neg (by change ¬ (m.fic = false ∧ f = true); rintro ⟨h1, h2⟩; rw [hmf h1] at h2; cases h2)]
    have hss : selSets m.view.slices sel = sets := rfl
    have hvn : m.view.nodeLayers = .ok m.nodeLayers := rfl
    simp only [hss, e1, htot, hvn]
    cases hf : f with
    | true =>
      rw [hf] at e2
      simp only [if_true, Except.ok.injEq] at e2
      subst e2
      simp only [if_true]
    | false =>
      rw [hf] at e2
      simp only [Bool.false_eq_true, if_false] at e2
      simp only [Bool.false_eq_true, if_false]
      rw [e2]
  rw [base]
  cases nolinks with
  | true => exact ⟨m2, if_pos rfl, h2.congr' (fun _ _ => Iff.rfl) (fun _ _ => by simp)⟩
  | false =>
  refine ⟨m3, by rw [if_neg (by simp), hloop]; exact e3, h3.congr (fun k x => ?_) (fun nl => ?_) (fun a b => ?_)⟩
  · refine or_iff_left_of_imp ?_
    rintro ⟨p, hp, hpp, hx⟩
    obtain ⟨⟨w1, w2, w3⟩, w4, w5, w6⟩ := written p hp hpp
    have fin : ∀ a, a ∈ product sets → a ∈ m.nodeLayers → a ∈ product m.slices → a[k]? = some x →
        (if m.fic = false ∧ k = 0 then ∃ nl ∈ m.nodeLayers, nl ∈ product sets ∧ nl[0]? = some x
          else selName m.slices sel k x ∧ x ∈ m.slices.getD k []) := by
      intro a ha1 ha2 ha3 hax
      split
      · rename_i hc
        obtain ⟨-, rfl⟩ := hc
        exact ⟨a, ha2, ha1, hax⟩
      · refine ⟨?_, ?_⟩
        · rw [← mem_selSets]; exact (mem_product_get.1 ha1).2 _ _ hax
        · rw [inS_iff]; exact ((hso.mem_product _).1 ha3).2 _ _ hax
    rcases hx with hx | hx
    · exact fin p.1 w1 w2 w3 hx
    · exact fin p.2 w4 w5 w6 hx
  · refine or_iff_left_of_imp ?_
    rintro ⟨p, hp, hpp, rfl | rfl⟩
    · exact ⟨(written p hp hpp).1.2.1, (written p hp hpp).1.1⟩
    · exact ⟨(written p hp hpp).2.2.1, (written p hp hpp).2.1⟩
  · rcases h4 a b with ⟨p, hp, hpp, hab, hR⟩ | ⟨hno, hR⟩
    · obtain ⟨⟨w1, -, w3⟩, w4, -, w6⟩ := written p hp hpp
      rw [hR]
      rcases hab with ⟨rfl, rfl⟩ | ⟨hd, rfl, rfl⟩
      · rw [if_pos ⟨rfl, w1, w4⟩]
      · rw [if_pos ⟨rfl, w4, w1⟩]
        exact hso.sym hd _ w3 _ w6
    · rw [hR]
      split
      · rename_i hc
        by_contra hne
        exact hno (a, b) (pairs_mem total a b hc.2.1 hc.2.2 (fun e => hne e.symm)) (fun _ e => hne e.symm) (Or.inl ⟨rfl, rfl⟩)
      · rfl

theorem subnet_spec {m : MNet α W} (h : m.Inv) (hf0 : m.fic = false → 1 ≤ m.aspects)
    {sel : List (Option (List α))} (hs : sel.length = m.aspects + 1) (nolinks : Bool) :
    ∃ m', m.subnet sel nolinks = .ok m' ∧
      Built m' m.aspects m.noEdge m.directed m.fic
        (fun k x => if m.fic = false ∧ k = 0 then
            ∃ nl ∈ m.nodeLayers, nl ∈ product (selSets m.slices sel) ∧ nl[0]? = some x
          else selName m.slices sel k x ∧ x ∈ m.slices.getD k [])
        (fun nl => nl ∈ m.nodeLayers ∧ nl ∈ product (selSets m.slices sel))
        (fun a b => if nolinks = false ∧ a ∈ product (selSets m.slices sel) ∧ b ∈ product (selSets m.slices sel) then m.reads a b
          else m.noEdge) :=
  subnetInto_spec h m.fic id hf0 hs nolinks

end Pymnet
