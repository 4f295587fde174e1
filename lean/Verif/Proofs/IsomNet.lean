import Verif.Proofs.IsomIso

/-! Isomorphism tests, isomorphisms and invariants of networks of any kind. -/

set_option linter.unusedSectionVars false
set_option linter.unusedSimpArgs false

namespace Pymnet

open Py

variable {α W : Type} [DecidableEq α] [DecidableEq W] [LinearOrder α]

/-- the aspects that must not change -/
def nonAllowed (d : Nat) (al : List Nat) : List Nat := (List.range (d + 1)).filter fun a => a ∉ al

/-- Internal: the auxiliary graph object of a network. -/
structure AuxSpec (v : View α W) (R : List α → List α → W) (nls : List (List α)) (al : List Nat) (A : AuxGraph α)
    (aux : List (Nat × α)) : Prop where
  aspects : A.aspects = v.aspects
  slices : A.slices = v.slices
  asp : A.asp = pySorted al
  nasp : A.nasp = nonAllowed v.aspects al
  colormap : A.colormap = (colorList (nonAllowed v.aspects al) nls).zipIdx
  auxcolormap : A.auxcolormap = enumDict (pySorted al) (colorList (nonAllowed v.aspects al) nls).length
  nodup : aux.Nodup
  nlsNodup : nls.Nodup
  auxnodemap : A.auxnodemap = aux.zipIdx nls.length
  names : Names v.aspects al v.inS nls aux
  coded : Coded A.graph nls aux (fun u w => R u w ≠ v.noEdge)
    (fun u => (colorList (nonAllowed v.aspects al) nls).idxOf (pick (nonAllowed v.aspects al) u))
    (fun a => (Dict.get (enumDict (pySorted al) (colorList (nonAllowed v.aspects al) nls).length) a).getD 0)
    (fun u => nls.idxOf u) (fun p => nls.length + aux.idxOf p)

theorem auxGraph_spec {v : View α W} {R : List α → List α → W} (hv : v.Sound R) (hd : v.directed = false)
    (ha : 1 ≤ v.aspects) {nls : List (List α)} (hn : v.nodeLayers = .ok nls) (allowed : Option (List Nat))
    (hal : ∀ a ∈ allowedAspects v.aspects allowed, a ≤ v.aspects) :
    ∃ A aux, v.auxGraph allowed = .ok A ∧ AuxSpec v R nls (allowedAspects v.aspects allowed) A aux := by
  obtain ⟨l, n1, n2, n3, n4⟩ := hv.nls
  rw [hn] at n1; cases n1
  set al := allowedAspects v.aspects allowed with hall
  have hmem : ∀ a, a ∈ pySorted al ↔ a ∈ al := fun a => (pySorted_perm _).mem_iff
  obtain ⟨s, aux, h1, h2, h3, h4, h5⟩ := buildAux_spec hv hd ha hn (asp := pySorted al)
    (fun a h => hal a ((hmem a).1 h)) (nonAllowed v.aspects al)
  refine ⟨⟨v.aspects, v.slices, pySorted al, nonAllowed v.aspects al, colorMap (nonAllowed v.aspects al) nls,
    enumDict (pySorted al) (colorMap (nonAllowed v.aspects al) nls).length, s.nodemap, s.auxnodemap, s.graph⟩, aux, ?_, ?_⟩
  · unfold View.auxGraph
    rw [hd, hn]
    simp only [Bool.false_eq_true, if_false]
    change (match v.buildAux (pySorted al) (nonAllowed v.aspects al) nls with
      | .error e => _
      | .ok s => _) = _
    rw [h1]
    rfl
  · have hlen : (colorMap (nonAllowed v.aspects al) nls).length = (colorList (nonAllowed v.aspects al) nls).length := by
      rw [colorMap_eq, List.length_zipIdx]
    refine ⟨rfl, rfl, rfl, rfl, colorMap_eq _ _, by simp only [hlen], h2, n2, h3, ⟨?_, ?_, ?_, hal⟩, ?_⟩
    · exact fun u hu => hv.length_of_mem (n3 u hu)
    · intro u hu a x hx
      exact ((hv.mem_product u).1 (n3 u hu)).2 a x hx
    · intro a x; rw [h4, hmem]
    · have hcol : ∀ u ∈ nls, (Dict.get (colorMap (nonAllowed v.aspects al) nls) (pick (nonAllowed v.aspects al) u)).getD 0 =
          (colorList (nonAllowed v.aspects al) nls).idxOf (pick (nonAllowed v.aspects al) u) := by
        intro u hu
        rw [colorMap_eq, get_zipIdx, if_pos ((mem_colorList _ _ _).2 ⟨u, hu, rfl⟩)]
        simp
      simp only [hlen] at h5
      exact { h5 with colN := fun u hu => by rw [h5.colN u hu, hcol u hu] }

section two

variable {v w : View α W} {R R' : List α → List α → W} {nls nls' : List (List α)} {al : List Nat} {A B : AuxGraph α}
  {aux aux' : List (Nat × α)}

theorem pick_applyTo {d : Nat} {f : Nat → α → α} (hf : ∀ a ≤ d, a ∉ al → ∀ x, f a x = x) (u : List α) :
    pick (nonAllowed d al) (Spec.applyTo f u) = pick (nonAllowed d al) u := by
  unfold pick nonAllowed
  apply List.filterMap_congr
  intro a ha
  simp only [List.mem_filter, List.mem_range, decide_eq_true_eq] at ha
  rw [getElem?_applyTo]
  cases h : u[a]? with
  | none => rfl
  | some x => simp only [Option.map_some]; rw [hf a (by omega) ha.2]

/-- isomorphic networks have the same colours -/
theorem iso_colors {d : Nat} {S S' : Nat → α → Prop} {Lk Lk' : List α → List α → Prop} {f : Nat → α → α}
    (hf : Spec.Isomorphism d al S (· ∈ nls) Lk S' (· ∈ nls') Lk' f) :
    colorList (nonAllowed d al) nls = colorList (nonAllowed d al) nls' := by
  rw [colorList_ext]
  intro c
  constructor
  · rintro ⟨u, hu, rfl⟩
    exact ⟨Spec.applyTo f u, (hf.nodeLayers _).2 ⟨u, hu, rfl⟩, (pick_applyTo hf.fixed u).symm⟩
  · rintro ⟨u', hu', rfl⟩
    obtain ⟨u, hu, rfl⟩ := (hf.nodeLayers u').1 hu'
    exact ⟨u, hu, pick_applyTo hf.fixed u⟩

theorem AuxSpec.graph_of_iso (hA : AuxSpec v R nls al A aux) (hB : AuxSpec w R' nls' al B aux')
    (hdim : w.aspects = v.aspects) {f : Nat → α → α}
    (hf : Spec.Isomorphism v.aspects al v.inS (· ∈ nls) (fun a b => R a b ≠ v.noEdge) w.inS (· ∈ nls')
      (fun a b => R' a b ≠ w.noEdge) f) :
    ∃ φ, Spec.ColorIso A.graph B.graph φ ∧
      ∀ p ∈ aux, φ (nls.length + aux.idxOf p) = nls'.length + aux'.idxOf (p.1, f p.1 p.2) := by
  have hc := iso_colors hf
  have hB' := hB.coded
  have hN' := hB.names
  rw [hdim] at hB' hN'
  refine iso_to_graph hA.coded hB' hA.names hN' hf (fun u _ => ?_) fun a _ => ?_
  · rw [pick_applyTo hf.fixed, hc]
  · rw [hc]

theorem AuxSpec.iso_of_graph (hA : AuxSpec v R nls al A aux) (hB : AuxSpec w R' nls' al B aux')
    (hdim : w.aspects = v.aspects)
    (hc : colorList (nonAllowed v.aspects al) nls = colorList (nonAllowed v.aspects al) nls')
    {φ : Nat → Nat} (hφ : Spec.ColorIso A.graph B.graph φ) :
    ∃ f, Spec.Isomorphism v.aspects al v.inS (· ∈ nls) (fun a b => R a b ≠ v.noEdge) w.inS (· ∈ nls')
      (fun a b => R' a b ≠ w.noEdge) f ∧
      (∀ p ∈ aux, (p.1, f p.1 p.2) ∈ aux' ∧
        φ (nls.length + aux.idxOf p) = nls'.length + aux'.idxOf (p.1, f p.1 p.2)) ∧
      ∀ a x, (a, x) ∉ aux → f a x = x := by
  have hB' := hB.coded
  have hN' := hB.names
  rw [hdim] at hB' hN'
  have hmem : ∀ a ∈ al, a ∈ pySorted al := fun a h => (pySorted_perm _).mem_iff.2 h
  refine Pymnet.iso_of_graph (K := (colorList (nonAllowed v.aspects al) nls).length)
    hA.coded hB' hA.names hN' (fun u hu => ?_) (fun u hu => ?_) (fun a ha => ?_) (fun a ha => ?_) ?_ ?_ hφ
  · exact List.idxOf_lt_length_iff.2 ((mem_colorList _ _ _).2 ⟨u, hu, rfl⟩)
  · rw [hc]; exact List.idxOf_lt_length_iff.2 ((mem_colorList _ _ _).2 ⟨u, hu, rfl⟩)
  · obtain ⟨i, hi⟩ := (enumDict_get (pySorted al) (colorList (nonAllowed v.aspects al) nls).length).2 a (hmem a ha)
    have := ((enumDict_get (pySorted al) (colorList (nonAllowed v.aspects al) nls).length).1 a i hi).1
    rw [hi]; exact this
  · rw [hc]
  · intro a ha b hb hab
    obtain ⟨i, hi⟩ := (enumDict_get (pySorted al) (colorList (nonAllowed v.aspects al) nls).length).2 a (hmem a ha)
    obtain ⟨j, hj⟩ := (enumDict_get (pySorted al) (colorList (nonAllowed v.aspects al) nls).length).2 b (hmem b hb)
    have h1 := (enumDict_get (pySorted al) (colorList (nonAllowed v.aspects al) nls).length).1 a i hi
    have h2 := (enumDict_get (pySorted al) (colorList (nonAllowed v.aspects al) nls).length).1 b j hj
    simp only [hi, hj, Option.getD_some] at hab
    subst hab
    exact Option.some.inj (h1.2.symm.trans h2.2)
  · intro u hu u' hu' h
    rw [← hc] at h
    exact (List.idxOf_inj ((mem_colorList _ _ _).2 ⟨u, hu, rfl⟩)).1 h

/-- Internal: `compare` -/
theorem AuxSpec.compare (hA : AuxSpec v R nls al A aux) (hB : AuxSpec w R' nls' al B aux')
    (hdim : w.aspects = v.aspects) (match? : CGraph → CGraph → Option (Dict Nat Nat)) :
    A.compare match? B =
      if (colorList (nonAllowed v.aspects al) nls).length = (colorList (nonAllowed v.aspects al) nls').length ∨ al = [] then
        .ok (decide (colorList (nonAllowed v.aspects al) nls = colorList (nonAllowed v.aspects al) nls') &&
          (match? A.graph B.graph).isSome)
      else .error .assertionError := by
  unfold AuxGraph.compare AuxGraph.compareLabels
  rw [if_pos ⟨by rw [hA.asp, hB.asp], by rw [hA.nasp, hB.nasp, hdim]⟩, hA.auxcolormap, hB.auxcolormap, hA.colormap,
    hB.colormap, hdim]
  have e : pySorted al = [] ↔ al = [] := by
    constructor
    · intro h; exact List.perm_nil.1 (h ▸ (pySorted_perm al).symm)
    · rintro rfl; rfl
  have h1 := dictEq_enum (pySorted al) (colorList (nonAllowed v.aspects al) nls).length
    (colorList (nonAllowed v.aspects al) nls').length
  rw [e] at h1
  by_cases h : (colorList (nonAllowed v.aspects al) nls).length = (colorList (nonAllowed v.aspects al) nls').length ∨ al = []
  · rw [if_pos h, if_pos (h1.2 h)]
    have h2 := dictEq_zipIdx (colorList_nodup (nonAllowed v.aspects al) nls) (colorList_nodup (nonAllowed v.aspects al) nls')
    by_cases hc : colorList (nonAllowed v.aspects al) nls = colorList (nonAllowed v.aspects al) nls'
    · rw [h2.2 hc, decide_eq_true hc]; simp
    · have : dictEq ((colorList (nonAllowed v.aspects al) nls).zipIdx : Dict (List α) Nat)
          (colorList (nonAllowed v.aspects al) nls').zipIdx = false := by
        rw [← Bool.not_eq_true]; exact fun h => hc (h2.1 h)
      rw [this, decide_eq_false hc]; simp
  · rw [if_neg h, if_neg (fun h' => h (h1.1 h'))]

theorem get_inv {κ : Type} (l : List κ) (n j : Nat) :
    Dict.get ((l.zipIdx n).foldl (fun d p => Dict.set d p.2 p.1) ([] : Dict Nat κ)) j =
      if n ≤ j then l[j - n]? else none := by
  induction l using List.reverseRecOn with
  | nil => simp
  | append_singleton l a ih =>
    rw [List.zipIdx_append, List.foldl_append]
    simp only [List.zipIdx_singleton, List.foldl_cons, List.foldl_nil]
    rw [Dict.get_set, ih]
    by_cases h : n + l.length = j
    · subst h
      rw [if_pos rfl, if_pos (by omega), show n + l.length - n = l.length by omega]
      simp
    · rw [if_neg h]
      by_cases hj : n ≤ j
      · rw [if_pos hj, if_pos hj]
        rcases Nat.lt_or_ge (j - n) l.length with hlt | hge
        · rw [List.getElem?_append_left hlt]
        · rw [List.getElem?_eq_none hge, List.getElem?_eq_none (by simp; omega)]
      · rw [if_neg hj, if_neg hj]

/-- what dictionaries say -/
def Entries (d : Nat) (m : List (Dict α α)) (P : Nat → α → α → Prop) : Prop :=
  m.length = d + 1 ∧ ∀ a ≤ d, ∃ D, m[a]? = some D ∧ ∀ x y, Dict.get D x = some y ↔ P a x y

theorem Entries.congr {d : Nat} {m : List (Dict α α)} {P Q : Nat → α → α → Prop} (h : Entries d m P)
    (hPQ : ∀ a ≤ d, ∀ x y, P a x y ↔ Q a x y) : Entries d m Q :=
  ⟨h.1, fun a ha => by obtain ⟨D, h1, h2⟩ := h.2 a ha; exact ⟨D, h1, fun x y => (h2 x y).trans (hPQ a ha x y)⟩⟩

theorem Entries.modify {d : Nat} {m : List (Dict α α)} {P : Nat → α → α → Prop} (h : Entries d m P) (a : Nat) (x y : α) :
    Entries d (m.modify a fun D => Dict.set D x y) (fun b x' y' => if b = a ∧ x' = x then y' = y else P b x' y') := by
  refine ⟨by simpa using h.1, fun b hb => ?_⟩
  obtain ⟨D, h1, h2⟩ := h.2 b hb
  rw [List.getElem?_modify, h1]
  by_cases hab : a = b
  · subst hab
    refine ⟨Dict.set D x y, by simp, fun x' y' => ?_⟩
    rw [Dict.get_set]
    by_cases hx : x = x'
    · subst hx; simp [eq_comm]
    · have hx' : ¬ x' = x := fun e => hx e.symm
      simp only [hx, hx', if_false, and_false]
      exact h2 x' y'
  · have hab' : ¬ b = a := fun e => hab e.symm
    refine ⟨D, by simp [hab], fun x' y' => ?_⟩
    simp only [hab', false_and, if_false]
    exact h2 x' y'

theorem Entries.inner {d : Nat} (a : Nat) (sl : List α) {m : List (Dict α α)} {P : Nat → α → α → Prop} (h : Entries d m P) :
    Entries d (sl.foldl (fun m x => m.modify a fun D => Dict.set D x x) m)
      (fun b x y => if b = a ∧ x ∈ sl then y = x else P b x y) := by
  induction sl using List.reverseRecOn with
  | nil => exact h.congr (by simp)
  | append_singleton l z ih =>
    rw [List.foldl_append]
    refine (ih.modify a z z).congr fun b _ x y => ?_
    by_cases hb : b = a <;> by_cases hx : x = z <;> simp [hb, hx]

theorem Entries.fixed {d : Nat} (slices : List (List α)) (nasp : List Nat) {m : List (Dict α α)} {P : Nat → α → α → Prop}
    (h : Entries d m P) :
    Entries d (fixedAspects slices nasp m)
      (fun b x y => if b ∈ nasp ∧ x ∈ (slices[b]?).getD [] then y = x else P b x y) := by
  unfold fixedAspects
  induction nasp using List.reverseRecOn with
  | nil => exact h.congr (by simp)
  | append_singleton l z ih =>
    rw [List.foldl_append]
    refine (ih.inner z ((slices[z]?).getD [])).congr fun b _ x y => ?_
    by_cases hb : b = z
    · subst hb
      by_cases hx : x ∈ (slices[b]?).getD [] <;> simp [hx]
    · simp [hb]

/-- Internal: the dictionaries of an isomorphism -/
theorem AuxSpec.perms (hA : AuxSpec v R nls al A aux) (hB : AuxSpec w R' nls' al B aux')
    {f : Nat → α → α} {φ : Nat → Nat} {P : Dict Nat Nat}
    (hf : ∀ p ∈ aux, (p.1, f p.1 p.2) ∈ aux' ∧
        φ (nls.length + aux.idxOf p) = nls'.length + aux'.idxOf (p.1, f p.1 p.2))
    (hfix : ∀ a x, (a, x) ∉ aux → f a x = x)
    (hP : ∀ i ∈ Dict.keys A.graph.nodes, Dict.get P i = some (φ i)) (inc : Bool) :
    ∃ m, A.perms B P inc = .ok m ∧
      Entries v.aspects m (fun a x y => v.inS a x ∧ y = f a x ∧ (inc = true ∨ x ≠ y)) := by
  have hloop : ∃ m, forE (permEntry P (B.auxnodemap.foldl (fun d p => Dict.set d p.2 p.1) []) inc) A.auxnodemap
      (List.replicate (A.aspects + 1) []) = .ok m ∧
      Entries v.aspects m (fun a x y => (a, x) ∈ A.auxnodemap.map Prod.fst ∧ y = f a x ∧ (inc = true ∨ x ≠ y)) := by
    refine forE_ok (P := fun pre m =>
      Entries v.aspects m (fun a x y => (a, x) ∈ pre.map Prod.fst ∧ y = f a x ∧ (inc = true ∨ x ≠ y))) A.auxnodemap ?_ ?_
    · rw [hA.aspects]
      refine ⟨by simp, fun a ha => ⟨[], ?_, by simp⟩⟩
      rw [List.getElem?_replicate, if_pos (by omega)]
    · rintro pre ⟨⟨a0, x0⟩, i⟩ post m hl hm
      have hmem : ((a0, x0), i) ∈ aux.zipIdx nls.length := by rw [← hA.auxnodemap, hl]; simp
      rw [List.mem_zipIdx_iff_le_and_getElem?_sub] at hmem
      simp only at hmem
      obtain ⟨hp, hi⟩ := (getElem?_iff_idxOf hA.nodup _ _).1 hmem.2
      have hi' : i = nls.length + aux.idxOf (a0, x0) := by omega
      obtain ⟨g1, g2⟩ := hf _ hp
      have hget : Dict.get P i = some (nls'.length + aux'.idxOf (a0, f a0 x0)) := by
        rw [hi', hP _ ((hA.coded.node _).2 (Or.inr ⟨_, hp, rfl⟩)), g2]
      have hinv : Dict.get (B.auxnodemap.foldl (fun d p => Dict.set d p.2 p.1) []) (nls'.length + aux'.idxOf (a0, f a0 x0)) =
          some (a0, f a0 x0) := by
        rw [hB.auxnodemap, get_inv, if_pos (by omega), Nat.add_sub_cancel_left]
        exact (getElem?_iff_idxOf hB.nodup _ _).2 ⟨g1, rfl⟩
      refine ⟨_, by simp only [permEntry, hget, hinv, if_true]; rfl, ?_⟩
      split
      · rename_i hc
        refine (hm.modify a0 x0 (f a0 x0)).congr fun a _ x y => ?_
        simp only [List.map_append, List.map_cons, List.map_nil, List.mem_append, List.mem_singleton, Prod.mk.injEq]
        by_cases hx : a = a0 ∧ x = x0
        · obtain ⟨rfl, rfl⟩ := hx
          simp only [and_self, if_true, or_true, true_and]
          constructor
          · rintro rfl; exact ⟨rfl, hc.symm⟩
          · exact fun h => h.1
        · rw [if_neg hx]; simp [hx]
      · rename_i hc
        refine hm.congr fun a _ x y => ?_
        simp only [List.map_append, List.map_cons, List.map_nil, List.mem_append, List.mem_singleton, Prod.mk.injEq]
        by_cases hx : a = a0 ∧ x = x0
        · obtain ⟨rfl, rfl⟩ := hx
          have hno : ¬ (y = f a x ∧ (inc = true ∨ x ≠ y)) := by
            rintro ⟨rfl, h⟩; exact hc h.symm
          exact iff_of_false (fun h => hno h.2) (fun h => hno h.2)
        · simp [hx]
  obtain ⟨m, m1, m2⟩ := hloop
  have hkeys : A.auxnodemap.map Prod.fst = aux := by rw [hA.auxnodemap]; simp
  rw [hkeys] at m2
  refine ⟨if inc then fixedAspects A.slices A.nasp m else m, by simp only [AuxGraph.perms, m1], ?_⟩
  have hslice : ∀ b x, x ∈ (v.slices[b]?).getD [] ↔ v.inS b x := by
    intro b x
    unfold View.inS
    cases h : v.slices[b]? <;> simp
  cases inc with
  | false =>
    simp only [Bool.false_eq_true, if_false, false_or] at m2 ⊢
    refine m2.congr fun a ha x y => ?_
    rw [hA.names.aux_iff]
    constructor
    · rintro ⟨⟨-, h1⟩, h2⟩; exact ⟨h1, h2⟩
    · rintro ⟨h1, rfl, h3⟩
      refine ⟨⟨?_, h1⟩, rfl, h3⟩
      by_contra hna
      exact h3 (hfix a x fun h => hna ((hA.names.aux_iff a x).1 h).1).symm
  | true =>
    simp only [if_true, true_or, and_true] at m2 ⊢
    refine (m2.fixed A.slices A.nasp).congr fun a ha x y => ?_
    have hn : a ∈ A.nasp ↔ a ∉ al := by
      rw [hA.nasp]
      unfold nonAllowed
      simp only [List.mem_filter, List.mem_range, decide_eq_true_eq]
      exact ⟨fun h => h.2, fun h => ⟨by omega, h⟩⟩
    have hsl : x ∈ (A.slices[a]?).getD [] ↔ v.inS a x := by rw [hA.slices]; exact hslice a x
    rw [hA.names.aux_iff]
    by_cases hal : a ∈ al
    · rw [if_neg (fun h => hn.1 h.1 hal)]; simp [hal]
    · by_cases hx : v.inS a x
      · rw [if_pos ⟨hn.2 hal, hsl.2 hx⟩, hfix a x fun h => hal ((hA.names.aux_iff a x).1 h).1]
        simp [hx]
      · rw [if_neg (fun h => hx (hsl.1 h.2))]; simp [hal, hx]

theorem permOf_eq {f : Nat → α → α} {inc : Bool} {m : List (Dict α α)}
    (hm : Entries v.aspects m (fun a x y => v.inS a x ∧ y = f a x ∧ (inc = true ∨ x ≠ y))) {a : Nat} (ha : a ≤ v.aspects)
    (x : α) : Spec.permOf m a x = open Classical in if v.inS a x then f a x else x := by
  obtain ⟨D, h1, h2⟩ := hm.2 a ha
  unfold Spec.permOf
  rw [h1]
  simp only [Option.bind_some]
  cases h : Dict.get D x with
  | some y =>
    obtain ⟨h3, rfl, -⟩ := (h2 x y).1 h
    simp [h3]
  | none =>
    simp only [Option.getD_none]
    split
    · rename_i hx
      by_contra hne
      have := (h2 x (f a x)).2 ⟨hx, rfl, Or.inr hne⟩
      rw [h] at this; cases this
    · rfl

end two

end Pymnet
