import Verif.Proofs.PlexSet

set_option linter.unusedSectionVars false
set_option linter.unusedSimpArgs false
set_option linter.unnecessarySimpa false

namespace Pymnet

open Py

namespace MPlex

variable {α W : Type} [DecidableEq α] [DecidableEq W]

/-- value read for a link, `noEdge` if the read raises -/
def R [IntNames α] (p : MPlex α W) (u v : List α) : W :=
  match p.getLink (interleave u v) with
  | .ok w => w
  | .error _ => p.noEdge

theorem R_ne [IntNames α] {p : MPlex α W} {u v : List α} :
    p.R u v ≠ p.noEdge ↔ ∃ w, p.getLink (interleave u v) = .ok w ∧ w ≠ p.noEdge := by
  unfold R
  cases h : p.getLink (interleave u v) with
  | ok w => simp
  | error e => simp

theorem getLink_of_R [IntNames α] {p : MPlex α W} {u v : List α} (h : p.R u v ≠ p.noEdge) :
    p.getLink (interleave u v) = .ok (p.R u v) := by
  obtain ⟨w, h1, h2⟩ := R_ne.1 h
  unfold R; rw [h1]

variable [Zero W]

theorem mem_product_iff {p : MPlex α W} (h : p.P0) (u : List α) :
    u ∈ product p.slices ↔ u.length = p.aspects + 1 ∧ ∀ a x, u[a]? = some x → p.inSlice a x := by
  rw [mem_product, MNet.forall₂_iff_getElem, h.slen]
  refine and_congr_right fun hu => ?_
  constructor
  · intro h1 a x hx
    have ha : a < p.slices.length := by
      have := (List.getElem?_eq_some_iff.1 hx).1
      rw [h.slen]; omega
    exact ⟨p.slices[a], by simp [ha], h1 a x _ hx (by simp [ha])⟩
  · intro h1 a x s hx hs
    obtain ⟨t, ht, hx'⟩ := h1 a x hx
    rw [hs] at ht; cases ht; exact hx'

/-- the layer of a node-layer in the product exists -/
theorem child_of_product {p : MPlex α W} (h : p.P0) {i : α} {s : List α} (hu : i :: s ∈ product p.slices) :
    ∃ c, p.child? (.ofList s) = some c := by
  rw [mem_product_iff h] at hu
  apply Option.isSome_iff_exists.1
  rw [h.akeys]
  exact ⟨s, rfl, by simpa using hu.1, fun k x hx => hu.2 (k + 1) x (by simpa using hx)⟩

theorem product_cons {p : MPlex α W} (h : p.P0) {u : List α} (hu : u ∈ product p.slices) :
    ∃ i s, u = i :: s := by
  rw [mem_product_iff h] at hu
  match u, hu.1 with
  | i :: s, _ => exact ⟨i, s, rfl⟩

theorem getLink_intra [IntNames α] {p : MPlex α W} {i j : α} {s : List α} {c : MNet α W}
    (hc : p.child? (.ofList s) = some c) (hij : i ≠ j) :
    p.getLink (interleave (i :: s) (j :: s)) = .ok (c.reads [i] [j]) := by
  have h1 := (interAspects_zero (i := i) (j := j) (s := s) (t := s) rfl).2 ⟨hij, rfl⟩
  unfold getLink
  rw [h1]
  simp only [interleave, List.drop_succ_cons, List.drop_zero, evens_interleave rfl, hc]
  have := MNet.getLink_interleave c (u := [i]) (v := [j]) rfl (by simp)
  exact this

theorem getLink_intra_none [IntNames α] {p : MPlex α W} {i j : α} {s : List α}
    (hc : p.child? (.ofList s) = none) (hij : i ≠ j) :
    p.getLink (interleave (i :: s) (j :: s)) = .ok p.noEdge := by
  have h1 := (interAspects_zero (i := i) (j := j) (s := s) (t := s) rfl).2 ⟨hij, rfl⟩
  unfold getLink
  rw [h1]
  simp only [interleave, List.drop_succ_cons, List.drop_zero, evens_interleave rfl, hc]

theorem getLink_inter [IntNames α] {p : MPlex α W} {u v : List α} {d : Nat}
    (h : interAspects (interleave u v) 0 = [d + 1]) :
    p.getLink (interleave u v) = p.getInter (interleave u v) (d + 1) := by
  unfold getLink
  rw [h]
  rfl

theorem getLink_other [IntNames α] {p : MPlex α W} {u v : List α}
    (h : ∀ d, interAspects (interleave u v) 0 ≠ [d]) :
    p.getLink (interleave u v) = .ok p.noEdge := by
  unfold getLink
  match hi : interAspects (interleave u v) 0 with
  | [] => rfl
  | [0] => exact absurd hi (h 0)
  | [d + 1] => exact absurd hi (h (d + 1))
  | _ :: _ :: _ => simp

omit [DecidableEq W] [Zero W] in
theorem differ_iff {u v : List α} (hl : u.length = v.length) (d : Nat) :
    interAspects (interleave u v) 0 = [d] ↔ ∃ y, u[d]? ≠ some y ∧ d < u.length ∧ v = u.set d y := by
  have := interAspects_eq_singleton hl 0 d
  rw [Nat.zero_add] at this
  rw [this]
  constructor
  · rintro ⟨h1, h2⟩
    have hd : d < u.length := by
      by_contra hd
      apply h1
      rw [List.getElem?_eq_none (by omega), List.getElem?_eq_none (by omega)]
    have hd' : d < v.length := hl ▸ hd
    refine ⟨v[d], ?_, hd, ?_⟩
    · intro e; apply h1; rw [e]; simp [hd']
    · apply List.ext_getElem?
      intro i
      by_cases hi : i = d
      · subst hi; simp [hd, hd']
      · rw [List.getElem?_set_ne (fun e => hi e.symm)]
        exact (h2 i hi).symm
  · rintro ⟨y, h1, h2, rfl⟩
    refine ⟨?_, fun i hi => ?_⟩
    · simpa [h2] using h1
    · rw [List.getElem?_set_ne (fun e => hi e.symm)]

omit [DecidableEq W] [Zero W] in
theorem interleave_getElem? {u v : List α} (hl : u.length = v.length) (d : Nat) :
    (interleave u v)[2 * d]? = u[d]? ∧ (interleave u v)[2 * d + 1]? = v[d]? := by
  induction u generalizing v d with
  | nil => cases v <;> simp_all [interleave]
  | cons x u ih =>
    cases v with
    | nil => simp at hl
    | cons y v =>
      cases d with
      | zero => simp [interleave]
      | succ d =>
        have := ih (v := v) (by simpa using hl) d
        simp only [interleave, show 2 * (d + 1) = 2 * d + 1 + 1 by ring, List.getElem?_cons_succ]
        exact this

/-- The inter-layer read in an aligned network. -/
theorem getLink_aligned [IntNames α] {p : MPlex α W} (hf : p.fic = true) {n : α} {s : List α} {d : Nat}
    {x y : α} (hx : s[d]? = some x) (hxy : x ≠ y) (hn : n ∈ p.slices.headD []) {c : Coupling α W}
    (hc : p.couplings[d]? = some c) :
    p.getLink (interleave (n :: s) (n :: s.set d y)) = p.couplingRead c x y := by
  have hd : d < s.length := (List.getElem?_eq_some_iff.1 hx).1
  have hl : (n :: s).length = (n :: s.set d y).length := by simp
  have h1 : interAspects (interleave (n :: s) (n :: s.set d y)) 0 = [d + 1] := by
    rw [differ_iff hl]
    exact ⟨y, by simp [hx, hxy], by simpa using hd, rfl⟩
  rw [getLink_inter h1]
  obtain ⟨g1, g2⟩ := interleave_getElem? hl (d + 1)
  have hx' : (n :: s)[d + 1]? = some x := by simpa using hx
  have hy' : (n :: s.set d y)[d + 1]? = some y := by simp [hd]
  rw [hx'] at g1
  rw [hy'] at g2
  unfold getInter
  change (if n ∉ p.slices.headD [] then _ else _) = _
  rw [if_neg (not_not_intro hn)]
  simp only [hf, if_true, Nat.add_sub_cancel, hc]
  rw [g1, g2]

open Classical in
/-- The inter-layer read in a network that is not node-aligned. -/
theorem getLink_nonaligned [IntNames α] {p : MPlex α W} (hp : p.P0) (hf : p.fic = false) {n : α} {s : List α} {d : Nat}
    {x y : α} (hx : s[d]? = some x) (hxy : x ≠ y) {c1 c2 : MNet α W}
    (h1 : p.child? (.ofList s) = some c1) (h2 : p.child? (.ofList (s.set d y)) = some c2)
    {c : Coupling α W} (hc : p.couplings[d]? = some c) :
    p.getLink (interleave (n :: s) (n :: s.set d y)) =
      if p.kid (.ofList s) n ∧ p.kid (.ofList (s.set d y)) n then p.couplingRead c x y else .ok p.noEdge := by
  classical
  have hd : d < s.length := (List.getElem?_eq_some_iff.1 hx).1
  have hl : (n :: s).length = (n :: s.set d y).length := by simp
  have h0 : interAspects (interleave (n :: s) (n :: s.set d y)) 0 = [d + 1] := by
    rw [differ_iff hl]
    exact ⟨y, by simp [hx, hxy], by simpa using hd, rfl⟩
  rw [getLink_inter h0]
  obtain ⟨g1, g2⟩ := interleave_getElem? hl (d + 1)
  have hx' : (n :: s)[d + 1]? = some x := by simpa using hx
  have hy' : (n :: s.set d y)[d + 1]? = some y := by simp [hd]
  rw [hx'] at g1
  rw [hy'] at g2
  have k1 : p.kid (.ofList s) n ↔ n ∈ c1.slices.headD [] := by simp [kid, h1]
  have k2 : p.kid (.ofList (s.set d y)) n ↔ n ∈ c2.slices.headD [] := by simp [kid, h2]
  have hlen : 0 < p.slices.length := by rw [hp.slen]; omega
  unfold getInter
  change (if n ∉ p.slices.headD [] then _ else _) = _
  by_cases hn : n ∈ p.slices.headD []
  · rw [if_neg (not_not_intro hn)]
    simp only [hf, Bool.false_eq_true, if_false, onBoth, evens_interleave (show s.length = (s.set d y).length by simp),
      odds_interleave (show s.length = (s.set d y).length by simp), h1, h2, Nat.add_sub_cancel, hc]
    rw [g1, g2]
    rw [k1, k2]
    by_cases m1 : n ∈ c1.slices.headD []
    · by_cases m2 : n ∈ c2.slices.headD []
      · simp only [m1, m2, if_true, decide_true, and_self]
      · simp only [m1, if_true, m2, decide_false, and_false, if_false]
    · simp only [m1, if_false, false_and]
  · rw [if_pos hn, if_neg]
    rintro ⟨h3, -⟩
    rw [head_inSlice hlen] at hn
    exact hn (hp.ksub _ _ h3)

theorem getLink_nonaligned_pos [IntNames α] {p : MPlex α W} (hp : p.P0) (hf : p.fic = false) {n : α} {s : List α}
    {d : Nat} {x y : α} (hx : s[d]? = some x) (hxy : x ≠ y) {c : Coupling α W} (hc : p.couplings[d]? = some c)
    (k1 : p.kid (.ofList s) n) (k2 : p.kid (.ofList (s.set d y)) n) :
    p.getLink (interleave (n :: s) (n :: s.set d y)) = p.couplingRead c x y := by
  obtain ⟨c1, h1, -⟩ := id k1
  obtain ⟨c2, h2, -⟩ := id k2
  rw [getLink_nonaligned hp hf hx hxy h1 h2 hc, if_pos ⟨k1, k2⟩]

theorem getLink_nonaligned_neg [IntNames α] {p : MPlex α W} (hp : p.P0) (hf : p.fic = false) {n : α} {s : List α}
    {d : Nat} {x y : α} (hx : s[d]? = some x) (hxy : x ≠ y) {c1 c2 : MNet α W}
    (h1 : p.child? (.ofList s) = some c1) (h2 : p.child? (.ofList (s.set d y)) = some c2)
    {c : Coupling α W} (hc : p.couplings[d]? = some c)
    (hk : ¬ (p.kid (.ofList s) n ∧ p.kid (.ofList (s.set d y)) n)) :
    p.getLink (interleave (n :: s) (n :: s.set d y)) = .ok p.noEdge := by
  rw [getLink_nonaligned hp hf hx hxy h1 h2 hc, if_neg hk]

/-! ### Neighbours -/

omit [DecidableEq W] [Zero W] [DecidableEq α] in
theorem sumDims_ok {β : Type} [AddMonoid β] {f : Nat → Except Err β} {g : Nat → β} (l : List Nat) (acc : β)
    (h : ∀ d ∈ l, f d = .ok (g d)) : sumDims f l acc = .ok (acc + (l.map g).sum) := by
  induction l generalizing acc with
  | nil => simp [sumDims]
  | cons d l ih =>
    simp only [sumDims, h d (by simp), List.map_cons, List.sum_cons]
    rw [ih _ (fun x hx => h x (by simp [hx])), add_assoc]

/-- What has to be known about one aspect `a ≥ 1` at node-layer `u`: the inter-layer neighbours are
`u` with the elementary layer replaced by each of `ns`. -/
structure DimOk [IntNames α] (p : MPlex α W) (u : List α) (a : Nat) (ns : List α) : Prop where
  iter : p.iterDim u a = .ok (ns.map (replaceAt u a))
  nodup : ns.Nodup
  mem : ∀ y, y ∈ ns ↔ p.inSlice a y ∧ u[a]? ≠ some y ∧ p.R u (u.set a y) ≠ p.noEdge

/-- Everything the generic neighbour theorem needs. -/
structure Good [IntNames α] (p : MPlex α W) (u : List α) : Prop where
  inv : p.P0
  ne : p.noEdge = 0
  noself : ∀ L a, p.lkA L [a] [a] = none
  mem : u ∈ product p.slices
  dims : ∀ a, 1 ≤ a → a ≤ p.aspects → ∃ ns, p.DimOk u a ns
  sym : ∀ a, 1 ≤ a → ∀ y, u[a]? ≠ some y → p.inSlice a y →
    p.R u (u.set a y) = p.R (u.set a y) u

section
variable [IntNames α] {p : MPlex α W}

/-- names yielding the neighbours of `u` in dimension `a` -/
noncomputable def names {u : List α} (h : p.Good u) (a : Nat) : List α :=
  open Classical in if hh : 1 ≤ a ∧ a ≤ p.aspects
    then (h.dims a hh.1 hh.2).choose else []

theorem names_spec {u : List α} (h : p.Good u) {a : Nat} (h1 : 1 ≤ a)
    (h2 : a ≤ p.aspects) : p.DimOk u a (names h a) := by
  unfold names
  rw [dif_pos ⟨h1, h2⟩]
  exact (h.dims a h1 h2).choose_spec

theorem set_mem_product (h : p.P0) {u : List α} (hu : u ∈ product p.slices) {a : Nat} {y : α}
    (hy : p.inSlice a y) : u.set a y ∈ product p.slices := by
  rw [mem_product_iff h] at hu ⊢
  refine ⟨by simpa using hu.1, fun b x hx => ?_⟩
  by_cases hb : a = b
  · subst hb
    rw [List.getElem?_set] at hx
    simp at hx
    obtain ⟨-, rfl⟩ := hx
    exact hy
  · rw [List.getElem?_set_ne hb] at hx
    exact hu.2 b x hx

/-- an existing link of a layer has both its nodes there -/
theorem lk_kid {c : MNet α W} (hk : p.KidOk c) {a b : List α} {w : W} (h : c.lk a b = some w) :
    ∃ x y, a = [x] ∧ b = [y] ∧ x ∈ c.slices.headD [] ∧ y ∈ c.slices.headD [] := by
  have hc := MNet.headD_of_inv hk.inv.r hk.asp
  obtain ⟨h1, h2⟩ := hk.inv.reg a b w h
  have hla := h1.1
  have hlb := h2.1
  rw [hk.asp] at hla hlb
  match a, b, hla, hlb with
  | [x], [y], _, _ =>
    refine ⟨x, y, rfl, rfl, ?_, ?_⟩
    · obtain ⟨s, hs, hx⟩ := h1.2 0 x rfl
      rw [hc] at hs; simp only [List.getElem?_cons_zero, Option.some.injEq] at hs; subst hs; exact hx
    · obtain ⟨s, hs, hx⟩ := h2.2 0 y rfl
      rw [hc] at hs; simp only [List.getElem?_cons_zero, Option.some.injEq] at hs; subst hs; exact hx

theorem getLink_self (u : List α) : p.getLink (interleave u u) = .ok p.noEdge := by
  apply getLink_other
  intro d e
  obtain ⟨y, h3, h4, h5⟩ := (differ_iff rfl d).1 e
  apply h3
  have := List.getElem?_set_self (a := y) h4
  rw [← h5] at this
  exact this

/-- intra-layer links read between node-layers of one layer -/
theorem R_intra (hi : p.P0) (hne : p.noEdge = 0) (hns : ∀ L a, p.lkA L [a] [a] = none) {i j : α} {s : List α}
    {c : MNet α W} (hc : p.child? (.ofList s) = some c) : p.R (i :: s) (j :: s) = c.reads [i] [j] := by
  have hk := hi.kids _ _ hc
  by_cases hij : i = j
  · subst hij
    have h1 : c.lk [i] [i] = none := by
      have := hns (.ofList s) i
      simpa [lkA, hc] using this
    have h2 := getLink_self (p := p) (i :: s)
    unfold R
    rw [h2]
    simp [MNet.reads, h1, hk.ne, hne]
  · unfold R
    rw [getLink_intra hc hij]

/-- two node-layers with a link differ in exactly one index -/
theorem R_ne_differ {u v : List α} (hl : u.length = v.length) (h : p.R u v ≠ p.noEdge) :
    ∃ a y, u[a]? ≠ some y ∧ a < u.length ∧ v = u.set a y := by
  by_contra hne
  apply h
  have : p.getLink (interleave u v) = .ok p.noEdge := by
    apply getLink_other
    intro d e
    obtain ⟨y, h1, h2, h3⟩ := (differ_iff hl d).1 e
    exact hne ⟨d, y, h1, h2, h3⟩
  unfold R; rw [this]

/-- which intra-layer neighbours an iteration yields -/
def Sel (p : MPlex α W) (f : MNet α W → List α → List (List α)) (Q : List α → List α → Prop) : Prop :=
  ∀ c, p.KidOk c → ∀ a, (f c a).Nodup ∧ ∀ b, b ∈ f c a ↔ Q a b ∧ ((c.lk a b).isSome = true ∨ (c.lk b a).isSome = true)

/-- Generic neighbour iteration: an iteration over all dimensions whose intra-layer part is `f`. -/
theorem iter_spec {u : List α} (h : p.Good u)
    (f : MNet α W → List α → List (List α)) (E : W → W → Prop)
    (hE : ∀ w, w ≠ p.noEdge ↔ E w w)
    (hf : ∀ c, p.KidOk c → ∀ a, (f c a).Nodup ∧
      ∀ b, b ∈ f c a ↔ E (c.reads a b) (c.reads b a))
    (hEn : ∀ w w', E w w' → w ≠ p.noEdge ∨ w' ≠ p.noEdge) :
    ∃ l, View.collect (fun d => if d = 0 then p.intra u f else p.iterDim u d) (p.selectDimensions u none) = .ok l ∧
      l.Nodup ∧ (∀ v, v ∈ l ↔ v ∈ product p.slices ∧ E (p.R u v) (p.R v u)) ∧
      ∃ c i s, u = i :: s ∧ p.child? (.ofList s) = some c ∧
        l = (f c [i]).map (fun m => m.take 1 ++ s) ++
          ((List.range p.aspects).flatMap fun d => (names h (d + 1)).map (replaceAt u (d + 1))) := by
  have hu := h.mem
  obtain ⟨i, s, rfl⟩ := product_cons h.inv hu
  obtain ⟨c, hc⟩ := child_of_product h.inv hu
  have hk := h.inv.kids _ _ hc
  have hcs := MNet.headD_of_inv hk.inv.r hk.asp
  obtain ⟨hlen, hreg⟩ := (mem_product_iff h.inv _).1 hu
  -- neighbours within the layer are single names
  have single : ∀ m ∈ f c [i], ∃ j, m = [j] ∧ j ∈ c.slices.headD [] := by
    intro m hm
    have := ((hf c hk [i]).2 m).1 hm
    have hne := hEn _ _ this
    rw [h.ne, ← hk.ne, MNet.reads_ne_noEdge hk.inv.l, MNet.reads_ne_noEdge hk.inv.l] at hne
    rcases hne with h1 | h1
    · obtain ⟨w, hw⟩ := Option.isSome_iff_exists.1 h1
      obtain ⟨x, y, -, h3, -, h5⟩ := lk_kid hk hw
      exact ⟨y, h3, h5⟩
    · obtain ⟨w, hw⟩ := Option.isSome_iff_exists.1 h1
      obtain ⟨x, y, h3, -, h5, -⟩ := lk_kid hk hw
      exact ⟨x, h3, h5⟩
  have notself : [i] ∉ f c [i] := by
    intro hm
    have := ((hf c hk [i]).2 [i]).1 hm
    have hn := hEn _ _ this
    have : c.lk [i] [i] = none := by
      have := h.noself (.ofList s) i
      simpa [lkA, hc] using this
    simp [MNet.reads, this, hk.ne, h.ne] at hn
  have hcol : View.collect (fun d => if d = 0 then p.intra (i :: s) f else p.iterDim (i :: s) d)
      (p.selectDimensions (i :: s) none) = .ok ((f c [i]).map (fun m => m.take 1 ++ s) ++
          ((List.range p.aspects).flatMap fun d => (names h (d + 1)).map (replaceAt (i :: s) (d + 1)))) := by
    simp only [selectDimensions]
    rw [View.collect_ok (g := fun d => if d = 0 then (f c [i]).map (fun m => m.take 1 ++ s)
      else (names h d).map (replaceAt (i :: s) d))]
    · rw [List.range_succ_eq_map, List.flatMap_cons, if_pos rfl, List.flatMap_map]
      congr 1
    · intro d hd
      rw [List.mem_range] at hd
      by_cases hd0 : d = 0
      · rw [if_pos hd0, if_pos hd0]
        simp [intra, onChild, hc]
      · rw [if_neg hd0, if_neg hd0]
        exact (names_spec h (by omega) (by omega)).iter
  refine ⟨_, hcol, ?_, ?_, c, i, s, rfl, hc, rfl⟩
  · -- no duplicates
    rw [List.nodup_append]
    refine ⟨?_, ?_, ?_⟩
    · refine (hf c hk [i]).1.map_on ?_
      intro m hm m' hm' e
      obtain ⟨j, rfl, -⟩ := single m hm
      obtain ⟨j', rfl, -⟩ := single m' hm'
      simpa using e
    · rw [List.nodup_flatMap]
      constructor
      · intro d hd
        rw [List.mem_range] at hd
        have ns := names_spec h (a := d + 1) (by omega) (by omega)
        refine ns.nodup.map_on ?_
        intro y hy y' hy' e
        have hl : d + 1 < (i :: s).length := by rw [hlen]; omega
        have := congrArg (fun l => l[d + 1]?) e
        simp only [replaceAt] at this
        rw [List.getElem?_set_self hl, List.getElem?_set_self hl] at this
        simpa using this
      · refine List.Pairwise.imp_of_mem ?_ List.nodup_range
        intro d d' hd hd' hne
        rw [List.mem_range] at hd hd'
        rw [Function.onFun, List.disjoint_left]
        intro v hv hv'
        obtain ⟨y, hy, rfl⟩ := List.mem_map.1 hv
        obtain ⟨y', hy', e⟩ := List.mem_map.1 hv'
        have ns := names_spec h (a := d + 1) (by omega) (by omega)
        have hl : d + 1 < (i :: s).length := by rw [hlen]; omega
        have := congrArg (fun l => l[d + 1]?) e
        simp only [replaceAt] at this
        rw [List.getElem?_set_self hl, List.getElem?_set_ne (by omega)] at this
        exact ((ns.mem y).1 hy).2.1 this
    · intro v hv v' hv' e
      subst e
      obtain ⟨m, hm, rfl⟩ := List.mem_map.1 hv
      obtain ⟨j, rfl, -⟩ := single m hm
      obtain ⟨d, -, hd⟩ := List.mem_flatMap.1 hv'
      obtain ⟨y, -, e⟩ := List.mem_map.1 hd
      have := congrArg (fun l => l[0]?) e
      simp only [replaceAt] at this
      rw [List.getElem?_set_ne (by omega)] at this
      simp at this
      subst this
      exact notself hm
  · -- exactly the linked node-layers
    intro v
    rw [List.mem_append]
    constructor
    · rintro (hv | hv)
      · obtain ⟨m, hm, rfl⟩ := List.mem_map.1 hv
        obtain ⟨j, rfl, hj⟩ := single m hm
        have hjs := h.inv.ksub _ j ⟨c, hc, hj⟩
        have : [j].take 1 ++ s = (i :: s).set 0 j := by simp
        rw [this]
        refine ⟨set_mem_product h.inv hu hjs, ?_⟩
        have := ((hf c hk [i]).2 [j]).1 hm
        change E (p.R (i :: s) (j :: s)) (p.R (j :: s) (i :: s))
        rw [R_intra h.inv h.ne h.noself hc, R_intra h.inv h.ne h.noself hc]; exact this
      · obtain ⟨d, hd0, hd⟩ := List.mem_flatMap.1 hv
        rw [List.mem_range] at hd0
        obtain ⟨y, hy, rfl⟩ := List.mem_map.1 hd
        have ns := names_spec h (a := d + 1) (by omega) (by omega)
        obtain ⟨n1, n2, n3⟩ := (ns.mem y).1 hy
        refine ⟨set_mem_product h.inv hu n1, ?_⟩
        simp only [replaceAt]
        rw [← h.sym (d + 1) (by omega) y n2 n1]
        exact (hE _).1 n3
    · rintro ⟨hv, hE'⟩
      have hlv : (i :: s).length = v.length := by
        rw [hlen, ((mem_product_iff h.inv _).1 hv).1]
      have hdiff : ∃ a y, (i :: s)[a]? ≠ some y ∧ a < (i :: s).length ∧ v = (i :: s).set a y := by
        rcases hEn _ _ hE' with h1 | h1
        · exact R_ne_differ hlv h1
        · obtain ⟨a, y, h2, h3, h4⟩ := R_ne_differ hlv.symm h1
          have ha : a < v.length := h3
          refine ⟨a, v[a], ?_, by omega, ?_⟩
          · rw [h4, List.getElem?_set_self ha]
            intro e
            apply h2; rw [List.getElem?_eq_getElem ha, e]
          · rw [h4]; simp
      obtain ⟨a, y, h1, h2, rfl⟩ := hdiff
      cases a with
      | zero =>
        left
        simp only [List.set_cons_zero] at hE' hv ⊢
        rw [R_intra h.inv h.ne h.noself hc, R_intra h.inv h.ne h.noself hc] at hE'
        refine List.mem_map.2 ⟨[y], ((hf c hk [i]).2 [y]).2 hE', by simp⟩
      | succ d =>
        right
        have hin : p.inSlice (d + 1) y := by
          refine ((mem_product_iff h.inv _).1 hv).2 (d + 1) y ?_
          rw [List.getElem?_set_self h2]
        refine List.mem_flatMap.2 ⟨d, List.mem_range.2 (by rw [hlen] at h2; omega), List.mem_map.2 ⟨y, ?_, rfl⟩⟩
        rw [hlen] at h2
        have ns := names_spec h (a := d + 1) (by omega) (by omega)
        refine (ns.mem y).2 ⟨hin, h1, ?_⟩
        rw [← h.sym (d + 1) (by omega) y h1 hin] at hE'
        rcases hEn _ _ hE' with h3 | h3 <;> exact h3

omit [IntNames α] in
theorem E_out (c : MNet α W) (hk : p.KidOk c) (hn : p.noEdge = 0) (a : List α) : (c.iterOut a none).Nodup ∧
    ∀ b, b ∈ c.iterOut a none ↔ c.reads a b ≠ p.noEdge := by
  refine ⟨MNet.iterOut_nodup hk.inv.l a none, fun b => ?_⟩
  rw [MNet.mem_iterOut, hn, ← hk.ne, MNet.reads_ne_noEdge hk.inv.l]
  simp [dimsOk]

omit [IntNames α] in
theorem E_in (c : MNet α W) (hk : p.KidOk c) (hn : p.noEdge = 0) (a : List α) : (c.iterIn a none).Nodup ∧
    ∀ b, b ∈ c.iterIn a none ↔ c.reads b a ≠ p.noEdge := by
  refine ⟨MNet.iterIn_nodup hk.inv.l a none, fun b => ?_⟩
  rw [MNet.mem_iterIn hk.inv.l, hn, ← hk.ne, MNet.reads_ne_noEdge hk.inv.l]
  simp [dimsOk]

omit [IntNames α] in
theorem E_tot (c : MNet α W) (hk : p.KidOk c) (hn : p.noEdge = 0) (a : List α) : (c.iterTotal a none).Nodup ∧
    ∀ b, b ∈ c.iterTotal a none ↔ (c.reads a b ≠ p.noEdge ∨ c.reads b a ≠ p.noEdge) := by
  refine ⟨MNet.iterTotal_nodup hk.inv.l a none, fun b => ?_⟩
  rw [MNet.mem_iterTotal hk.inv.l, hn, ← hk.ne, MNet.reads_ne_noEdge hk.inv.l, MNet.reads_ne_noEdge hk.inv.l]
  simp [dimsOk]

theorem out_spec {u : List α} (h : p.Good u) :
    ∃ l, p.iterOut u none = .ok l ∧ l.Nodup ∧ (∀ v, v ∈ l ↔ v ∈ product p.slices ∧ p.R u v ≠ p.noEdge) ∧
      ∃ c i s, u = i :: s ∧ p.child? (.ofList s) = some c ∧
        l = (c.iterOut [i] none).map (fun m => m.take 1 ++ s) ++
          ((List.range p.aspects).flatMap fun d => (names h (d + 1)).map (replaceAt u (d + 1))) :=
  iter_spec h (fun c n => c.iterOut n none) (fun w _ => w ≠ p.noEdge) (fun _ => Iff.rfl)
    (fun c hk a => E_out c hk h.ne a) (fun _ _ h => Or.inl h)

theorem inn_spec {u : List α} (h : p.Good u) :
    ∃ l, p.iterInDir u none = .ok l ∧ l.Nodup ∧ (∀ v, v ∈ l ↔ v ∈ product p.slices ∧ p.R v u ≠ p.noEdge) ∧
      ∃ c i s, u = i :: s ∧ p.child? (.ofList s) = some c ∧
        l = (c.iterIn [i] none).map (fun m => m.take 1 ++ s) ++
          ((List.range p.aspects).flatMap fun d => (names h (d + 1)).map (replaceAt u (d + 1))) :=
  iter_spec h (fun c n => c.iterIn n none) (fun _ w => w ≠ p.noEdge) (fun _ => Iff.rfl)
    (fun c hk a => E_in c hk h.ne a) (fun _ _ h => Or.inr h)

theorem tot_spec {u : List α} (h : p.Good u) :
    ∃ l, p.iterTotalDir u none = .ok l ∧ l.Nodup ∧
      (∀ v, v ∈ l ↔ v ∈ product p.slices ∧ (p.R u v ≠ p.noEdge ∨ p.R v u ≠ p.noEdge)) ∧
      ∃ c i s, u = i :: s ∧ p.child? (.ofList s) = some c ∧
        l = (c.iterTotal [i] none).map (fun m => m.take 1 ++ s) ++
          ((List.range p.aspects).flatMap fun d => (names h (d + 1)).map (replaceAt u (d + 1))) :=
  iter_spec h (fun c n => c.iterTotal n none) (fun w w' => w ≠ p.noEdge ∨ w' ≠ p.noEdge) (fun _ => by simp)
    (fun c hk a => E_tot c hk h.ne a) (fun _ _ h => h)

/-- generic sum over all dimensions -/
theorem sum_spec {β : Type} [AddMonoid β] {u : List α} {c : MNet α W} {i : α} {s : List α}
    (hui : u = i :: s) (hc : p.child? (.ofList s) = some c)
    (f : MNet α W → List α → Except Err β) {k : β} (hk : f c [i] = .ok k)
    (g : Nat → Except Err β) (g' : Nat → β) (hg : ∀ a, 1 ≤ a → a ≤ p.aspects → g a = .ok (g' a)) :
    sumDims (fun d => if d = 0 then p.onChild u f else g d) (p.selectDimensions u none) 0 =
      .ok (k + ((List.range p.aspects).map fun d => g' (d + 1)).sum) := by
  simp only [selectDimensions]
  rw [sumDims_ok (g := fun d => if d = 0 then k else g' d)]
  · rw [List.range_succ_eq_map, List.map_cons, List.sum_cons, if_pos rfl, List.map_map, zero_add]
    congr 2
  · intro d hd
    rw [List.mem_range] at hd
    by_cases hd0 : d = 0
    · rw [if_pos hd0, if_pos hd0]
      subst hui
      simp [onChild, hc, hk]
    · rw [if_neg hd0, if_neg hd0]
      exact hg d (by omega) (by omega)

theorem deg_spec {u : List α} (h : p.Good u) (dir : Dir) (f : MNet α W → List α → Int)
    (hdeg : ∀ a, 1 ≤ a → ∀ l, p.iterDim u a = .ok l → p.dimDegree u a dir = .ok (l.length : Int))
    {c : MNet α W} {i : α} {s : List α} (hui : u = i :: s) (hc : p.child? (.ofList s) = some c) :
    sumDims (fun d => if d = 0 then p.onChild u (fun c n => .ok (f c n)) else p.dimDegree u d dir)
      (p.selectDimensions u none) 0 = .ok (f c [i] +
        (((List.range p.aspects).flatMap fun d => (names h (d + 1)).map (replaceAt u (d + 1))).length : Int)) := by
  rw [sum_spec hui hc (fun c n => .ok (f c n)) rfl (fun d => p.dimDegree u d dir)
    (fun d => ((names h d).length : Int))]
  · congr 2
    rw [List.length_flatMap]
    induction List.range p.aspects with
    | nil => rfl
    | cons d l ih => simp [ih]
  · intro a h1 h2
    have := hdeg a h1 _ (names_spec h h1 h2).iter
    simpa using this

theorem degOut_spec {u : List α} (h : p.Good u) {l : List (List α)}
    (hdeg : ∀ a, 1 ≤ a → ∀ l, p.iterDim u a = .ok l → p.dimDegree u a .out = .ok (l.length : Int))
    (hl : p.iterOut u none = .ok l) : p.degOut u none = .ok l.length := by
  obtain ⟨l', h1, -, -, c, i, s, hui, hc, he⟩ := out_spec h
  rw [hl] at h1; cases h1
  unfold degOut
  rw [deg_spec h .out (fun c n => c.degOut n none) hdeg hui hc, he, List.length_append, List.length_map,
    MNet.degOut, MNet.degDict_eq]
  simp [MNet.iterOut]

theorem degIn_spec {u : List α} (h : p.Good u) {l : List (List α)}
    (hdeg : ∀ a, 1 ≤ a → ∀ l, p.iterDim u a = .ok l → p.dimDegree u a .inn = .ok (l.length : Int))
    (hl : p.iterInDir u none = .ok l) : p.degInDir u none = .ok l.length := by
  obtain ⟨l', h1, -, -, c, i, s, hui, hc, he⟩ := inn_spec h
  rw [hl] at h1; cases h1
  unfold degInDir
  rw [deg_spec h .inn (fun c n => c.degIn n none) hdeg hui hc, he, List.length_append, List.length_map]
  have : c.degIn [i] none = ((c.iterIn [i] none).length : Int) := by
    unfold MNet.degIn MNet.iterIn MNet.degInDir MNet.degOut MNet.iterInDir MNet.iterOut
    split <;> rw [MNet.degDict_eq]
  rw [this]; simp

theorem str_spec {W : Type} [DecidableEq W] [AddCommGroup W] {p : MPlex α W} {u : List α} (h : p.Good u)
    (dir : Dir) (f : MNet α W → List α → Except Err W)
    (it : MNet α W → List α → List (List α)) (V : List α → W)
    (hdim : ∀ a, 1 ≤ a → ∀ l, p.iterDim u a = .ok l → p.dimStrength u a dir = .ok ((l.map V).sum))
    {c : MNet α W} {i : α} {s : List α} (hui : u = i :: s) (hc : p.child? (.ofList s) = some c)
    (hf : f c [i] = .ok (((it c [i]).map fun m => V (m.take 1 ++ s)).sum)) :
    sumDims (fun d => if d = 0 then p.onChild u f else p.dimStrength u d dir)
      (p.selectDimensions u none) 0 = .ok ((((it c [i]).map (fun m => m.take 1 ++ s) ++
          ((List.range p.aspects).flatMap fun d => (names h (d + 1)).map (replaceAt u (d + 1)))).map V).sum) := by
  rw [sum_spec hui hc f hf (fun d => p.dimStrength u d dir)
    (fun d => (((names h d).map (replaceAt u d)).map V).sum)]
  · congr 1
    rw [List.map_append, List.sum_append, List.map_map]
    congr 1
    induction List.range p.aspects with
    | nil => rfl
    | cons d l ih => rw [List.map_cons, List.sum_cons, ih, List.flatMap_cons, List.map_append, List.sum_append]
  · intro a h1 h2
    exact hdim a h1 _ (names_spec h h1 h2).iter

theorem strOut_spec {W : Type} [DecidableEq W] [AddCommGroup W] {p : MPlex α W} {u : List α} (h : p.Good u)
    {l : List (List α)}
    (hdim : ∀ a, 1 ≤ a → ∀ l, p.iterDim u a = .ok l → p.dimStrength u a .out = .ok ((l.map fun v => p.R u v).sum))
    (hl : p.iterOut u none = .ok l) : p.strOut u none = .ok ((l.map fun v => p.R u v).sum) := by
  obtain ⟨l', h1, -, -, c, i, s, hui, hc, he⟩ := out_spec h
  rw [hl] at h1; cases h1
  unfold strOut
  have hk := h.inv.kids _ _ hc
  rw [str_spec h .out (fun c n => c.strOut n none) (fun c n => c.iterOut n none) (fun v => p.R u v) hdim hui hc,
    ← he]
  rw [MNet.strOut_spec hk.inv]
  congr 2
  refine List.map_congr_left fun m hm => ?_
  have := ((E_out c hk h.ne [i]).2 m).1 hm
  rw [h.ne, ← hk.ne, MNet.reads_ne_noEdge hk.inv.l] at this
  obtain ⟨w, hw⟩ := Option.isSome_iff_exists.1 this
  obtain ⟨x, y, -, rfl, -, -⟩ := lk_kid hk hw
  subst hui
  exact (R_intra h.inv h.ne h.noself hc).symm

theorem strIn_spec {W : Type} [DecidableEq W] [AddCommGroup W] {p : MPlex α W} {u : List α} (h : p.Good u)
    {l : List (List α)}
    (hdim : ∀ a, 1 ≤ a → ∀ l, p.iterDim u a = .ok l → p.dimStrength u a .inn = .ok ((l.map fun v => p.R v u).sum))
    (hl : p.iterInDir u none = .ok l) : p.strInDir u none = .ok ((l.map fun v => p.R v u).sum) := by
  obtain ⟨l', h1, -, -, c, i, s, hui, hc, he⟩ := inn_spec h
  rw [hl] at h1; cases h1
  unfold strInDir
  have hk := h.inv.kids _ _ hc
  rw [str_spec h .inn (fun c n => c.strIn n none) (fun c n => c.iterIn n none) (fun v => p.R v u) hdim hui hc,
    ← he]
  rw [MNet.strIn_spec hk.inv]
  congr 2
  refine List.map_congr_left fun m hm => ?_
  have := ((E_in c hk h.ne [i]).2 m).1 hm
  rw [h.ne, ← hk.ne, MNet.reads_ne_noEdge hk.inv.l] at this
  obtain ⟨w, hw⟩ := Option.isSome_iff_exists.1 this
  obtain ⟨x, y, rfl, -, -, -⟩ := lk_kid hk hw
  subst hui
  exact (R_intra h.inv h.ne h.noself hc).symm

/-! ### A sound view -/

theorem kid_of_R (hi : p.P0) (hne : p.noEdge = 0) (hns : ∀ L a, p.lkA L [a] [a] = none) {i j : α} {s : List α}
    (hu : i :: s ∈ product p.slices) (hR : p.R (i :: s) (j :: s) ≠ p.noEdge) : p.kid (.ofList s) i ∧ p.kid (.ofList s) j := by
  obtain ⟨c, hc⟩ := child_of_product hi hu
  have hk := hi.kids _ _ hc
  rw [R_intra hi hne hns hc, hne, ← hk.ne, MNet.reads_ne_noEdge hk.inv.l] at hR
  obtain ⟨w, hw⟩ := Option.isSome_iff_exists.1 hR
  obtain ⟨x, y, e1, e2, h1, h2⟩ := lk_kid hk hw
  cases e1; cases e2
  exact ⟨⟨c, hc, h1⟩, ⟨c, hc, h2⟩⟩

end

end MPlex

end Pymnet
