import Verif.Proofs.Isom
import Verif.Proofs.Looks

/-! Isomorphisms of auxiliary graphs are isomorphisms of networks. -/

set_option linter.unusedSectionVars false
set_option linter.unusedSimpArgs false

namespace Pymnet

open Py

variable {α W : Type} [DecidableEq α] [DecidableEq W]

theorem filterMap_inj {l : List Nat} {u w : List α} (hu : ∀ a ∈ l, a < u.length) (hw : ∀ a ∈ l, a < w.length)
    (h : (l.filterMap fun a => u[a]?) = l.filterMap fun a => w[a]?) : ∀ a ∈ l, u[a]? = w[a]? := by
  induction l with
  | nil => simp
  | cons a t ih =>
    have h1 : u[a]? = some (u[a]'(hu a (by simp))) := List.getElem?_eq_getElem _
    have h2 : w[a]? = some (w[a]'(hw a (by simp))) := List.getElem?_eq_getElem _
    rw [List.filterMap_cons_some h1, List.filterMap_cons_some h2] at h
    injection h with h3 h4
    intro b hb
    rcases List.mem_cons.1 hb with rfl | hb
    · rw [h1, h2, h3]
    · exact ih (fun a ha => hu a (by simp [ha])) (fun a ha => hw a (by simp [ha])) h4 b hb

theorem getElem?_applyTo (f : Nat → α → α) (u : List α) (a : Nat) :
    (Spec.applyTo f u)[a]? = (u[a]?).map (f a) := by
  unfold Spec.applyTo; rw [List.getElem?_mapIdx]

section iso

variable {d : Nat} {asp : List Nat} {S S' : Nat → α → Prop}
  {g g' : CGraph} {nls nls' : List (List α)} {aux aux' : List (Nat × α)} {Lk Lk' : List α → List α → Prop}
  {col col' : List α → Nat} {acol acol' : Nat → Nat} {id id' : List α → Nat} {aid aid' : Nat × α → Nat}

/-- Internal: the names used by node-layers. -/
structure Names (d : Nat) (asp : List Nat) (S : Nat → α → Prop) (nls : List (List α)) (aux : List (Nat × α)) : Prop where
  len : ∀ u ∈ nls, u.length = d + 1
  nm : ∀ u ∈ nls, ∀ (a : Nat) x, u[a]? = some x → S a x
  aux_iff : ∀ a x, (a, x) ∈ aux ↔ a ∈ asp ∧ S a x
  le : ∀ a ∈ asp, a ≤ d

theorem applyTo_inj (N : Names d asp S nls aux) {f : Nat → α → α}
    (hf : Spec.Isomorphism d asp S (· ∈ nls) Lk S' (· ∈ nls') Lk' f) {u w : List α} (hu : u ∈ nls) (hw : w ∈ nls)
    (h : Spec.applyTo f u = Spec.applyTo f w) : u = w := by
  apply List.ext_getElem?
  intro a
  have h1 : (u[a]?).map (f a) = (w[a]?).map (f a) := by rw [← getElem?_applyTo, ← getElem?_applyTo, h]
  rcases Nat.lt_or_ge a (d + 1) with hlt | hge
  · have e1 : u[a]? = some (u[a]'(by rw [N.len u hu]; exact hlt)) := List.getElem?_eq_getElem _
    have e2 : w[a]? = some (w[a]'(by rw [N.len w hw]; exact hlt)) := List.getElem?_eq_getElem _
    rw [e1, e2] at h1 ⊢
    simp only [Option.map_some, Option.some.injEq] at h1 ⊢
    by_cases ha : a ∈ asp
    · exact (hf.bij a (by omega) ha).injOn (N.nm u hu a _ e1) (N.nm w hw a _ e2) h1
    · rwa [hf.fixed a (by omega) ha, hf.fixed a (by omega) ha] at h1
  · rw [List.getElem?_eq_none (by rw [N.len u hu]; omega), List.getElem?_eq_none (by rw [N.len w hw]; omega)]

open Classical in
/-- an isomorphism of the networks gives an isomorphism of the graphs -/
theorem iso_to_graph (C : Coded g nls aux Lk col acol id aid) (C' : Coded g' nls' aux' Lk' col' acol' id' aid')
    (N : Names d asp S nls aux) (N' : Names d asp S' nls' aux') {f : Nat → α → α}
    (hf : Spec.Isomorphism d asp S (· ∈ nls) Lk S' (· ∈ nls') Lk' f)
    (hc : ∀ u ∈ nls, col' (Spec.applyTo f u) = col u) (hac : ∀ a ∈ asp, acol' a = acol a) :
    ∃ φ, Spec.ColorIso g g' φ ∧ ∀ p ∈ aux, φ (aid p) = aid' (p.1, f p.1 p.2) := by
  have hex : ∃ φ : Nat → Nat, (∀ u ∈ nls, φ (id u) = id' (Spec.applyTo f u)) ∧
      ∀ p ∈ aux, φ (aid p) = aid' (p.1, f p.1 p.2) := by
    refine ⟨fun i => if h : ∃ u ∈ nls, i = id u then id' (Spec.applyTo f h.choose)
      else if h : ∃ p ∈ aux, i = aid p then aid' (h.choose.1, f h.choose.1 h.choose.2) else i, ?_, ?_⟩
    · intro u hu
      have h : ∃ w ∈ nls, id u = id w := ⟨u, hu, rfl⟩
      have := h.choose_spec
      simp only
      rw [dif_pos h, ← C.idInj u hu _ this.1 this.2]
    · intro p hp
      have hn : ¬ ∃ w ∈ nls, aid p = id w := by
        rintro ⟨w, hw, e⟩; exact C.disj w hw p hp e.symm
      have h : ∃ q ∈ aux, aid p = aid q := ⟨p, hp, rfl⟩
      have := h.choose_spec
      simp only
      rw [dif_neg hn, dif_pos h, ← C.aidInj p hp _ this.1 this.2]
  obtain ⟨φ, p1, p2⟩ := hex
  have himg : ∀ u ∈ nls, Spec.applyTo f u ∈ nls' := fun u hu => (hf.nodeLayers _).2 ⟨u, hu, rfl⟩
  have hax : ∀ p ∈ aux, (p.1, f p.1 p.2) ∈ aux' := by
    rintro ⟨a, x⟩ hp
    obtain ⟨ha, hx⟩ := (N.aux_iff a x).1 hp
    exact (N'.aux_iff a _).2 ⟨ha, (hf.bij a (N.le a ha) ha).mapsTo hx⟩
  have hadj : ∀ u ∈ nls, ∀ p ∈ aux, (u[p.1]? = some p.2 ↔ (Spec.applyTo f u)[p.1]? = some (f p.1 p.2)) := by
    rintro u hu ⟨a, x⟩ hp
    obtain ⟨ha, hx⟩ := (N.aux_iff a x).1 hp
    simp only
    rw [getElem?_applyTo]
    constructor
    · intro h; rw [h]; rfl
    · intro h
      obtain ⟨y, hy, hxy⟩ := Option.map_eq_some_iff.1 h
      rw [hy, (hf.bij a (N.le a ha) ha).injOn (N.nm u hu a y hy) hx hxy]
  have symAdj : ∀ (g : CGraph) i j, Spec.Adj g i j ↔ Spec.Adj g j i := fun g i j => or_comm
  refine ⟨φ, ⟨⟨?_, ?_, ?_⟩, ?_, ?_⟩, p2⟩
  · intro i hi
    rcases (C.node i).1 hi with ⟨u, hu, rfl⟩ | ⟨p, hp, rfl⟩
    · exact (C'.node _).2 (Or.inl ⟨_, himg u hu, p1 u hu⟩)
    · exact (C'.node _).2 (Or.inr ⟨_, hax p hp, p2 p hp⟩)
  · intro i hi j hj hij
    rcases (C.node i).1 hi with ⟨u, hu, rfl⟩ | ⟨p, hp, rfl⟩ <;> rcases (C.node j).1 hj with ⟨w, hw, rfl⟩ | ⟨q, hq, rfl⟩
    · rw [p1 u hu, p1 w hw] at hij
      rw [applyTo_inj N hf hu hw (C'.idInj _ (himg u hu) _ (himg w hw) hij)]
    · rw [p1 u hu, p2 q hq] at hij
      exact absurd hij (C'.disj _ (himg u hu) _ (hax q hq))
    · rw [p2 p hp, p1 w hw] at hij
      exact absurd hij.symm (C'.disj _ (himg w hw) _ (hax p hp))
    · rw [p2 p hp, p2 q hq] at hij
      have := C'.aidInj _ (hax p hp) _ (hax q hq) hij
      obtain ⟨a, x⟩ := p
      obtain ⟨b, y⟩ := q
      simp only [Prod.mk.injEq] at this
      obtain ⟨rfl, hxy⟩ := this
      obtain ⟨ha, hx⟩ := (N.aux_iff a x).1 hp
      rw [(hf.bij a (N.le a ha) ha).injOn hx ((N.aux_iff a y).1 hq).2 hxy]
  · intro j hj
    rcases (C'.node j).1 hj with ⟨w, hw, rfl⟩ | ⟨⟨a, y⟩, hq, rfl⟩
    · obtain ⟨u, hu, rfl⟩ := (hf.nodeLayers w).1 hw
      exact ⟨id u, (C.node _).2 (Or.inl ⟨u, hu, rfl⟩), p1 u hu⟩
    · obtain ⟨ha, hy⟩ := (N'.aux_iff a y).1 hq
      obtain ⟨x, hx, rfl⟩ := (hf.bij a (N.le a ha) ha).surjOn hy
      have hp := (N.aux_iff a x).2 ⟨ha, hx⟩
      exact ⟨aid (a, x), (C.node _).2 (Or.inr ⟨_, hp, rfl⟩), p2 _ hp⟩
  · intro i hi
    rcases (C.node i).1 hi with ⟨u, hu, rfl⟩ | ⟨p, hp, rfl⟩
    · rw [p1 u hu, C.colN u hu, C'.colN _ (himg u hu), hc u hu]
    · rw [p2 p hp, C.colA p hp, C'.colA _ (hax p hp), hac p.1 ((N.aux_iff p.1 p.2).1 hp).1]
  · intro i hi j hj
    rcases (C.node i).1 hi with ⟨u, hu, rfl⟩ | ⟨p, hp, rfl⟩ <;> rcases (C.node j).1 hj with ⟨w, hw, rfl⟩ | ⟨q, hq, rfl⟩
    · rw [p1 u hu, p1 w hw, C.adjNN u hu w hw, C'.adjNN _ (himg u hu) _ (himg w hw)]
      exact hf.links u w hu hw
    · rw [p1 u hu, p2 q hq, C.adjNA u hu q hq, C'.adjNA _ (himg u hu) _ (hax q hq)]
      exact hadj u hu q hq
    · rw [p2 p hp, p1 w hw, symAdj, symAdj g', C.adjNA w hw p hp, C'.adjNA _ (himg w hw) _ (hax p hp)]
      exact hadj w hw p hp
    · rw [p2 p hp, p2 q hq]
      exact iff_of_false (C.adjAA p hp q hq) (C'.adjAA _ (hax p hp) _ (hax q hq))

open Classical in
/-- an isomorphism of the graphs gives an isomorphism of the networks -/
theorem iso_of_graph (C : Coded g nls aux Lk col acol id aid) (C' : Coded g' nls' aux' Lk' col' acol' id' aid')
    (N : Names d asp S nls aux) (N' : Names d asp S' nls' aux') {K : Nat}
    (hK : ∀ u ∈ nls, col u < K) (hK' : ∀ u ∈ nls', col' u < K) (haK : ∀ a ∈ asp, K ≤ acol a)
    (hac : ∀ a ∈ asp, acol' a = acol a) (hinj : ∀ a ∈ asp, ∀ b ∈ asp, acol a = acol b → a = b)
    (hcol : ∀ u ∈ nls, ∀ w ∈ nls', col u = col' w → Spec.pickFixed d asp u = Spec.pickFixed d asp w)
    {φ : Nat → Nat} (hφ : Spec.ColorIso g g' φ) :
    ∃ f, Spec.Isomorphism d asp S (· ∈ nls) Lk S' (· ∈ nls') Lk' f ∧
      (∀ p ∈ aux, (p.1, f p.1 p.2) ∈ aux' ∧ φ (aid p) = aid' (p.1, f p.1 p.2)) ∧
      ∀ a x, (a, x) ∉ aux → f a x = x := by
  have keyN : ∀ u ∈ nls, id u ∈ Dict.keys g.nodes := fun u hu => (C.node _).2 (Or.inl ⟨u, hu, rfl⟩)
  have keyA : ∀ p ∈ aux, aid p ∈ Dict.keys g.nodes := fun p hp => (C.node _).2 (Or.inr ⟨p, hp, rfl⟩)
  have hA : ∀ a x, (a, x) ∈ aux → ∃ y, (a, y) ∈ aux' ∧ φ (aid (a, x)) = aid' (a, y) := by
    intro a x hp
    have ha := ((N.aux_iff a x).1 hp).1
    have hcl := hφ.color _ (keyA _ hp)
    rw [C.colA _ hp] at hcl
    rcases (C'.node _).1 (hφ.bij.mapsTo (keyA _ hp)) with ⟨w, hw, e⟩ | ⟨⟨b, y⟩, hq, e⟩
    · rw [e, C'.colN w hw] at hcl
      simp only [Option.some.injEq] at hcl
      have := hK' w hw
      have := haK a ha
      omega
    · rw [e, C'.colA _ hq] at hcl
      simp only [Option.some.injEq] at hcl
      have hb := ((N'.aux_iff b y).1 hq).1
      rw [hac b hb] at hcl
      obtain rfl := hinj b hb a ha hcl
      exact ⟨y, hq, e⟩
  have hf : ∃ f : Nat → α → α, (∀ a x, (a, x) ∈ aux → (a, f a x) ∈ aux' ∧ φ (aid (a, x)) = aid' (a, f a x)) ∧
      ∀ a x, (a, x) ∉ aux → f a x = x := by
    refine ⟨fun a x => if h : (a, x) ∈ aux then (hA a x h).choose else x, fun a x h => ?_, fun a x h => ?_⟩
    · simp only [dif_pos h]; exact (hA a x h).choose_spec
    · simp only [dif_neg h]
  obtain ⟨f, f1, f2⟩ := hf
  have hN : ∀ u ∈ nls, Spec.applyTo f u ∈ nls' ∧ φ (id u) = id' (Spec.applyTo f u) := by
    intro u hu
    have hcl := hφ.color _ (keyN u hu)
    rw [C.colN u hu] at hcl
    rcases (C'.node _).1 (hφ.bij.mapsTo (keyN u hu)) with ⟨w, hw, e⟩ | ⟨⟨b, y⟩, hq, e⟩
    · rw [e, C'.colN w hw] at hcl
      simp only [Option.some.injEq] at hcl
      have hpick := hcol u hu w hw hcl.symm
      have hw' : w = Spec.applyTo f u := by
        apply List.ext_getElem?
        intro a
        rw [getElem?_applyTo]
        rcases Nat.lt_or_ge a (d + 1) with hlt | hge
        · have e1 : u[a]? = some (u[a]'(by rw [N.len u hu]; exact hlt)) := List.getElem?_eq_getElem _
          have hx := N.nm u hu a _ e1
          by_cases ha : a ∈ asp
          · have hp : (a, u[a]'(by rw [N.len u hu]; exact hlt)) ∈ aux := (N.aux_iff a _).2 ⟨ha, hx⟩
            obtain ⟨g1, g2⟩ := f1 _ _ hp
            have hadj := (C.adjNA u hu _ hp).2 e1
            rw [hφ.adj _ (keyN u hu) _ (keyA _ hp), e, g2, C'.adjNA w hw _ g1] at hadj
            rw [e1]; exact hadj
          · have hn : (a, u[a]'(by rw [N.len u hu]; exact hlt)) ∉ aux := fun h => ha ((N.aux_iff a _).1 h).1
            have hin : a ∈ (List.range (d + 1)).filter fun a => a ∉ asp := by
              simp only [List.mem_filter, List.mem_range, decide_eq_true_eq]; exact ⟨hlt, ha⟩
            have := filterMap_inj (u := u) (w := w) (l := (List.range (d + 1)).filter fun a => a ∉ asp)
              (fun b hb => by
                simp only [List.mem_filter, List.mem_range] at hb
                rw [N.len u hu]; exact hb.1)
              (fun b hb => by
                simp only [List.mem_filter, List.mem_range] at hb
                rw [N'.len w hw]; exact hb.1) hpick a hin
            rw [← this, e1, Option.map_some, f2 a _ hn]
        · rw [List.getElem?_eq_none (by rw [N'.len w hw]; omega), List.getElem?_eq_none (by rw [N.len u hu]; omega)]; rfl
      rw [← hw']; exact ⟨hw, e⟩
    · rw [e, C'.colA _ hq] at hcl
      simp only [Option.some.injEq] at hcl
      have hb := ((N'.aux_iff b y).1 hq).1
      have := hK u hu
      have := haK b hb
      have := hac b hb
      omega
  refine ⟨f, ⟨?_, ?_, ?_, ?_⟩, fun p hp => f1 p.1 p.2 hp, f2⟩
  · intro a _ ha x
    exact f2 a x fun h => ha ((N.aux_iff a x).1 h).1
  · intro a _ ha
    refine ⟨?_, ?_, ?_⟩
    · intro x hx
      exact ((N'.aux_iff a _).1 (f1 a x ((N.aux_iff a x).2 ⟨ha, hx⟩)).1).2
    · intro x hx y hy hxy
      have hp := (N.aux_iff a x).2 ⟨ha, hx⟩
      have hq := (N.aux_iff a y).2 ⟨ha, hy⟩
      have : φ (aid (a, x)) = φ (aid (a, y)) := by rw [(f1 a x hp).2, (f1 a y hq).2, hxy]
      have := C.aidInj _ hp _ hq (hφ.bij.injOn (keyA _ hp) (keyA _ hq) this)
      exact congrArg Prod.snd this
    · intro y hy
      have hq := (N'.aux_iff a y).2 ⟨ha, hy⟩
      obtain ⟨i, hi, e⟩ := hφ.bij.surjOn (show aid' (a, y) ∈ {i | i ∈ Dict.keys g'.nodes} from
        (C'.node _).2 (Or.inr ⟨_, hq, rfl⟩))
      rcases (C.node i).1 hi with ⟨u, hu, rfl⟩ | ⟨⟨b, x⟩, hp, rfl⟩
      · rw [(hN u hu).2] at e
        exact absurd e (C'.disj _ (hN u hu).1 _ hq)
      · rw [(f1 b x hp).2] at e
        have := C'.aidInj _ (f1 b x hp).1 _ hq e
        simp only [Prod.mk.injEq] at this
        obtain ⟨rfl, rfl⟩ := this
        exact ⟨x, ((N.aux_iff b x).1 hp).2, rfl⟩
  · intro w
    constructor
    · intro hw
      obtain ⟨i, hi, e⟩ := hφ.bij.surjOn (show id' w ∈ {i | i ∈ Dict.keys g'.nodes} from
        (C'.node _).2 (Or.inl ⟨_, hw, rfl⟩))
      rcases (C.node i).1 hi with ⟨u, hu, rfl⟩ | ⟨⟨b, x⟩, hp, rfl⟩
      · rw [(hN u hu).2] at e
        exact ⟨u, hu, (C'.idInj _ (hN u hu).1 _ hw e).symm⟩
      · rw [(f1 b x hp).2] at e
        exact absurd e.symm (C'.disj _ hw _ (f1 b x hp).1)
    · rintro ⟨u, hu, rfl⟩; exact (hN u hu).1
  · intro u w hu hw
    rw [← C.adjNN u hu w hw, hφ.adj _ (keyN u hu) _ (keyN w hw), (hN u hu).2, (hN w hw).2,
      C'.adjNN _ (hN u hu).1 _ (hN w hw).1]

end iso

/-! ### colours -/

theorem dictEq_zipIdx {κ : Type} [DecidableEq κ] {L L' : List κ} (hL : L.Nodup) (hL' : L'.Nodup) :
    dictEq (L.zipIdx : Dict κ Nat) L'.zipIdx = true ↔ L = L' := by
  unfold dictEq
  simp only [Bool.and_eq_true, decide_eq_true_eq, List.all_eq_true, List.length_zipIdx]
  constructor
  · rintro ⟨h1, h2⟩
    apply List.ext_getElem?
    intro i
    rcases Nat.lt_or_ge i L.length with hlt | hge
    · have hm : (L[i], i) ∈ L.zipIdx := by
        rw [List.mem_zipIdx_iff_getElem?]; simp
      have := h2 _ hm
      simp only [get_zipIdx] at this
      split at this
      · rename_i hk
        simp only [Nat.zero_add, Option.some.injEq] at this
        rw [List.getElem?_eq_getElem hlt]
        exact ((getElem?_iff_idxOf hL' i _).2 ⟨hk, this.symm⟩).symm
      · cases this
    · rw [List.getElem?_eq_none hge, List.getElem?_eq_none (by omega)]
  · rintro rfl
    refine ⟨rfl, ?_⟩
    rintro ⟨k, i⟩ hk
    rw [List.mem_zipIdx_iff_getElem?] at hk
    simp only at hk
    obtain ⟨h1, h2⟩ := (getElem?_iff_idxOf hL i k).1 hk
    simp only [get_zipIdx, if_pos h1, Nat.zero_add, h2]

/-- the list of colours -/
def colorList [LinearOrder α] (nasp : List Nat) (nls : List (List α)) : List (List α) :=
  pySorted (nls.map (pick nasp)).dedup

theorem colorList_nodup [LinearOrder α] (nasp : List Nat) (nls : List (List α)) : (colorList nasp nls).Nodup :=
  (pySorted_perm _).nodup_iff.2 (List.nodup_dedup _)

theorem colorMap_eq [LinearOrder α] (nasp : List Nat) (nls : List (List α)) :
    colorMap nasp nls = (colorList nasp nls).zipIdx := enumDict_nodup (colorList_nodup nasp nls) 0

theorem mem_colorList [LinearOrder α] (nasp : List Nat) (nls : List (List α)) (c : List α) :
    c ∈ colorList nasp nls ↔ ∃ u ∈ nls, c = pick nasp u := by
  unfold colorList
  rw [(pySorted_perm _).mem_iff, List.mem_dedup, List.mem_map]
  exact exists_congr fun u => and_congr_right fun _ => eq_comm

theorem colorList_ext [LinearOrder α] (nasp : List Nat) (nls nls' : List (List α)) :
    colorList nasp nls = colorList nasp nls' ↔ ∀ c, (∃ u ∈ nls, c = pick nasp u) ↔ ∃ u ∈ nls', c = pick nasp u := by
  constructor
  · intro h c; rw [← mem_colorList, ← mem_colorList, h]
  · intro h
    have hp : (colorList nasp nls).Perm (colorList nasp nls') :=
      (List.perm_ext_iff_of_nodup (colorList_nodup _ _) (colorList_nodup _ _)).2 fun c => by
        rw [mem_colorList, mem_colorList, h]
    exact hp.eq_of_pairwise (le := (· ≤ ·)) (fun a b _ _ h1 h2 => le_antisymm h1 h2) (pySorted_sorted _) (pySorted_sorted _)

theorem enumDict_shift {κ : Type} [DecidableEq κ] (l : List κ) (off : Nat) (k : κ) :
    Dict.get (enumDict l off) k = (Dict.get (enumDict l 0) k).map (off + ·) := by
  unfold enumDict
  induction l using List.reverseRecOn with
  | nil => rfl
  | append_singleton l a ih =>
    simp only [List.zipIdx_append, List.foldl_append, List.zipIdx_singleton, List.foldl_cons, List.foldl_nil]
    rw [Dict.get_set, Dict.get_set, ih]
    split
    · simp
    · rfl

theorem keys_enumDict_nodup {κ : Type} [DecidableEq κ] (l : List κ) (off : Nat) :
    ((enumDict l off).map Prod.fst).Nodup ∧ ∀ k, k ∈ (enumDict l off).map Prod.fst ↔ k ∈ l := by
  unfold enumDict
  induction l using List.reverseRecOn with
  | nil => simp
  | append_singleton l a ih =>
    simp only [List.zipIdx_append, List.foldl_append, List.zipIdx_singleton, List.foldl_cons, List.foldl_nil]
    set D := (l.zipIdx off).foldl (fun d p => Dict.set d p.1 p.2) [] with hD
    have hk := Dict.keys_set D a (off + l.length)
    change (Dict.keys _).Nodup ∧ ∀ k, k ∈ Dict.keys _ ↔ _
    change (Dict.keys D).Nodup ∧ (∀ k, k ∈ Dict.keys D ↔ _) at ih
    rw [hk]
    split
    · rename_i h
      refine ⟨ih.1, fun k => ?_⟩
      rw [ih.2, List.mem_append, List.mem_singleton]
      constructor
      · exact Or.inl
      · rintro (h' | rfl)
        · exact h'
        · exact (ih.2 _).1 h
    · rename_i h
      refine ⟨?_, fun k => ?_⟩
      · rw [List.nodup_append]
        exact ⟨ih.1, by simp, by rintro p hp q hq rfl; simp at hq; subst hq; exact h hp⟩
      · rw [List.mem_append, List.mem_append, ih.2]

theorem get_of_mem {κ ν : Type} [DecidableEq κ] {D : Dict κ ν} (h : (D.map Prod.fst).Nodup) {p : κ × ν} (hp : p ∈ D) :
    Dict.get D p.1 = some p.2 := by
  induction D with
  | nil => cases hp
  | cons q t ih =>
    simp only [List.map_cons, List.nodup_cons] at h
    obtain ⟨k, v⟩ := q
    rw [Dict.get_cons]
    rcases List.mem_cons.1 hp with rfl | hp'
    · simp
    · rw [if_neg]
      · exact ih h.2 hp'
      · intro e
        have : p.1 ∈ t.map Prod.fst := List.mem_map_of_mem hp'
        exact h.1 (e ▸ this)

theorem dictEq_enum {κ : Type} [DecidableEq κ] (l : List κ) (K K' : Nat) :
    dictEq (enumDict l K) (enumDict l K') = true ↔ K = K' ∨ l = [] := by
  constructor
  · intro h
    by_contra hc
    rw [not_or] at hc
    obtain ⟨a, ha⟩ := List.exists_mem_of_ne_nil l hc.2
    have hm := ((keys_enumDict_nodup l K).2 a).2 ha
    obtain ⟨p, hp, rfl⟩ := List.mem_map.1 hm
    unfold dictEq at h
    simp only [Bool.and_eq_true, decide_eq_true_eq, List.all_eq_true] at h
    have h1 := h.2 p hp
    have h2 := get_of_mem (keys_enumDict_nodup l K).1 hp
    rw [enumDict_shift] at h1 h2
    cases hg : Dict.get (enumDict l 0) p.1 with
    | none => rw [hg] at h1; cases h1
    | some i =>
      rw [hg] at h1 h2
      simp only [Option.map_some, Option.some.injEq] at h1 h2
      omega
  · have hrefl : ∀ K, dictEq (enumDict l K) (enumDict l K) = true := by
      intro K
      unfold dictEq
      simp only [Bool.and_eq_true, decide_eq_true_eq, List.all_eq_true, true_and]
      exact fun p hp => get_of_mem (keys_enumDict_nodup l K).1 hp
    rintro (rfl | rfl)
    · exact hrefl K
    · rfl

end Pymnet
