import Verif.Proofs.Cycles
import Verif.Proofs.Build

/-! `cc_cycle_vector_bf`: the cycles with a step to any node, and the whole vector. -/

set_option linter.unusedSectionVars false
set_option linter.unusedSimpArgs false

namespace Pymnet

open Py MPlex Spec

variable {α W : Type} [DecidableEq α] [DecidableEq W] [Zero W] [IntNames α] {p : MPlex α W} {N B : Finset α}
  {M : α → Finset α} {A : α → α → α → W}

/-- a dictionary of sets -/
def SetDict (D : Dict α (List α)) (K : α → Prop) (R : α → α → Prop) : Prop :=
  (Dict.keys D).Nodup ∧ (∀ k ∈ Dict.keys D, K k) ∧ (∀ k v, Dict.get D k = some v → v.Nodup) ∧
    ∀ k x, x ∈ (Dict.get D k).getD [] ↔ R k x

theorem SetDict.add {D : Dict α (List α)} {K : α → Prop} {R : α → α → Prop} (h : SetDict D K R) {k i : α} (hk : K k) :
    SetDict (Dict.set D k (sadd ((Dict.get D k).getD []) i)) K (fun k' x => R k' x ∨ (k' = k ∧ x = i)) := by
  obtain ⟨h1, h2, h3, h4⟩ := h
  refine ⟨Dict.nodup_keys_set h1 _ _, ?_, ?_, ?_⟩
  · intro k' hk'
    rw [Dict.keys_set] at hk'
    split at hk'
    · exact h2 k' hk'
    · rw [List.mem_append, List.mem_singleton] at hk'
      rcases hk' with hk' | rfl
      · exact h2 k' hk'
      · exact hk
  · intro k' v hv
    rw [Dict.get_set] at hv
    split at hv
    · cases hv
      refine nodup_sadd ?_ i
      cases hg : Dict.get D k with
      | none => simp
      | some v => exact h3 k v hg
    · exact h3 k' v hv
  · intro k' x
    rw [Dict.get_set]
    by_cases hkk : k = k'
    · subst hkk
      rw [if_pos rfl, Option.getD_some, mem_sadd, h4]
      simp
    · rw [if_neg hkk, h4]
      constructor
      · exact Or.inl
      · rintro (h | ⟨rfl, -⟩)
        · exact h
        · exact absurd rfl hkk

theorem SetDict.adds {D : Dict α (List α)} {K : α → Prop} {R : α → α → Prop} (h : SetDict D K R) (ls : List α) (i : α)
    (hk : ∀ k ∈ ls, K k) :
    SetDict (ls.foldl (fun D l => Dict.set D l (sadd ((Dict.get D l).getD []) i)) D) K
      (fun k' x => R k' x ∨ (k' ∈ ls ∧ x = i)) := by
  induction ls generalizing D R with
  | nil => simpa using h
  | cons k t ih =>
    have := ih (h.add (k := k) (i := i) (hk k (by simp))) fun x hx => hk x (by simp [hx])
    refine ⟨this.1, this.2.1, this.2.2.1, fun k' x => (this.2.2.2 k' x).trans ?_⟩
    simp only [List.mem_cons]
    tauto

/-- a sum over the values of a dictionary of sets -/
theorem SetDict.sum {D : Dict α (List α)} {R : α → α → Prop} (h : SetDict D (fun k => k ∈ B) R) (f : Nat → Int) (f0 : f 0 = 0)
    [∀ k, DecidablePred (R k)] (hR : ∀ k x, R k x → x ∈ N) :
    (D.map fun x => f x.2.length).sum = ∑ k ∈ B, f (N.filter (R k)).card := by
  obtain ⟨h1, h2, h3, h4⟩ := h
  have hlen : ∀ k, ((Dict.get D k).getD []).length = (N.filter (R k)).card := by
    intro k
    have hn : ((Dict.get D k).getD []).Nodup := by
      cases hg : Dict.get D k with
      | none => simp
      | some v => exact h3 k v hg
    rw [← List.toFinset_card_of_nodup hn]
    congr 1
    ext x
    rw [List.mem_toFinset, h4, Finset.mem_filter]
    exact ⟨fun hx => ⟨hR k x hx, hx⟩, fun hx => hx.2⟩
  have e : (D.map fun x => f x.2.length) = (Dict.keys D).map fun k => f ((Dict.get D k).getD []).length := by
    unfold Dict.keys
    rw [List.map_map]
    refine List.map_congr_left fun x hx => ?_
    have : Dict.get D x.1 = some x.2 := by
      clear hlen h2 h3 h4
      induction D with
      | nil => simp at hx
      | cons y t ih =>
        obtain ⟨k, v⟩ := y
        simp only [Dict.keys, List.map_cons, List.nodup_cons] at h1
        rcases List.mem_cons.1 hx with rfl | hx
        · simp [Dict.get]
        · have hne : k ≠ x.1 := fun he => h1.1 (List.mem_map.2 ⟨x, hx, he.symm⟩)
          rw [Dict.get_cons, if_neg hne]
          exact ih h1.2 hx
    simp [Function.comp, this]
  rw [e, ← List.sum_toFinset _ h1]
  simp only [hlen]
  refine Finset.sum_subset (fun k hk => h2 k (List.mem_toFinset.1 hk)) fun k _ hk => ?_
  rw [List.mem_toFinset, ← Dict.get_eq_none] at hk
  rw [← hlen, hk]
  exact f0

theorem card_pairs (X : Finset α) : (X.card : Int) * ((X.card : Int) - 1) = ∑ i ∈ X, ∑ y ∈ X, if i ≠ y then 1 else 0 := by
  have : ∀ i ∈ X, (∑ y ∈ X, if i ≠ y then (1 : Int) else 0) = (X.card : Int) - 1 := by
    intro i hi
    rw [← Finset.sum_filter, Finset.sum_const, show X.filter (fun y => i ≠ y) = X.erase i by
      ext y; simp [eq_comm, and_comm], Finset.card_erase_of_mem hi]
    have := Finset.card_pos.2 ⟨i, hi⟩
    simp
    omega
  rw [Finset.sum_congr rfl this, Finset.sum_const]
  simp

namespace CycL

theorem walks_acfac (h : CycL p N B M A) {l : α} (hl : l ∈ B) (n : α) :
    walks (nodeLayers N B M) [stepA (LinkOf A), stepC, stepF, stepA (LinkOf A), stepC] (n, l) (n, l) =
      ∑ i ∈ N, ∑ l2 ∈ B, ∑ y ∈ N, if A n i l ≠ 0 ∧ l2 ≠ l ∧ i ∈ M l2 ∧ i ≠ y ∧ A n y l2 ≠ 0 then 1 else 0 := by
  rw [walks_A h.on _ _ _ hl]
  simp only [walks_C h.sub, ite_sum]
  refine Finset.sum_congr rfl fun i _ => Finset.sum_congr rfl fun l2 hl2 => ?_
  rw [walks_F _ _ _ hl2]
  simp only [ite_sum, walks_AC h.on h.sub _ _ hl2, ite_ite]
  refine Finset.sum_congr rfl fun y _ => ite_test ?_ _ _
  rw [LinkOf, LinkOf, h.base.sym y n]
  constructor
  · rintro ⟨a, ⟨b, c⟩, ⟨-, d⟩, e, -⟩; exact ⟨a, b, c, d, e⟩
  · rintro ⟨a, b, c, d, e⟩; exact ⟨a, ⟨b, c⟩, ⟨h.on n y l2 hl2 e, d⟩, e, b⟩

theorem acfac (h : CycL p N B M A) {l : α} (hl : l ∈ B) {c : MNet α W} (hc : p.layerNet l = .ok c) (n : α) :
    p.bfAcfac c n l = .ok (walks (nodeLayers N B M) [stepA (LinkOf A), stepC, stepF, stepA (LinkOf A), stepC]
      (n, l) (n, l)) := by
  unfold bfAcfac
  rw [h.loopA hl hc n (g := fun i => ∑ l2 ∈ B, if l2 ≠ l ∧ i ∈ M l2 then
    (∑ y ∈ N, if A n y l2 ≠ 0 ∧ i ≠ y then 1 else 0) else 0), zero_add, h.walks_acfac hl]
  · congr 1
    refine Finset.sum_congr rfl fun i _ => ?_
    simp only [ite_sum, ite_ite]
    refine Finset.sum_congr rfl fun l2 _ => Finset.sum_congr rfl fun y _ => ite_test ?_ _ _
    tauto
  · intro i hi s
    have hnl : n ∈ M l := h.on' hl hi
    rw [h.loopC hl (h.on _ _ l hl hi) (g := fun l2 => ∑ y ∈ N, if A n y l2 ≠ 0 ∧ i ≠ y then 1 else 0)]
    intro l2 hl2 hne _ s
    obtain ⟨ns, m1, m2, m3, m4⟩ := h.inner l2 hl2 n
    have m3' : ∀ x, x ∈ ns ↔ x ∈ N ∧ A n x l2 ≠ 0 := fun x => by
      rw [m3]; exact ⟨fun hx => ⟨h.onN hl2 hx, hx⟩, fun hx => hx.2⟩
    obtain ⟨x, hx, hx'⟩ := h.numC l hl l2 hl2 (Ne.symm hne) n
    rw [hx, ok_bind, ← count_others m2 m3' i, h.num4 l2 hl2 n i]
    by_cases hn : n ∈ M l2
    · rw [if_pos (by rw [h.base.ne]; exact hx'.2 ⟨hnl, hn⟩), ok_bind, m4, ok_bind, pure_eq_ok]
      by_cases hin : A n i l2 ≠ 0
      · rw [if_pos hin, if_pos ((m3 i).2 hin)]
      · rw [if_neg hin, if_neg fun h' => hin ((m3 i).1 h')]
    · have : ns = [] := h.nbs_nil hl2 hn m3'
      rw [if_neg (by rw [h.base.ne]; exact fun h' => hn (hx'.1 h').2), this]
      simp [pure_eq_ok]

theorem walks_acfca (h : CycL p N B M A) {l : α} (hl : l ∈ B) (n : α) :
    walks (nodeLayers N B M) [stepA (LinkOf A), stepC, stepF, stepC, stepA (LinkOf A)] (n, l) (n, l) =
      ∑ l2 ∈ B, ∑ i ∈ N, ∑ y ∈ N, if A n i l ≠ 0 ∧ A n y l ≠ 0 ∧ l2 ≠ l ∧ i ∈ M l2 ∧ y ∈ M l2 ∧ i ≠ y then 1 else 0 := by
  rw [walks_A h.on _ _ _ hl]
  simp only [walks_C h.sub, ite_sum]
  rw [Finset.sum_comm]
  refine Finset.sum_congr rfl fun l2 hl2 => Finset.sum_congr rfl fun i _ => ?_
  rw [walks_F _ _ _ hl2]
  simp only [ite_sum, walks_CA h.sub _ _ hl, ite_ite]
  refine Finset.sum_congr rfl fun y _ => ite_test ?_ _ _
  rw [LinkOf, LinkOf, h.base.sym y n]
  constructor
  · rintro ⟨a, ⟨b, c⟩, ⟨d, e⟩, -, -, f⟩; exact ⟨a, f, b, c, d, e⟩
  · rintro ⟨a, f, b, c, d, e⟩; exact ⟨a, ⟨b, c⟩, ⟨d, e⟩, b.symm, h.on n y l hl f, f⟩

theorem acfca (h : CycL p N B M A) {l : α} (hl : l ∈ B) {c : MNet α W} (hc : p.layerNet l = .ok c) (n : α) :
    p.bfAcfca c n l = .ok (walks (nodeLayers N B M) [stepA (LinkOf A), stepC, stepF, stepC, stepA (LinkOf A)]
      (n, l) (n, l)) := by
  obtain ⟨ns, n1, n2, n3, n4, n5⟩ := h.nbs hl hc n
  have hD : ∃ D, p.layerToNode c n l = .ok D ∧
      SetDict D (fun k => k ∈ B) fun k x => x ∈ ns ∧ k ∈ B ∧ k ≠ l ∧ x ∈ M k := by
    unfold layerToNode
    rw [n1, ok_bind]
    refine forE_ok (P := fun pre D => SetDict D (fun k => k ∈ B) fun k x => x ∈ pre ∧ k ∈ B ∧ k ≠ l ∧ x ∈ M k) ns
      ⟨by simp [Dict.keys], by simp [Dict.keys], by simp, by simp⟩ ?_
    intro pre i post D hpre hP
    have hi : i ∈ ns := by rw [hpre]; simp
    obtain ⟨ls, l1, l2, -, l3⟩ := h.coup l hl i
    obtain ⟨l3, -⟩ := l3 (h.on _ _ l hl ((n4 i).1 hi).2)
    rw [l1, ok_bind]
    refine ⟨_, rfl, ?_⟩
    have := hP.adds ls i fun k hk => ((l3 k).1 hk).1
    refine ⟨this.1, this.2.1, this.2.2.1, fun k x => (this.2.2.2 k x).trans ?_⟩
    dsimp only
    rw [List.mem_append, List.mem_singleton, l3]
    constructor
    · rintro (⟨a, b⟩ | ⟨b, rfl⟩)
      · exact ⟨Or.inl a, b⟩
      · exact ⟨Or.inr rfl, b⟩
    · rintro ⟨a | rfl, b⟩
      · exact Or.inl ⟨a, b⟩
      · exact Or.inr ⟨b, rfl⟩
  obtain ⟨D, hD1, hD2⟩ := hD
  unfold bfAcfca
  rw [hD1, ok_bind, pure_eq_ok, hD2.sum (N := N) (fun k => (k : Int) * ((k : Int) - 1)) (by simp)
    (fun k x hx => ((n4 x).1 hx.1).1), h.walks_acfca hl]
  congr 1
  refine Finset.sum_congr rfl fun l2 hl2 => ?_
  rw [card_pairs, Finset.sum_filter]
  refine Finset.sum_congr rfl fun i hi => ?_
  rw [Finset.sum_filter, ite_sum]
  refine Finset.sum_congr rfl fun y hy => ?_
  simp only [ite_ite, n4]
  refine ite_test ?_ _ _
  tauto

theorem walks_acfcac (h : CycL p N B M A) {l : α} (hl : l ∈ B) (n : α) :
    walks (nodeLayers N B M) [stepA (LinkOf A), stepC, stepF, stepC, stepA (LinkOf A), stepC] (n, l) (n, l) =
      ∑ i ∈ N, ∑ l3 ∈ B, ∑ y ∈ N, ∑ l2 ∈ B, if A n i l ≠ 0 ∧ l3 ≠ l ∧ A n y l3 ≠ 0 ∧ i ≠ y ∧ l2 ≠ l ∧ l2 ≠ l3 ∧
        i ∈ M l2 ∧ y ∈ M l2 then 1 else 0 := by
  rw [walks_A h.on _ _ _ hl]
  refine Finset.sum_congr rfl fun i _ => ?_
  have e : walks (nodeLayers N B M) [stepC, stepF, stepC, stepA (LinkOf A), stepC] (i, l) (n, l) =
      ∑ l2 ∈ B, ∑ y ∈ N, ∑ l3 ∈ B, if l3 ≠ l ∧ A n y l3 ≠ 0 ∧ i ≠ y ∧ l2 ≠ l ∧ l2 ≠ l3 ∧
        i ∈ M l2 ∧ y ∈ M l2 then (1 : Int) else 0 := by
    rw [walks_C h.sub]
    refine Finset.sum_congr rfl fun l2 hl2 => ?_
    rw [walks_F _ _ _ hl2, ite_sum]
    refine Finset.sum_congr rfl fun y _ => ?_
    rw [walks_C h.sub, ite_sum, ite_sum]
    refine Finset.sum_congr rfl fun l3 hl3 => ?_
    rw [walks_AC h.on h.sub _ _ hl3]
    simp only [ite_ite]
    refine ite_test ?_ _ _
    rw [LinkOf, h.base.sym y n]
    constructor
    · rintro ⟨⟨a, b⟩, ⟨c, d⟩, ⟨e, -⟩, f, g⟩; exact ⟨g, f, d, a, e.symm, b, c⟩
    · rintro ⟨g, f, d, a, e, b, c⟩; exact ⟨⟨a, b⟩, ⟨c, d⟩, ⟨e.symm, h.on n y l3 hl3 f⟩, f, g⟩
  rw [e]
  rw [show (∑ l2 ∈ B, ∑ y ∈ N, ∑ l3 ∈ B, if l3 ≠ l ∧ A n y l3 ≠ 0 ∧ i ≠ y ∧ l2 ≠ l ∧ l2 ≠ l3 ∧
        i ∈ M l2 ∧ y ∈ M l2 then (1 : Int) else 0) = ∑ l3 ∈ B, ∑ y ∈ N, ∑ l2 ∈ B, if l3 ≠ l ∧ A n y l3 ≠ 0 ∧ i ≠ y ∧
        l2 ≠ l ∧ l2 ≠ l3 ∧ i ∈ M l2 ∧ y ∈ M l2 then (1 : Int) else 0 from ?_]
  · simp only [ite_sum, ite_ite]
  · rw [Finset.sum_comm]
    rw [Finset.sum_congr rfl fun y _ => Finset.sum_comm]
    rw [Finset.sum_comm]

theorem acfcac (h : CycL p N B M A) {l : α} (hl : l ∈ B) {c : MNet α W} (hc : p.layerNet l = .ok c) (n : α) :
    p.bfAcfcac c n l = .ok (walks (nodeLayers N B M)
      [stepA (LinkOf A), stepC, stepF, stepC, stepA (LinkOf A), stepC] (n, l) (n, l)) := by
  unfold bfAcfcac
  rw [h.loopA hl hc n (g := fun i => ∑ l3 ∈ B, if l3 ≠ l ∧ n ∈ M l3 then ∑ j ∈ N, if A n j l3 ≠ 0 then
    (if i ≠ j then ∑ l2 ∈ B, if l2 ≠ l ∧ l2 ≠ l3 ∧ i ∈ M l2 ∧ j ∈ M l2 then 1 else 0 else 0) else 0 else 0), zero_add,
    h.walks_acfcac hl]
  · congr 1
    refine Finset.sum_congr rfl fun i _ => ?_
    simp only [ite_sum, ite_ite]
    refine Finset.sum_congr rfl fun l3 hl3 => Finset.sum_congr rfl fun y _ => Finset.sum_congr rfl fun l2 _ =>
      ite_test ?_ _ _
    constructor
    · rintro ⟨a, ⟨b, -⟩, d, e, f⟩; exact ⟨a, b, d, e, f⟩
    · rintro ⟨a, b, d, e, f⟩; exact ⟨a, ⟨b, h.on' hl3 d⟩, d, e, f⟩
  · intro i hi s
    have hnl : n ∈ M l := h.on' hl hi
    have hil : i ∈ M l := h.on _ _ l hl hi
    refine h.loopC hl hnl (fun l3 hl3 hne hn3 s => ?_) s
    refine h.loopA' hl3 n (fun j hj s => ?_) s
    have hj3 : j ∈ M l3 := h.on _ _ l3 hl3 hj
    by_cases hij : i ≠ j
    · rw [if_pos hij, if_pos hij]
      obtain ⟨l2s, i1, i2, -, i3⟩ := h.coup l hl i
      obtain ⟨i3, i4⟩ := i3 hil
      obtain ⟨l2s', j1, j2, -, j3⟩ := h.coup l3 hl3 j
      obtain ⟨j3, j4⟩ := j3 hj3
      rw [i4, ok_bind, j4, ok_bind]
      split
      · rw [h.loopC hl3 hj3 (g := fun l2 => if l2 ≠ l ∧ i ∈ M l2 then (1 : Int) else 0)]
        · congr 2
          refine Finset.sum_congr rfl fun l2 _ => ?_
          rw [ite_ite]
          refine ite_test ?_ _ _
          tauto
        · intro l2 hl2 _ _ s
          by_cases h2 : l2 ≠ l
          · rw [if_pos h2]
            obtain ⟨x, hx, hx'⟩ := h.numC l hl l2 hl2 h2.symm i
            rw [hx, ok_bind, pure_eq_ok, h.base.ne]
            by_cases him : i ∈ M l2
            · rw [if_pos (hx'.2 ⟨hil, him⟩), if_pos ⟨h2, him⟩]
            · rw [if_neg fun h' => him (hx'.1 h').2, if_neg fun h' => him h'.2, add_zero]
          · rw [if_neg h2, if_neg fun h' => h2 h'.1, add_zero]; rfl
      · rw [h.loopC hl hil (g := fun l2 => if l2 ≠ l3 ∧ j ∈ M l2 then (1 : Int) else 0)]
        · congr 2
          refine Finset.sum_congr rfl fun l2 _ => ?_
          rw [ite_ite]
          refine ite_test ?_ _ _
          tauto
        · intro l2 hl2 _ _ s
          by_cases h2 : l2 ≠ l3
          · rw [if_pos h2]
            obtain ⟨x, hx, hx'⟩ := h.numC l3 hl3 l2 hl2 h2.symm j
            rw [hx, ok_bind, pure_eq_ok, h.base.ne]
            by_cases him : j ∈ M l2
            · rw [if_pos (hx'.2 ⟨hj3, him⟩), if_pos ⟨h2, him⟩]
            · rw [if_neg fun h' => him (hx'.1 h').2, if_neg fun h' => him h'.2, add_zero]
          · rw [if_neg h2, if_neg fun h' => h2 h'.1, add_zero]; rfl
    · rw [if_neg hij, if_neg hij, add_zero]; rfl

/-! ### Node-aligned networks -/

theorem al_acfac (h : CycL p N B M A) (hf : p.fic = true) {l : α} (hl : l ∈ B) (n : α) :
    walks (nodeLayers N B M) [stepA (LinkOf A), stepC, stepF, stepA (LinkOf A), stepC] (n, l) (n, l) =
      walks (nodeLayers N B M) [stepA (LinkOf A), stepF, stepC, stepA (LinkOf A), stepC] (n, l) (n, l) := by
  rw [h.walks_acfac hl, h.walks_afcac hl, Finset.sum_comm]
  refine Finset.sum_congr rfl fun l2 hl2 => ?_
  rw [Finset.sum_comm]
  refine Finset.sum_congr rfl fun y hy => Finset.sum_congr rfl fun i hi => ite_test ?_ _ _
  rw [h.fic hf l hl, h.fic hf l2 hl2, ne_comm (a := i) (b := y)]
  tauto

theorem sum_other (hl : l ∈ B) (x : Int) : (∑ l2 ∈ B, if l2 ≠ l then x else 0) = x * ((B.card : Int) - 1) := by
  rw [← Finset.sum_filter, Finset.filter_ne', Finset.sum_const, Finset.card_erase_of_mem hl]
  have := Finset.card_pos.2 ⟨l, hl⟩
  rw [nsmul_eq_mul, Nat.cast_sub this]
  push_cast
  ring

theorem sum_other2 {l l' : α} (hl : l ∈ B) (hl' : l' ∈ B) (hne : l ≠ l') (x : Int) :
    (∑ l2 ∈ B, if l2 ≠ l ∧ l2 ≠ l' then x else 0) = x * ((B.card : Int) - 2) := by
  rw [← Finset.sum_filter, show B.filter (fun l2 => l2 ≠ l ∧ l2 ≠ l') = (B.erase l).erase l' by
    ext y; simp only [Finset.mem_filter, Finset.mem_erase]; tauto, Finset.sum_const,
    Finset.card_erase_of_mem (Finset.mem_erase.2 ⟨hne.symm, hl'⟩), Finset.card_erase_of_mem hl]
  have h2 := Finset.card_pos.2 ⟨l', Finset.mem_erase.2 ⟨hne.symm, hl'⟩⟩
  rw [Finset.card_erase_of_mem hl] at h2
  rw [nsmul_eq_mul, Nat.cast_sub (by omega), Nat.cast_sub (by omega)]
  push_cast
  ring

theorem walks_afa (h : CycL p N B M A) {l : α} (hl : l ∈ B) (n : α) :
    walks (nodeLayers N B M) [stepA (LinkOf A), stepF, stepA (LinkOf A)] (n, l) (n, l) =
      ∑ i ∈ N, ∑ y ∈ N, if A n i l ≠ 0 ∧ A n y l ≠ 0 ∧ i ≠ y then 1 else 0 := by
  rw [walks_A h.on _ _ _ hl]
  simp only [walks_F _ _ _ hl, ite_sum, walks_A1, ite_ite]
  refine Finset.sum_congr rfl fun i _ => Finset.sum_congr rfl fun y _ => ite_test ?_ _ _
  rw [LinkOf, LinkOf, h.base.sym y n]
  constructor
  · rintro ⟨a, ⟨-, b⟩, -, c⟩; exact ⟨a, c, b⟩
  · rintro ⟨a, c, b⟩; exact ⟨a, ⟨h.on n y l hl c, b⟩, trivial, c⟩

theorem al_acfca (h : CycL p N B M A) (hf : p.fic = true) {l : α} (hl : l ∈ B) (n : α) :
    walks (nodeLayers N B M) [stepA (LinkOf A), stepC, stepF, stepC, stepA (LinkOf A)] (n, l) (n, l) =
      walks (nodeLayers N B M) [stepA (LinkOf A), stepF, stepA (LinkOf A)] (n, l) (n, l) * ((B.card : Int) - 1) := by
  rw [h.walks_acfca hl, h.walks_afa hl, ← sum_other hl]
  refine Finset.sum_congr rfl fun l2 hl2 => ?_
  simp only [ite_sum, ite_ite]
  refine Finset.sum_congr rfl fun i hi => Finset.sum_congr rfl fun y hy => ite_test ?_ _ _
  rw [h.fic hf l2 hl2]
  tauto

theorem al_acfcac (h : CycL p N B M A) (hf : p.fic = true) {l : α} (hl : l ∈ B) (n : α) :
    walks (nodeLayers N B M) [stepA (LinkOf A), stepC, stepF, stepC, stepA (LinkOf A), stepC] (n, l) (n, l) =
      walks (nodeLayers N B M) [stepA (LinkOf A), stepF, stepC, stepA (LinkOf A), stepC] (n, l) (n, l) *
        ((B.card : Int) - 2) := by
  rw [h.walks_acfcac hl, ← h.al_acfac hf hl, h.walks_acfac hl]
  simp only [Finset.sum_mul]
  refine Finset.sum_congr rfl fun i hi => Finset.sum_congr rfl fun l3 hl3 => Finset.sum_congr rfl fun y hy => ?_
  by_cases hne : l3 ≠ l
  · rw [← sum_other2 hl hl3 hne.symm]
    refine Finset.sum_congr rfl fun l2 hl2 => ?_
    rw [ite_ite]
    refine ite_test ?_ _ _
    rw [h.fic hf l2 hl2, h.fic hf l3 hl3]
    tauto
  · rw [if_neg fun h' => hne h'.2.1, zero_mul]
    exact Finset.sum_eq_zero fun l2 _ => if_neg fun h' => hne h'.2.1

/-- the vector counts closed walks -/
theorem cyclesBf (h : CycL p N B M A) {l : α} (hl : l ∈ B) (n : α) :
    ∃ v, p.cyclesBf n l = .ok v ∧ v.toList = cycleCounts N B M (LinkOf A) (n, l) := by
  obtain ⟨c, hc, -⟩ := h.child l hl
  obtain ⟨ls, l1, l2, l3⟩ := h.base.lay.layers
  have hlen : ls.length = B.card := card_of_list l2 l3
  unfold MPlex.cyclesBf
  rw [if_pos h.base.asp, hc, ok_bind, h.aaa hl hc, ok_bind, h.aacac hl hc, ok_bind, h.acaac hl hc, ok_bind, h.acaca hl hc,
    ok_bind, h.acacac hl hc, ok_bind, h.afa hl hc, ok_bind, h.afcac hl hc, ok_bind]
  by_cases hf : p.fic = true
  · rw [if_pos hf, l1, ok_bind, hlen]
    refine ⟨_, rfl, ?_⟩
    simp only [Cycles.toList, cycleCounts, cycleWords, List.map_cons, List.map_nil, h.al_acfac hf hl, h.al_acfca hf hl,
      h.al_acfcac hf hl]
  · rw [if_neg hf, h.acfac hl hc, ok_bind, h.acfca hl hc, ok_bind, h.acfcac hl hc, ok_bind]
    exact ⟨_, rfl, rfl⟩

end CycL

end Pymnet
