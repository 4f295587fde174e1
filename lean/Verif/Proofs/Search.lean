import Verif.Proofs.Checks

/-! Exhaustive enumeration, and what the arguments of the two enumerations select. -/

set_option linter.unusedSectionVars false
set_option linter.unusedSimpArgs false

namespace Pymnet

open Py

variable {α W β : Type} [DecidableEq α] [DecidableEq W] [DecidableEq β]
variable {m : MNet α W} {z : W} {dir al : Bool} {S : Nat → α → Prop} {NL : List α → Prop} {R : List α → List α → W}

theorem dumbStep_spec {check : List α → List α → Except Err Bool} {G : List α → List α → Prop} [∀ N L, Decidable (G N L)]
    {N : List α} {ls : List (List α)} (h : ∀ L ∈ ls, check N L = .ok (decide (G N L))) (res : List (List α × List α)) :
    forE (dumbStep check N) ls res = .ok (res ++ (ls.filter fun L => decide (G N L)).map fun L => (N, L)) := by
  induction ls generalizing res with
  | nil => simp [forE]
  | cons L t ih =>
    simp only [forE, dumbStep, h L (by simp)]
    by_cases hG : G N L
    · simp only [hG, decide_true, if_true]
      rw [ih fun x hx => h x (by simp [hx])]
      simp [hG]
    · simp only [hG, decide_false, Bool.false_eq_true, if_false]
      rw [ih fun x hx => h x (by simp [hx])]
      simp [hG]

theorem dumbOuter_spec {check : List α → List α → Except Err Bool} {G : List α → List α → Prop} [∀ N L, Decidable (G N L)]
    {ns ls : List (List α)} (h : ∀ N ∈ ns, ∀ L ∈ ls, check N L = .ok (decide (G N L))) (res : List (List α × List α)) :
    forE (fun res nodes => forE (dumbStep check nodes) ls res) ns res =
      .ok (res ++ ns.flatMap fun N => (ls.filter fun L => decide (G N L)).map fun L => (N, L)) := by
  induction ns generalizing res with
  | nil => simp [forE]
  | cons N t ih =>
    simp only [forE, dumbStep_spec (h N (by simp))]
    rw [ih fun x hx => h x (by simp [hx])]
    simp

theorem combos_same {l : List α} (hl : l.Nodup) {n : Nat} {N : List α} :
    (∃ c ∈ combinations l n, c.Perm N) ↔ N.Nodup ∧ (∀ x ∈ N, x ∈ l) ∧ N.length = n := by
  constructor
  · rintro ⟨c, hc, hp⟩
    rw [mem_combinations] at hc
    exact ⟨hp.nodup_iff.1 (hl.sublist hc.1), fun x hx => hc.1.subset (hp.symm.subset hx), hp.length_eq ▸ hc.2⟩
  · rintro ⟨h1, h2, rfl⟩
    exact exists_combination h1 hl h2

theorem dumbLoop_spec (h : Spec.Looks m 1 z dir al S NL R) {s : Search α W} {n k : Nat} (hn : s.rn = n) (hk : s.rl = k)
    {G : List α → List α → Prop} (hG : ∀ N N' L L', N.Perm N' → L.Perm L' → G N L → G N' L')
    (hc : ∀ N L, N.Nodup → L.Nodup → N.length = n → L.length = k → ∃ b, s.check m N L = .ok b ∧ (b = true ↔ G N L)) :
    ∃ res, dumbLoop m s = .ok res ∧ Spec.ListsOnce (S 0) (S 1) n k G res := by
  classical
  obtain ⟨ln, e0, n0, m0⟩ := h.layers 0 (by omega)
  obtain ⟨ll, e1, n1, m1⟩ := h.layers 1 (by omega)
  have hs0 : m.slices.headD [] = ln := by
    unfold MNet.getLayers at e0
    cases hsl : m.slices with
    | nil => rw [hsl] at e0; simp at e0
    | cons a t => rw [hsl] at e0; simp at e0; simp [e0]
  have hs1 : m.slices.getD 1 [] = ll := by
    unfold MNet.getLayers at e1
    cases hsl : m.slices[1]? with
    | none => rw [hsl] at e1; simp at e1
    | some a => rw [hsl] at e1; simp at e1; simp [List.getD, hsl, e1]
  have hcheck : ∀ N ∈ combinations ln n, ∀ L ∈ combinations ll k, s.check m N L = .ok (decide (G N L)) := by
    intro N hN L hL
    rw [mem_combinations] at hN hL
    obtain ⟨b, e, hb⟩ := hc N L (n0.sublist hN.1) (n1.sublist hL.1) hN.2 hL.2
    rw [e]; congr 1
    rw [Bool.eq_iff_iff, hb, decide_eq_true_eq]
  refine ⟨(combinations ln n).flatMap fun N => ((combinations ll k).filter fun L => decide (G N L)).map fun L => (N, L), ?_, ?_⟩
  · unfold dumbLoop combinationsI
    rw [hs0, hs1, hn, hk, if_neg (by omega)]
    simp only [Int.toNat_natCast]
    rw [if_neg (by omega)]
    simp only
    rw [dumbOuter_spec hcheck]
    rfl
  · constructor
    · rw [List.pairwise_flatMap]
      constructor
      · intro N hN
        rw [List.pairwise_map]
        refine List.Pairwise.imp_of_mem ?_ ((nodup_combinations n1 k).filter _)
        intro a b ha hb hab hsame
        exact hab (combinations_unique n1 (List.mem_filter.1 ha).1 (List.mem_filter.1 hb).1 hsame.2)
      · refine List.Pairwise.imp_of_mem ?_ (nodup_combinations n0 n)
        intro a b ha hb hab x hx y hy hsame
        obtain ⟨_, _, rfl⟩ := List.mem_map.1 hx
        obtain ⟨_, _, rfl⟩ := List.mem_map.1 hy
        exact hab (combinations_unique n0 ha hb hsame.1)
    · intro N L
      constructor
      · rintro ⟨r, hr, hp1, hp2⟩
        simp only [List.mem_flatMap, List.mem_map, List.mem_filter, decide_eq_true_eq] at hr
        obtain ⟨N', hN', L', ⟨hL', hg⟩, rfl⟩ := hr
        have a := (combos_same n0).1 ⟨N', hN', hp1⟩
        have b := (combos_same n1).1 ⟨L', hL', hp2⟩
        exact ⟨⟨a.1, b.1, fun x hx => (m0 x).1 (a.2.1 x hx), fun x hx => (m1 x).1 (b.2.1 x hx)⟩, a.2.2, b.2.2, hG _ _ _ _ hp1 hp2 hg⟩
      · rintro ⟨⟨a1, b1, a2, b2⟩, a3, b3, hg⟩
        obtain ⟨N', hN', hp1⟩ := (combos_same n0).2 ⟨a1, fun x hx => (m0 x).2 (a2 x hx), a3⟩
        obtain ⟨L', hL', hp2⟩ := (combos_same n1).2 ⟨b1, fun x hx => (m1 x).2 (b2 x hx), b3⟩
        refine ⟨(N', L'), ?_, hp1, hp2⟩
        simp only [List.mem_flatMap, List.mem_map, List.mem_filter, decide_eq_true_eq]
        exact ⟨N', hN', L', ⟨hL', hG _ _ _ _ hp1.symm hp2.symm hg⟩, rfl⟩

/-! ### Properties of subgraphs -/

theorem inside_perm {N N' L L' : List α} (hN : N.Perm N') (hL : L.Perm L') (nl : List α) :
    Spec.Inside N L nl ↔ Spec.Inside N' L' nl := by
  unfold Spec.Inside
  simp only [hN.mem_iff, hL.mem_iff]

theorem proper_perm {E : List α → List α → Prop} {N N' L L' : List α} (hN : N.Perm N') (hL : L.Perm L')
    (h : Spec.Proper NL E N L) : Spec.Proper NL E N' L' := by
  unfold Spec.Proper at h ⊢
  simp only [hN.mem_iff, hL.mem_iff] at h
  refine ⟨?_, h.2⟩
  refine (connected_congr (fun x => ?_) (fun x y _ _ => Iff.rfl)).1 h.1
  rw [inside_perm hN hL]

theorem proper_local {E E' : List α → List α → Prop} {N L : List α}
    (hE : ∀ u v, NL u → NL v → Spec.Inside N L u → Spec.Inside N L v → (E u v ↔ E' u v)) :
    Spec.Proper NL E N L ↔ Spec.Proper NL E' N L := by
  unfold Spec.Proper
  refine and_congr_left fun _ => ?_
  exact connected_congr (fun x => Iff.rfl) fun x y hx hy => hE x y hx.1 hy.1 hx.2 hy.2

theorem fitsIn_perm {sizes : List Int} {isects : List (Option Int)} {it : IType} {N N' o : List α} (hN : N.Perm N') :
    Spec.FitsIn NL sizes isects it N o ↔ Spec.FitsIn NL sizes isects it N' o := by
  unfold Spec.FitsIn
  simp only [hN.mem_iff]

theorem fits_perm {sizes : List Int} {isects : List (Option Int)} {it : IType} {N N' L L' : List α} (hN : N.Perm N') (hL : L.Perm L')
    (h : Spec.Fits NL sizes isects it N L) : Spec.Fits NL sizes isects it N' L' := by
  obtain ⟨o, ho, hf⟩ := h
  exact ⟨o, ho.trans hL, (fitsIn_perm hN).1 hf⟩

/-- The last set of layers is the one of all layers. -/
theorem layerSets_last {n : Nat} (h : 2 ≤ n) : ∃ pre, Spec.layerSets n = pre ++ [List.range n] := by
  obtain ⟨k, rfl⟩ : ∃ k, n = k + 2 := ⟨n - 2, by omega⟩
  unfold Spec.layerSets
  have h1 : List.range' 2 (k + 2 - 1) = List.range' 2 k ++ [k + 2] := by
    have : k + 2 - 1 = k + 1 := by omega
    rw [this, List.range'_concat]
    congr 2; omega
  have h2 : combinations (List.range (k + 2)) (k + 2) = [List.range (k + 2)] := by
    have hl : (combinations (List.range (k + 2)) (k + 2)).length = 1 := by rw [length_combinations]; simp
    obtain ⟨c, hc⟩ := List.length_eq_one_iff.1 hl
    have hm := mem_combinations.1 (show c ∈ combinations (List.range (k + 2)) (k + 2) by rw [hc]; simp)
    rw [hc]
    congr 1
    exact hm.1.eq_of_length (by simp [hm.2])
  rw [h1, List.flatMap_append]
  exact ⟨_, by simp only [List.flatMap_cons, List.flatMap_nil, List.append_nil, h2]; rfl⟩

theorem commonList_spec {n : Nat} (hn : 2 ≤ n) (k : Int) :
    ∃ l, commonList n k = .ok l ∧ l.length = 2 ^ n - n - 1 ∧
      ∀ (i : Nat) r, l[i]? = some (some r) ↔ i = 2 ^ n - n - 2 ∧ r = k := by
  have hpos : 0 < 2 ^ n - n - 1 := by
    obtain ⟨j, rfl⟩ : ∃ j, n = j + 1 := ⟨n - 1, by omega⟩
    have h1 : j < 2 ^ j := Nat.lt_two_pow_self
    have h2 : 2 ^ (j + 1) = 2 ^ j + 2 ^ j := by rw [pow_succ]; omega
    have h3 : 2 ≤ 2 ^ j := by
      calc 2 = 2 ^ 1 := rfl
        _ ≤ 2 ^ j := Nat.pow_le_pow_right (by omega) (by omega)
    by_cases hj : j = 1
    · subst hj; decide
    · have h4 : j + 1 < 2 ^ j := by
        obtain ⟨i, rfl⟩ : ∃ i, j = i + 2 := ⟨j - 2, by omega⟩
        have h5 : i < 2 ^ i := Nat.lt_two_pow_self
        have h6 : 2 ^ (i + 2) = 4 * 2 ^ i := by rw [pow_add]; omega
        omega
      omega
  obtain ⟨t, ht⟩ : ∃ t, 2 ^ n - n - 1 = t + 1 := ⟨2 ^ n - n - 2, by omega⟩
  refine ⟨List.replicate t none ++ [some k], ?_, by simp [ht], ?_⟩
  · simp only [commonList, ht, List.replicate_succ]
  · intro i r
    have ht' : t = 2 ^ n - n - 2 := by omega
    rw [← ht']
    by_cases hi : i < t
    · rw [List.getElem?_append_left (by simpa using hi)]
      simp only [List.getElem?_replicate, hi, if_true, Option.some.injEq, reduceCtorEq, false_iff]
      omega
    · rw [List.getElem?_append_right (by simpa using hi)]
      simp only [List.length_replicate]
      by_cases he : i = t
      · subst he; simp [eq_comm]
      · obtain ⟨q, hq⟩ : ∃ q, i - t = q + 1 := ⟨i - t - 1, by omega⟩
        simp [hq, he]

theorem fits_common {n : Nat} {sizes : List Int} {k : Int} {it : IType} {l : List (Option Int)} {N L : List α} (hn : 2 ≤ n)
    (hL : L.length = n) (hl : l.length = 2 ^ n - n - 1) (hi : ∀ (i : Nat) r, l[i]? = some (some r) ↔ i = 2 ^ n - n - 2 ∧ r = k) :
    Spec.Fits NL sizes l it N L ↔ Spec.FitsCommon NL sizes k it N L := by
  obtain ⟨pre, hpre⟩ := layerSets_last hn
  have hlen := length_layerSets n
  rw [hpre, List.length_append, List.length_singleton] at hlen
  have hset : ∀ o : List α, o.Perm L → ∀ x, (∀ i ∈ List.range n, ∀ l, o[i]? = some l → NL [x, l]) ↔ ∀ l ∈ L, NL [x, l] := by
    intro o ho x
    constructor
    · intro h l hl
      obtain ⟨i, hi⟩ := List.mem_iff_getElem?.1 (ho.symm.subset hl)
      have := (List.getElem?_eq_some_iff.1 hi).1
      rw [ho.length_eq, hL] at this
      exact h i (by simpa using this) l hi
    · intro h i _ l hl
      exact h l (ho.subset (List.mem_of_getElem? hl))
  unfold Spec.Fits Spec.FitsCommon Spec.FitsIn
  constructor
  · rintro ⟨o, ho, h1, h2⟩
    refine ⟨⟨o, ho, h1⟩, ?_⟩
    have hol : o.length = n := ho.length_eq.trans hL
    have := h2 (2 ^ n - n - 2) (List.range n) k (by
        have e0 : 2 ^ n - n - 2 - pre.length = 0 := by omega
        rw [hol, hpre, List.getElem?_append_right (by omega), e0]; rfl)
      ((hi _ _).2 ⟨rfl, rfl⟩)
    simpa only [hset o ho] using this
  · rintro ⟨⟨o, ho, h1⟩, h2⟩
    refine ⟨o, ho, h1, ?_⟩
    have hol : o.length = n := ho.length_eq.trans hL
    intro j c r hj hr
    obtain ⟨rfl, rfl⟩ := (hi _ _).1 hr
    rw [hol, hpre, List.getElem?_append_right (by omega)] at hj
    have e0 : 2 ^ n - n - 2 - pre.length = 0 := by omega
    rw [e0] at hj
    simp only [List.getElem?_cons_zero, Option.some.injEq] at hj
    subst hj
    simpa only [hset o ho] using h2

/-! ### With all intersections given, the number of nodes is determined -/

theorem mem_common {γ : Type} [DecidableEq γ] {c : List (Finset γ)} (hc : c ≠ []) (x : γ) : x ∈ Spec.common c ↔ ∀ s ∈ c, x ∈ s := by
  induction c with
  | nil => exact absurd rfl hc
  | cons a t ih =>
    cases t with
    | nil => simp [Spec.common]
    | cons b t =>
      simp only [Spec.common, Finset.mem_inter, ih (by simp), List.forall_mem_cons]

theorem mem_union {γ : Type} [DecidableEq γ] {c : List (Finset γ)} (x : γ) : x ∈ Spec.union c ↔ ∃ s ∈ c, x ∈ s := by
  induction c with
  | nil => simp [Spec.union]
  | cons a t ih =>
    have : Spec.union (a :: t) = a ∪ Spec.union t := rfl
    rw [this, Finset.mem_union, ih]
    simp

theorem intersectionSizes_eq {γ : Type} [DecidableEq γ] (X : List (Finset γ)) :
    Spec.intersectionSizes X = (Spec.layerSets X.length).map fun c => ((Spec.common (c.map fun i => X.getD i ∅)).card : Int) := by
  have hX : X = (List.range X.length).map fun i => X.getD i ∅ := by
    apply List.ext_getElem
    · simp
    · intro i h1 h2; simp [List.getD, List.getElem?_eq_getElem h1]
  unfold Spec.intersectionSizes Spec.layerSets
  rw [List.map_flatMap]
  congr 1
  funext k
  conv_lhs => rw [hX]
  rw [combinations_map, List.map_map]
  rfl

theorem requiredLengths_pre {sizes isects : List Int} {r : Int × Int} (h : requiredLengths sizes isects = .ok r) :
    sizes ≠ [] ∧ isects.length = 2 ^ sizes.length - sizes.length - 1 ∧ (∀ i ∈ sizes, i ≥ 1) ∧ r.2 = sizes.length := by
  unfold requiredLengths at h
  split at h
  · cases h
  · rename_i h1
    split at h
    · cases h
    · rename_i h2
      split at h
      · cases h
      · rename_i h3
        rw [not_not] at h2 h3
        refine ⟨h1, h2, h3.1, ?_⟩
        split at h
        · rename_i h4
          cases h
          rw [h4, List.length_nil] at h2
          rcases sizes with _ | ⟨a, _ | ⟨b, t⟩⟩
          · exact absurd rfl h1
          · rfl
          · exfalso
            simp only [List.length_cons] at h2
            have h5 : t.length + 1 < 2 ^ (t.length + 1) := Nat.lt_two_pow_self
            have h6 : 2 ^ (t.length + 1 + 1) = 2 ^ (t.length + 1) + 2 ^ (t.length + 1) := by ring
            have h7 : 2 ≤ 2 ^ (t.length + 1) := by
              calc 2 = 2 ^ 1 := rfl
                _ ≤ 2 ^ (t.length + 1) := Nat.pow_le_pow_right (by omega) (by omega)
            omega
        · split at h
          · cases h
          · cases h; rfl

theorem strict_length {E : List α → List α → Prop} {sizes isects : List Int} {N L : List α} (hN : N.Nodup)
    (hs : sizes.length = L.length) {r : Int × Int} (hr : requiredLengths sizes isects = .ok r)
    (hp : Spec.Proper NL E N L) (hf : Spec.Fits NL sizes (isects.map some) .strict N L) : (N.length : Int) = r.1 := by
  classical
  obtain ⟨o, ho, h1, h2⟩ := hf
  obtain ⟨hne, hlen, hs1, -⟩ := requiredLengths_pre hr
  have hol : o.length = sizes.length := by rw [ho.length_eq, hs]
  let X : List (Finset α) := o.map fun l => N.toFinset.filter fun n => NL [n, l]
  have hXl : X.length = o.length := by simp [X]
  have hcard : ∀ l, ({n | n ∈ N ∧ NL [n, l]}.ncard : Int) = ((N.toFinset.filter fun n => NL [n, l]).card : Int) := by
    intro l
    rw [← Set.ncard_coe_finset]
    congr 2
    ext n; simp
  have hsizes : sizes = X.map fun s => (s.card : Int) := by
    apply List.ext_getElem?
    intro i
    simp only [X, List.map_map, List.getElem?_map]
    cases hi : o[i]? with
    | none =>
      rw [Option.map_none, List.getElem?_eq_none_iff]
      rw [List.getElem?_eq_none_iff] at hi; omega
    | some l => rw [h1 i l hi, hcard]; rfl
  have hX : ∀ s ∈ X, s.Nonempty := by
    intro s hsX
    have : (s.card : Int) ∈ sizes := by rw [hsizes]; exact List.mem_map_of_mem hsX
    rw [← Finset.card_pos]; have := hs1 _ this; omega
  have hisects : isects = Spec.intersectionSizes X := by
    rw [intersectionSizes_eq, hXl]
    have hll : (Spec.layerSets o.length).length = isects.length := by rw [length_layerSets, hlen, hol]
    apply List.ext_getElem?
    intro k
    rw [List.getElem?_map]
    cases hk : (Spec.layerSets o.length)[k]? with
    | none =>
      rw [Option.map_none, List.getElem?_eq_none_iff]
      rw [List.getElem?_eq_none_iff] at hk; omega
    | some c =>
      have hlt := (List.getElem?_eq_some_iff.1 hk).1
      rw [hll] at hlt
      rw [List.getElem?_eq_getElem hlt, Option.map_some]
      congr 1
      have := h2 k c isects[k] hk (by rw [List.getElem?_map, List.getElem?_eq_getElem hlt]; rfl)
      simp only [Spec.Meets] at this
      rw [← this]
      congr 1
      rw [← Set.ncard_coe_finset]
      congr 1
      ext n
      have hc := mem_layerSets.1 (List.mem_of_getElem? hk)
      have hcne : c.map (fun i => X.getD i ∅) ≠ [] := by
        intro h0
        rw [List.map_eq_nil_iff] at h0
        rw [h0] at hc; simp at hc
      have hget : ∀ i ∈ c, ∃ l, o[i]? = some l ∧ X.getD i ∅ = N.toFinset.filter fun n => NL [n, l] := by
        intro i hi
        have hlt := hc.1.subset hi
        rw [List.mem_range] at hlt
        refine ⟨o[i], List.getElem?_eq_getElem hlt, ?_⟩
        simp [X, List.getD, List.getElem?_eq_getElem hlt]
      rw [Finset.mem_coe, mem_common hcne]
      simp only [Set.mem_setOf_eq, List.forall_mem_map]
      constructor
      · rintro ⟨hnN, h3⟩ i hi
        obtain ⟨l, hl, e⟩ := hget i hi
        rw [e, Finset.mem_filter, List.mem_toFinset]
        exact ⟨hnN, h3 i hi l hl⟩
      · intro h3
        obtain ⟨i0, hi0⟩ : ∃ i, i ∈ c := by
          cases c with
          | nil => simp at hc
          | cons i t => exact ⟨i, by simp⟩
        constructor
        · obtain ⟨l, hl, e⟩ := hget i0 hi0
          have := h3 i0 hi0
          rw [e, Finset.mem_filter, List.mem_toFinset] at this
          exact this.1
        · intro i hi l' hl'
          obtain ⟨l, hl, e⟩ := hget i hi
          have := h3 i hi
          rw [e, Finset.mem_filter, List.mem_toFinset] at this
          rw [hl] at hl'
          exact Option.some.inj hl' ▸ this.2
  have hne' : X ≠ [] := by
    intro h0; rw [h0] at hsizes; exact hne (by simpa using hsizes)
  have := requiredLengths_ok X hne' hX
  rw [← hsizes, ← hisects, hr] at this
  injection this with this
  rw [this]
  simp only
  have hu : Spec.union X = N.toFinset := by
    ext n
    rw [mem_union, List.mem_toFinset]
    constructor
    · rintro ⟨s, hsX, hn⟩
      obtain ⟨l, _, rfl⟩ := List.mem_map.1 hsX
      rw [Finset.mem_filter, List.mem_toFinset] at hn
      exact hn.1
    · intro hn
      obtain ⟨l, hl, hnl⟩ := hp.2.2 n hn
      exact ⟨_, List.mem_map_of_mem (ho.symm.subset hl), by rw [Finset.mem_filter, List.mem_toFinset]; exact ⟨hn, hnl⟩⟩
  rw [hu, List.toFinset_card_of_nodup hN]

end Pymnet
