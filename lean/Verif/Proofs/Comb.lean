import Verif.Spec.Sampling
import Verif.Proofs.Transforms
import Mathlib.Data.Nat.Choose.Sum
import Mathlib.Algebra.BigOperators.Intervals
import Mathlib.Algebra.BigOperators.Fin
import Mathlib.Algebra.BigOperators.Group.List.Basic
import Mathlib.Tactic.Ring
import Mathlib.Data.List.Perm.Basic
import Mathlib.Data.List.Sublists

/-! Facts about `itertools.combinations`, `itertools.permutations` and inclusion-exclusion. -/

namespace Pymnet

open Py

variable {γ δ : Type}

theorem length_combinations (l : List γ) (k : Nat) : (combinations l k).length = l.length.choose k := by
  induction l generalizing k with
  | nil => cases k <;> simp [combinations]
  | cons a t ih =>
    cases k with
    | zero => simp [combinations]
    | succ k => simp [combinations, ih, Nat.choose_succ_succ]

theorem mem_combinations {l c : List γ} {k : Nat} : c ∈ combinations l k ↔ c.Sublist l ∧ c.length = k := by
  induction l generalizing k c with
  | nil =>
    cases k with
    | zero => simp [combinations]
    | succ k =>
      simp only [combinations, List.not_mem_nil, List.sublist_nil, false_iff, not_and]
      rintro rfl; simp
  | cons a t ih =>
    cases k with
    | zero =>
      simp only [combinations, List.mem_singleton, List.length_eq_zero_iff]
      constructor
      · rintro rfl; simp
      · exact fun h => h.2
    | succ k =>
      simp only [combinations, List.mem_append, List.mem_map, ih]
      constructor
      · rintro (⟨c', ⟨h1, h2⟩, rfl⟩ | ⟨h1, h2⟩)
        · exact ⟨h1.cons_cons a, by simp [h2]⟩
        · exact ⟨h1.cons a, h2⟩
      · rintro ⟨h1, h2⟩
        cases h1 with
        | cons _ h => exact Or.inr ⟨h, h2⟩
        | cons_cons _ h => exact Or.inl ⟨_, ⟨h, by simpa using h2⟩, rfl⟩

theorem combinations_map (f : γ → δ) (l : List γ) (k : Nat) :
    combinations (l.map f) k = (combinations l k).map (List.map f) := by
  induction l generalizing k with
  | nil => cases k <;> simp [combinations]
  | cons a t ih =>
    cases k with
    | zero => simp [combinations]
    | succ k => simp [combinations, ih, Function.comp_def]

theorem nodup_combinations {l : List γ} (h : l.Nodup) (k : Nat) : (combinations l k).Nodup := by
  induction l generalizing k with
  | nil => cases k <;> simp [combinations]
  | cons a t ih =>
    cases k with
    | zero => simp [combinations]
    | succ k =>
      rw [List.nodup_cons] at h
      simp only [combinations]
      refine List.Nodup.append ((ih h.2 k).map (fun x y hxy => by simpa using hxy)) (ih h.2 (k + 1)) ?_
      intro c hc hc'
      obtain ⟨c', _, rfl⟩ := List.mem_map.1 hc
      have := (mem_combinations.1 hc').1
      exact h.1 (this.subset (by simp))

/-- Every set of `k` elements is exactly one of the combinations, up to the order. -/
theorem combinations_unique {l : List γ} (h : l.Nodup) {c c' : List γ} {k k' : Nat} (hc : c ∈ combinations l k)
    (hc' : c' ∈ combinations l k') (hp : c.Perm c') : c = c' := by
  have h1 := (mem_combinations.1 hc).1
  have h2 := (mem_combinations.1 hc').1
  clear hc hc'
  induction l generalizing c c' with
  | nil => rw [List.sublist_nil] at h1 h2; rw [h1, h2]
  | cons a t ih =>
    rw [List.nodup_cons] at h
    cases h1 with
    | cons _ h1 =>
      cases h2 with
      | cons _ h2 => exact ih h.2 hp h1 h2
      | cons_cons _ h2 => exact absurd (h1.subset (hp.symm.subset (by simp))) h.1
    | cons_cons _ h1 =>
      cases h2 with
      | cons _ h2 => exact absurd (h2.subset (hp.subset (by simp))) h.1
      | cons_cons _ h2 => rw [ih h.2 ((List.perm_cons a).1 hp) h1 h2]

theorem exists_combination [DecidableEq γ] {l s : List γ} (hs : s.Nodup) (hl : l.Nodup) (h : s ⊆ l) :
    ∃ c ∈ combinations l s.length, c.Perm s := by
  have hp : (l.filter (· ∈ s)).Perm s := by
    rw [List.perm_ext_iff_of_nodup (hl.filter _) hs]
    intro x
    simp only [List.mem_filter, decide_eq_true_eq]
    exact ⟨fun hx => hx.2, fun hx => ⟨h hx, hx⟩⟩
  exact ⟨_, mem_combinations.2 ⟨List.filter_sublist, hp.length_eq⟩, hp⟩

/-! ### Permutations -/

theorem mem_picks {l : List γ} {p : γ × List γ} : p ∈ picks l → (p.1 :: p.2).Perm l := by
  induction l generalizing p with
  | nil => simp [picks]
  | cons a t ih =>
    simp only [picks, List.mem_cons, List.mem_map]
    rintro (rfl | ⟨q, hq, rfl⟩)
    · exact List.Perm.refl _
    · exact (List.Perm.swap _ _ _).trans ((ih hq).cons a)

theorem exists_picks {l : List γ} {x : γ} (h : x ∈ l) : ∃ r, (x, r) ∈ picks l := by
  induction l with
  | nil => cases h
  | cons a t ih =>
    rcases List.mem_cons.1 h with rfl | h
    · exact ⟨t, by simp [picks]⟩
    · obtain ⟨r, hr⟩ := ih h
      exact ⟨a :: r, by simp only [picks, List.mem_cons, List.mem_map]; exact Or.inr ⟨_, hr, rfl⟩⟩

theorem mem_permsN {n : Nat} {l : List γ} (h : l.length = n) {p : List γ} : p ∈ permsN n l ↔ p.Perm l := by
  induction n generalizing l p with
  | zero =>
    rw [List.length_eq_zero_iff] at h; subst h
    simp [permsN]
  | succ n ih =>
    simp only [permsN, List.mem_flatMap, List.mem_map]
    constructor
    · rintro ⟨q, hq, p', hp', rfl⟩
      have hq' := mem_picks hq
      have : q.2.length = n := by have := hq'.length_eq; simp at this; omega
      exact (((ih this).1 hp').cons q.1).trans hq'
    · intro hp
      cases p with
      | nil => rw [List.nil_perm] at hp; subst hp; cases h
      | cons x p' =>
        obtain ⟨r, hr⟩ := exists_picks (hp.subset (by simp : x ∈ x :: p'))
        have hr' := mem_picks hr
        have hl : r.length = n := by have := hr'.length_eq; simp at this; omega
        exact ⟨(x, r), hr, p', (ih hl).2 ((List.perm_cons x).1 (hp.trans hr'.symm)), rfl⟩

theorem mem_permutations {l p : List γ} : p ∈ permutations l ↔ p.Perm l := mem_permsN rfl

/-! ### Loops -/

theorem allE_ok {f : γ → Except Err Bool} {P : γ → Prop} [DecidablePred P] {l : List γ}
    (h : ∀ x ∈ l, f x = .ok (decide (P x))) : allE f l = .ok (decide (∀ x ∈ l, P x)) := by
  induction l with
  | nil => simp [allE]
  | cons a t ih =>
    simp only [allE, h a (by simp)]
    by_cases hp : P a
    · simp only [hp, decide_true, ih fun x hx => h x (by simp [hx]), List.forall_mem_cons, true_and]
    · simp [hp]

theorem anyE_ok {f : γ → Except Err Bool} {P : γ → Prop} [DecidablePred P] {l : List γ}
    (h : ∀ x ∈ l, f x = .ok (decide (P x))) : anyE f l = .ok (decide (∃ x ∈ l, P x)) := by
  induction l with
  | nil => simp [anyE]
  | cons a t ih =>
    simp only [anyE, h a (by simp)]
    by_cases hp : P a
    · simp [hp]
    · simp only [hp, decide_false, ih fun x hx => h x (by simp [hx])]
      simp [hp]

/-! ### Inclusion-exclusion -/

variable [DecidableEq γ]

/-- Sum of the sizes of the common intersections of `k` sets. -/
def levelSum (X : List (Finset γ)) (k : Nat) : Int :=
  ((combinations X k).map fun c => ((Spec.common c).card : Int)).sum

theorem common_map (a : Finset γ) (c : List (Finset γ)) (hc : c ≠ []) :
    Spec.common (a :: c) = Spec.common (c.map (a ∩ ·)) := by
  induction c with
  | nil => exact absurd rfl hc
  | cons b t ih =>
    cases t with
    | nil => rfl
    | cons d t =>
      have := ih (by simp)
      simp only [Spec.common, List.map_cons] at this ⊢
      rw [← this]
      ext x; simp only [Finset.mem_inter]; tauto

theorem levelSum_one (a : Finset γ) (t : List (Finset γ)) : levelSum (a :: t) 1 = a.card + levelSum t 1 := by
  simp [levelSum, combinations, Spec.common]

theorem levelSum_succ (a : Finset γ) (t : List (Finset γ)) (k : Nat) :
    levelSum (a :: t) (k + 2) = levelSum (t.map (a ∩ ·)) (k + 1) + levelSum t (k + 2) := by
  unfold levelSum
  rw [combinations_map]
  simp only [combinations, List.map_append, List.sum_append, List.map_map]
  congr 2
  refine List.map_congr_left fun c hc => ?_
  have : c ≠ [] := by
    rintro rfl
    have := (mem_combinations.1 hc).2
    simp at this
  simp only [Function.comp_apply, common_map a c this]

theorem levelSum_large (X : List (Finset γ)) {k : Nat} (h : X.length < k) : levelSum X k = 0 := by
  have : combinations X k = [] := by
    rw [← List.length_eq_zero_iff, length_combinations, Nat.choose_eq_zero_of_lt h]
  simp [levelSum, this]

theorem union_map_inter (a : Finset γ) (t : List (Finset γ)) : Spec.union (t.map (a ∩ ·)) = a ∩ Spec.union t := by
  induction t with
  | nil => simp [Spec.union]
  | cons b t ih =>
    simp only [Spec.union, List.map_cons, List.foldr_cons] at ih ⊢
    rw [ih, ← Finset.inter_union_distrib_left]

/-- Inclusion-exclusion. -/
theorem inclusion_exclusion (X : List (Finset γ)) {n : Nat} (h : X.length ≤ n) :
    ∑ j ∈ Finset.range n, (-1) ^ j * levelSum X (j + 1) = ((Spec.union X).card : Int) := by
  induction hN : X.length generalizing X n with
  | zero =>
    rw [List.length_eq_zero_iff] at hN; subst hN
    rw [Finset.sum_eq_zero]
    · simp [Spec.union]
    · intro j _
      rw [levelSum_large _ (by simp)]; ring
  | succ N ih =>
    obtain ⟨a, t, rfl⟩ : ∃ a t, X = a :: t := by
      cases X with
      | nil => cases hN
      | cons a t => exact ⟨a, t, rfl⟩
    have hN' : t.length = N := by simpa using hN
    obtain ⟨n, rfl⟩ : ∃ k, n = k + 1 := ⟨n - 1, by simp at h; omega⟩
    simp only [List.length_cons, Nat.add_le_add_iff_right] at h
    have key : ∑ j ∈ Finset.range (n + 1), (-1 : Int) ^ j * levelSum (a :: t) (j + 1) =
        a.card + ∑ j ∈ Finset.range (n + 1), (-1) ^ j * levelSum t (j + 1) -
          ∑ j ∈ Finset.range n, (-1) ^ j * levelSum (t.map (a ∩ ·)) (j + 1) := by
      rw [Finset.sum_range_succ', Finset.sum_range_succ' (fun j => (-1 : Int) ^ j * levelSum t (j + 1)), levelSum_one]
      have : ∀ j ∈ Finset.range n, (-1 : Int) ^ (j + 1) * levelSum (a :: t) (j + 1 + 1) =
          (-1) ^ (j + 1) * levelSum t (j + 1 + 1) - (-1) ^ j * levelSum (t.map (a ∩ ·)) (j + 1) := by
        intro j _
        rw [levelSum_succ]; ring
      rw [Finset.sum_congr rfl this, Finset.sum_sub_distrib]
      ring
    rw [key, ih t (by omega) hN', ih (t.map (a ∩ ·)) (by simpa using h) (by simpa using hN'), union_map_inter]
    have hu : Spec.union (a :: t) = a ∪ Spec.union t := rfl
    rw [hu]
    have := Finset.card_union_add_card_inter a (Spec.union t)
    have h2 : ((a ∪ Spec.union t).card : Int) + (a ∩ Spec.union t).card = a.card + (Spec.union t).card := by
      exact_mod_cast this
    omega

/-! ### default_calculate_required_lengths -/

/-- The sign of the intersections of `k` sets. -/
def levelSign (k : Nat) (s : Int) : Int := if k % 2 = 0 then -s else s

theorem requiredInner (isects : List Int) (k : Nat) {ε : Type} (xs : List ε) (pre g post : List Int)
    (hg : g.length = xs.length) (hi : isects = pre ++ g ++ post) (s : Int) :
    forE (fun s _ => requiredStep isects k s) xs (s, pre.length) = .ok (s + levelSign k g.sum, (pre ++ g).length) := by
  induction xs generalizing pre g s with
  | nil =>
    rw [List.length_nil, List.length_eq_zero_iff] at hg; subst hg
    simp [forE, levelSign]
  | cons x xs ih =>
    cases g with
    | nil => cases hg
    | cons a g =>
      have hget : isects[pre.length]? = some a := by rw [hi]; simp
      have hi' : isects = (pre ++ [a]) ++ g ++ post := by rw [hi]; simp
      have hl : pre.length + 1 = (pre ++ [a]).length := by simp
      by_cases hk : k % 2 = 0
      · have hst : requiredStep isects k (s, pre.length) = .ok (s - a, (pre ++ [a]).length) := by
          simp only [requiredStep, hget, hk, if_true, hl]
        simp only [forE, hst]
        rw [ih (pre ++ [a]) g (by simpa using hg) hi']
        simp only [levelSign, hk, if_true, List.sum_cons, List.append_assoc, List.cons_append, List.nil_append]
        congr 2; ring
      · have hst : requiredStep isects k (s, pre.length) = .ok (s + a, (pre ++ [a]).length) := by
          simp only [requiredStep, hget, hk, if_false, hl]
        simp only [forE, hst]
        rw [ih (pre ++ [a]) g (by simpa using hg) hi']
        simp only [levelSign, hk, if_false, List.sum_cons, List.append_assoc, List.cons_append, List.nil_append]
        congr 2; ring

theorem requiredOuter {ε : Type} (sizes : List ε) (isects : List Int) (g : Nat → List Int)
    (hg : ∀ k, (g k).length = (combinations sizes k).length) (ks : List Nat) (pre post : List Int)
    (hi : isects = pre ++ ks.flatMap g ++ post) (s : Int) :
    forE (fun s ii => forE (fun s _ => requiredStep isects ii s) (combinations sizes ii) s) ks (s, pre.length) =
      .ok (s + (ks.map fun k => levelSign k (g k).sum).sum, (pre ++ ks.flatMap g).length) := by
  induction ks generalizing pre s with
  | nil => simp [forE]
  | cons k ks ih =>
    simp only [forE]
    rw [requiredInner isects k (combinations sizes k) pre (g k) (ks.flatMap g ++ post) (hg k)
      (by rw [hi]; simp)]
    simp only
    rw [ih (pre ++ g k) (by rw [hi]; simp)]
    simp only [List.map_cons, List.sum_cons, List.flatMap_cons, List.append_assoc]
    congr 2
    ring

theorem length_intersectionSizes (X : List (Finset γ)) :
    (Spec.intersectionSizes X).length = 2 ^ X.length - X.length - 1 := by
  unfold Spec.intersectionSizes
  rw [List.length_flatMap]
  simp only [List.length_map, length_combinations]
  have key : ∀ n, ((List.range' 2 (n - 1)).map fun k => n.choose k).sum = 2 ^ n - n - 1 := by
    intro n
    rcases n with _ | n
    · simp
    · have h1 := Nat.sum_range_choose (n + 1)
      rw [Finset.sum_range_succ', Finset.sum_range_succ'] at h1
      have h2 : ((List.range' 2 (n + 1 - 1)).map fun k => (n + 1).choose k).sum =
          ∑ k ∈ Finset.range n, (n + 1).choose (k + 1 + 1) := by
        rw [Nat.add_sub_cancel, List.range'_eq_map_range, List.map_map]
        rw [Finset.sum_range, ← List.sum_ofFn]
        congr 1
        apply List.ext_getElem
        · simp
        · intro i h1 h2
          simp only [List.getElem_map, List.getElem_range, Function.comp_apply, List.getElem_ofFn]
          congr 1; omega
      rw [h2]
      simp only [Nat.zero_add, Nat.choose_one_right, Nat.choose_zero_right] at h1
      omega
  exact key X.length

theorem requiredLengths_ok (X : List (Finset γ)) (hne : X ≠ []) (hX : ∀ s ∈ X, s.Nonempty) :
    requiredLengths (X.map fun s => (s.card : Int)) (Spec.intersectionSizes X) =
      .ok (((Spec.union X).card : Int), (X.length : Int)) := by
  unfold requiredLengths
  rw [if_neg (by simpa using hne), if_neg (by rw [length_intersectionSizes, List.length_map]; simp), if_neg (by
    rw [not_not]
    constructor
    · intro i hi
      obtain ⟨s, hs, rfl⟩ := List.mem_map.1 hi
      have := (hX s hs).card_pos; omega
    · intro j hj
      simp only [Spec.intersectionSizes, List.mem_flatMap, List.mem_map] at hj
      obtain ⟨_, _, _, _, rfl⟩ := hj; omega)]
  by_cases h0 : Spec.intersectionSizes X = []
  · rw [if_pos h0]
    have hl := length_intersectionSizes X
    rw [h0, List.length_nil] at hl
    have : X.length = 1 := by
      rcases X with _ | ⟨a, _ | ⟨b, t⟩⟩
      · exact absurd rfl hne
      · rfl
      · exfalso
        simp only [List.length_cons] at hl
        have : t.length + 2 < 2 ^ (t.length + 1) + 2 ^ (t.length + 1) - 1 := by
          have h3 : t.length + 1 < 2 ^ (t.length + 1) := Nat.lt_two_pow_self
          omega
        have h4 : 2 ^ (t.length + 1 + 1) = 2 ^ (t.length + 1) + 2 ^ (t.length + 1) := by ring
        omega
    obtain ⟨a, rfl⟩ := List.length_eq_one_iff.1 this
    simp [Spec.union]
  · rw [if_neg h0]
    have := requiredOuter (X.map fun s => (s.card : Int)) (Spec.intersectionSizes X)
      (fun k => (combinations X k).map fun c => ((Spec.common c).card : Int))
      (by intro k; simp [length_combinations]) (List.range' 2 (X.length - 1)) [] []
      (by simp [Spec.intersectionSizes]) (X.map fun s => (s.card : Int)).sum
    simp only [List.length_nil] at this
    rw [List.length_map, this]
    simp only [Except.ok.injEq, Prod.mk.injEq, and_true]
    rw [← inclusion_exclusion X (n := X.length) le_rfl]
    obtain ⟨n, hn⟩ : ∃ n, X.length = n + 1 := ⟨X.length - 1, by have := List.length_pos_iff.2 hne; omega⟩
    rw [hn, Finset.sum_range_succ', Nat.add_sub_cancel]
    have h1 : levelSum X 1 = (X.map fun s => (s.card : Int)).sum := by
      clear hne hX h0 this hn
      induction X with
      | nil => rfl
      | cons a t ih => rw [levelSum_one, ih]; simp
    have h2 : (((List.range' 2 n).map fun k =>
        levelSign k ((combinations X k).map fun c => ((Spec.common c).card : Int)).sum).sum : Int) =
        ∑ k ∈ Finset.range n, (-1) ^ (k + 1) * levelSum X (k + 1 + 1) := by
      rw [List.range'_eq_map_range, List.map_map, Finset.sum_range, ← List.sum_ofFn]
      congr 1
      apply List.ext_getElem
      · simp
      · intro i h1 h2
        simp only [List.getElem_map, List.getElem_range, Function.comp_apply, List.getElem_ofFn]
        have e : 2 + i = i + 1 + 1 := by omega
        rw [e]
        change levelSign (i + 1 + 1) (levelSum X (i + 1 + 1)) = _
        unfold levelSign
        rcases Nat.even_or_odd i with hi | hi
        · have h3 : (i + 1 + 1) % 2 = 0 := by obtain ⟨r, hr⟩ := hi; omega
          rw [if_pos h3, pow_succ, hi.neg_one_pow]; ring
        · have h3 : ¬ (i + 1 + 1) % 2 = 0 := by obtain ⟨r, hr⟩ := hi; omega
          rw [if_neg h3, pow_succ, hi.neg_one_pow]; ring
    rw [h2, ← h1]
    ring

end Pymnet
