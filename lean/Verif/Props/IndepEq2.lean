import Verif.Props.IndepEq
import Mathlib.Algebra.Order.Field.Rat
import Mathlib.Algebra.BigOperators.Group.List.Basic
import Mathlib.Data.List.Induction

/-!
C105, C106: equations that are certainly independent, and redundant orbits.
-/

namespace Pymnet

open Py

variable {κ ω : Type} [DecidableEq κ] [DecidableEq ω]

/-! ### C105: `definitely_independent` -/

/-- The orbits of an equation, on either side. -/
def Spec.InEq (eqs : Dict (EqKey ω) (List ω)) (e : EqKey ω) (o : ω) : Prop :=
  (match e with
    | .pair o1 o2 => o = o1 ∨ o = o2
    | .square o1 => o = o1
    | .triple o1 _ _ => o = o1) ∨ ∃ rhs, Dict.get eqs e = some rhs ∧ o ∈ rhs

theorem mem_eq_foldl (l s : List ω) (x : ω) : x ∈ l.foldl sadd s ↔ x ∈ s ∨ x ∈ l := by
  induction l generalizing s with
  | nil => simp
  | cons a l ih =>
    rw [List.foldl_cons, ih, mem_sadd, List.mem_cons]
    tauto

theorem nodup_eq_foldl (l : List ω) {s : List ω} (h : s.Nodup) : (l.foldl sadd s).Nodup := by
  induction l generalizing s with
  | nil => exact h
  | cons a l ih => exact ih (nodup_sadd h a)

theorem mem_eqSet {eqs : Dict (EqKey ω) (List ω)} {e : EqKey ω} {rhs : List ω} (h : Dict.get eqs e = some rhs) (o : ω) :
    o ∈ eqSet e rhs ↔ Spec.InEq eqs e o := by
  unfold eqSet Spec.InEq toSet
  rw [mem_eq_foldl, mem_eq_foldl, h]
  cases e <;> simp [EqKey.left] <;> tauto

theorem mem_without (i : Nat) (ts : List (List ω)) : ∀ (s : List ω) (j : Nat) (o : ω),
    o ∈ without i s ts j ↔ o ∈ s ∧ ∀ k t, ts[k]? = some t → i ≠ j + k → o ∉ t := by
  induction ts with
  | nil => intro s j o; simp [without]
  | cons t ts ih =>
    intro s j o
    rw [without, ih]
    constructor
    · rintro ⟨h1, h2⟩
      have hs : o ∈ s ∧ (i ≠ j → o ∉ t) := by
        by_cases hij : i ≠ j
        · rw [if_pos hij, List.mem_filter] at h1
          exact ⟨h1.1, fun _ => by simpa using h1.2⟩
        · rw [if_neg hij] at h1
          exact ⟨h1, fun h => absurd h hij⟩
      refine ⟨hs.1, fun k u hk hne => ?_⟩
      cases k with
      | zero =>
        simp only [List.getElem?_cons_zero, Option.some.injEq] at hk
        subst hk
        exact hs.2 (by simpa using hne)
      | succ k => exact h2 k u (by simpa using hk) (by omega)
    · rintro ⟨h1, h2⟩
      refine ⟨?_, fun k u hk hne => h2 (k + 1) u (by simpa using hk) (by omega)⟩
      by_cases hij : i ≠ j
      · rw [if_pos hij, List.mem_filter]
        exact ⟨h1, by simpa using h2 0 t rfl (by simpa using hij)⟩
      · rw [if_neg hij]; exact h1

/-- **C105.** `definitely_independent(eqs)`: every equation is in exactly one of the two sets; it is definitely independent iff all orbits
on its left side are those of graphlets with two nodes, or it has an orbit that is in no other equation. The third result has for every
equation the set of orbits on its right side. -/
theorem C105_definitely (size : ω → Nat) {eqs : Dict (EqKey ω) (List ω)} (hn : (Dict.keys eqs).Nodup) {ind und : List (EqKey ω)}
    {sets : Dict (EqKey ω) (List ω)} (hr : definitelyIndependent size eqs = (ind, und, sets)) :
    ind.Nodup ∧ und.Nodup ∧ (∀ e, e ∈ Dict.keys eqs ↔ e ∈ ind ∨ e ∈ und) ∧ (∀ e ∈ ind, e ∉ und) ∧
      (∀ e ∈ Dict.keys eqs, e ∈ ind ↔ (∀ o ∈ e.left, size o = 2) ∨
        ∃ o, Spec.InEq eqs e o ∧ ∀ e' ∈ Dict.keys eqs, e' ≠ e → ¬ Spec.InEq eqs e' o) ∧
      Dict.keys sets = Dict.keys eqs ∧ ∀ e rhs, Dict.get eqs e = some rhs → ∃ s, Dict.get sets e = some s ∧ s.Nodup ∧ ∀ o, o ∈ s ↔ o ∈ rhs := by
  unfold definitelyIndependent at hr
  simp only [Prod.mk.injEq] at hr
  obtain ⟨h1, h2, h3⟩ := hr
  set Ls : List (List ω) := eqs.map (fun p : EqKey ω × List ω => eqSet p.1 p.2) with hLs
  set small := (eqs.map Prod.fst).filter fun eq => eq.left.all fun o => size o = 2 with hsm
  -- the test
  have htest : ∀ i e, (Dict.keys eqs)[i]? = some e → (0 < (without i (Ls.getD i []) Ls 0).length ↔
      ∃ o, Spec.InEq eqs e o ∧ ∀ e' ∈ Dict.keys eqs, e' ≠ e → ¬ Spec.InEq eqs e' o) := by
    intro i e hi
    have hget : ∀ (k : Nat) (p : EqKey ω × List ω), eqs[k]? = some p → Dict.get eqs p.1 = some p.2 := fun k p hk => Dict.get_of_mem hn (List.mem_of_getElem? hk)
    obtain ⟨p, hp, rfl⟩ : ∃ p, eqs[i]? = some p ∧ p.1 = e := by
      unfold Dict.keys at hi
      rw [List.getElem?_map] at hi
      cases hp : eqs[i]? with
      | none => rw [hp] at hi; cases hi
      | some p => rw [hp] at hi; exact ⟨p, rfl, Option.some.inj hi⟩
    have hL : Ls.getD i [] = eqSet p.1 p.2 := by
      rw [List.getD_eq_getElem?_getD, hLs, List.getElem?_map, hp]
      rfl
    rw [List.length_pos_iff_exists_mem]
    refine exists_congr fun o => ?_
    rw [mem_without, hL, mem_eqSet (hget i p hp)]
    refine and_congr_right fun _ => ?_
    constructor
    · intro h e' he' hne
      obtain ⟨q, hq, rfl⟩ := List.mem_map.1 he'
      obtain ⟨k, hk⟩ := List.getElem?_of_mem hq
      rw [← mem_eqSet (hget k q hk)]
      refine h k _ (by rw [hLs, List.getElem?_map, hk]; rfl) ?_
      rintro e
      rw [Nat.zero_add] at e
      subst e
      rw [hp] at hk
      exact hne (congrArg Prod.fst (Option.some.inj hk).symm)
    · intro h k t hk hne
      rw [hLs, List.getElem?_map] at hk
      cases hq : eqs[k]? with
      | none => rw [hq] at hk; cases hk
      | some q =>
        rw [hq] at hk
        obtain rfl := Option.some.inj hk
        rw [mem_eqSet (hget k q hq)]
        refine h q.1 (List.mem_map.2 ⟨q, List.mem_of_getElem? hq, rfl⟩) ?_
        intro e
        have hik : (Dict.keys eqs)[i]? = (Dict.keys eqs)[k]? := by
          unfold Dict.keys
          rw [List.getElem?_map, List.getElem?_map, hp, hq]
          exact congrArg some e.symm
        have hlt : i < (Dict.keys eqs).length := by
          by_contra h
          rw [List.getElem?_eq_none (by omega)] at hi
          cases hi
        exact hne (by rw [Nat.zero_add]; exact (List.getElem?_inj hlt hn).1 hik)
  -- the loop
  have loop : ∀ (l : List (EqKey ω × Nat)) (r : List (EqKey ω) × List (EqKey ω)), (l.map Prod.fst).Nodup →
      (∀ p ∈ l, p.1 ∉ r.2) → (∀ p ∈ l, p.1 ∈ r.1 → p.1 ∈ small) → r.1.Nodup → r.2.Nodup → (∀ e ∈ r.1, e ∉ r.2) →
      ∀ r', l.foldl (fun (r : List (EqKey ω) × List (EqKey ω)) p =>
        if p.1 ∈ r.1 then r
        else if 0 < (without p.2 (Ls.getD p.2 []) Ls 0).length then (sadd r.1 p.1, r.2) else (r.1, sadd r.2 p.1)) r = r' →
      r'.1.Nodup ∧ r'.2.Nodup ∧ (∀ e ∈ r'.1, e ∉ r'.2) ∧
        (∀ e, e ∈ r'.1 ↔ e ∈ r.1 ∨ ∃ p ∈ l, p.1 = e ∧ 0 < (without p.2 (Ls.getD p.2 []) Ls 0).length) ∧
        (∀ e, e ∈ r'.2 ↔ e ∈ r.2 ∨ ∃ p ∈ l, p.1 = e ∧ e ∉ r.1 ∧ ¬ 0 < (without p.2 (Ls.getD p.2 []) Ls 0).length) := by
    intro l
    induction l with
    | nil =>
      intro r _ _ _ h4 h5 h6 r' hr'
      rw [List.foldl_nil] at hr'
      subst hr'
      exact ⟨h4, h5, h6, by simp, by simp⟩
    | cons p l ih =>
      intro r hnd hno hsmall h4 h5 h6 r' hr'
      rw [List.map_cons, List.nodup_cons] at hnd
      have hpl : ∀ q ∈ l, q.1 ≠ p.1 := fun q hq e => hnd.1 (List.mem_map.2 ⟨q, hq, e⟩)
      rw [List.foldl_cons] at hr'
      by_cases hp : p.1 ∈ r.1
      · rw [if_pos hp] at hr'
        obtain ⟨k1, k2, k3, k4, k5⟩ := ih r hnd.2 (fun q hq => hno q (by simp [hq])) (fun q hq => hsmall q (by simp [hq])) h4 h5 h6 r' hr'
        refine ⟨k1, k2, k3, fun e => ?_, fun e => ?_⟩
        · rw [k4]
          simp only [List.mem_cons, exists_eq_or_imp]
          constructor
          · rintro (h | h)
            · exact Or.inl h
            · exact Or.inr (Or.inr h)
          · rintro (h | ⟨rfl, -⟩ | h)
            · exact Or.inl h
            · exact Or.inl hp
            · exact Or.inr h
        · rw [k5]
          simp only [List.mem_cons, exists_eq_or_imp]
          constructor
          · rintro (h | h)
            · exact Or.inl h
            · exact Or.inr (Or.inr h)
          · rintro (h | ⟨rfl, h, -⟩ | h)
            · exact Or.inl h
            · exact absurd hp h
            · exact Or.inr h
      · rw [if_neg hp] at hr'
        by_cases ht : 0 < (without p.2 (Ls.getD p.2 []) Ls 0).length
        · rw [if_pos ht] at hr'
          obtain ⟨k1, k2, k3, k4, k5⟩ := ih (sadd r.1 p.1, r.2) hnd.2 (fun q hq => hno q (by simp [hq])) (by
            intro q hq hq'
            rcases mem_sadd.1 hq' with h | h
            · exact hsmall q (by simp [hq]) h
            · exact absurd h (hpl q hq)) (nodup_sadd h4 _) h5 (by
            intro e he
            rcases mem_sadd.1 he with h | rfl
            · exact h6 e h
            · exact hno p (by simp)) r' hr'
          refine ⟨k1, k2, k3, fun e => ?_, fun e => ?_⟩
          · rw [k4, mem_sadd]
            simp only [List.mem_cons, exists_eq_or_imp]
            constructor
            · rintro ((h | rfl) | h)
              · exact Or.inl h
              · exact Or.inr (Or.inl ⟨rfl, ht⟩)
              · exact Or.inr (Or.inr h)
            · rintro (h | ⟨rfl, -⟩ | h)
              · exact Or.inl (Or.inl h)
              · exact Or.inl (Or.inr rfl)
              · exact Or.inr h
          · rw [k5]
            simp only [List.mem_cons, exists_eq_or_imp, mem_sadd, not_or]
            constructor
            · rintro (h | ⟨q, hq, rfl, ⟨h, -⟩, h'⟩)
              · exact Or.inl h
              · exact Or.inr (Or.inr ⟨q, hq, rfl, h, h'⟩)
            · rintro (h | ⟨rfl, -, h⟩ | ⟨q, hq, rfl, h, h'⟩)
              · exact Or.inl h
              · exact absurd ht h
              · exact Or.inr ⟨q, hq, rfl, ⟨h, hpl q hq⟩, h'⟩
        · rw [if_neg ht] at hr'
          obtain ⟨k1, k2, k3, k4, k5⟩ := ih (r.1, sadd r.2 p.1) hnd.2 (by
            intro q hq hq'
            rcases mem_sadd.1 hq' with h | h
            · exact hno q (by simp [hq]) h
            · exact hpl q hq h) (fun q hq => hsmall q (by simp [hq])) h4 (nodup_sadd h5 _) (by
            intro e he he'
            rcases mem_sadd.1 he' with h | rfl
            · exact h6 e he h
            · exact hp he) r' hr'
          refine ⟨k1, k2, k3, fun e => ?_, fun e => ?_⟩
          · rw [k4]
            simp only [List.mem_cons, exists_eq_or_imp]
            constructor
            · rintro (h | h)
              · exact Or.inl h
              · exact Or.inr (Or.inr h)
            · rintro (h | ⟨-, h⟩ | h)
              · exact Or.inl h
              · exact absurd h ht
              · exact Or.inr h
          · rw [k5, mem_sadd]
            simp only [List.mem_cons, exists_eq_or_imp]
            constructor
            · rintro ((h | rfl) | h)
              · exact Or.inl h
              · exact Or.inr (Or.inl ⟨rfl, hp, ht⟩)
              · exact Or.inr (Or.inr h)
            · rintro (h | ⟨rfl, -⟩ | h)
              · exact Or.inl (Or.inl h)
              · exact Or.inl (Or.inr rfl)
              · exact Or.inr h
  have hsmall : ∀ e, e ∈ toSet small ↔ e ∈ Dict.keys eqs ∧ ∀ o ∈ e.left, size o = 2 := by
    intro e
    unfold toSet
    rw [mem_eq_foldl, hsm, List.mem_filter]
    simp [Dict.keys, List.all_eq_true]
  obtain ⟨k1, k2, k3, k4, k5⟩ := loop ((eqs.map Prod.fst).zipIdx) (toSet small, []) (by rw [List.zipIdx_map_fst]; exact hn) (by simp)
    (by intro p _ h; simpa [toSet, mem_eq_foldl] using h) (nodup_eq_foldl _ List.nodup_nil) List.nodup_nil (by simp) _ rfl
  rw [h1] at k1 k3 k4
  rw [h2] at k2 k3 k5
  have hidx : ∀ p ∈ (eqs.map Prod.fst).zipIdx, (Dict.keys eqs)[p.2]? = some p.1 := by
    intro p hp
    exact List.mem_zipIdx_iff_getElem?.1 hp
  have hkey : ∀ e ∈ Dict.keys eqs, ∃ i, (e, i) ∈ (eqs.map Prod.fst).zipIdx := by
    intro e he
    obtain ⟨i, hi⟩ := List.getElem?_of_mem he
    exact ⟨i, List.mem_zipIdx_iff_getElem?.2 hi⟩
  have hpk : ∀ p ∈ (eqs.map Prod.fst).zipIdx, p.1 ∈ Dict.keys eqs := fun p hp => List.mem_of_getElem? (hidx p hp)
  refine ⟨k1, k2, fun e => ?_, k3, fun e he => ?_, ?_, ?_⟩
  · rw [k4, k5, hsmall]
    constructor
    · intro he
      obtain ⟨i, hi⟩ := hkey e he
      by_cases hs : ∀ o ∈ e.left, size o = 2
      · exact Or.inl (Or.inl ⟨he, hs⟩)
      · by_cases ht : 0 < (without i (Ls.getD i []) Ls 0).length
        · exact Or.inl (Or.inr ⟨(e, i), hi, rfl, ht⟩)
        · refine Or.inr (Or.inr ⟨(e, i), hi, rfl, ?_, ht⟩)
          exact fun h => hs h.2
    · rintro ((⟨h, -⟩ | ⟨p, hp, rfl, -⟩) | (h | ⟨p, hp, rfl, -⟩))
      · exact h
      · exact hpk p hp
      · cases h
      · exact hpk p hp
  · rw [k4, hsmall]
    constructor
    · rintro (⟨-, h⟩ | ⟨p, hp, rfl, h⟩)
      · exact Or.inl h
      · exact Or.inr ((htest p.2 p.1 (hidx p hp)).1 h)
    · rintro (h | h)
      · exact Or.inl ⟨he, h⟩
      · obtain ⟨i, hi⟩ := hkey e he
        exact Or.inr ⟨(e, i), hi, rfl, (htest i e (hidx _ hi)).2 h⟩
  · rw [← h3]
    unfold Dict.keys
    rw [List.map_map]
    rfl
  · intro e rhs he
    refine ⟨toSet rhs, ?_, nodup_eq_foldl _ List.nodup_nil, fun o => by simp [toSet, mem_eq_foldl]⟩
    rw [← h3, get_map_val (fun l : List ω => toSet l), he]
    rfl

/-- **C105.** An equation with an orbit that is in no other equation is linearly independent of the others: whatever coefficients the orbits
have in the equations they are in, its row is no combination of the other rows. -/
theorem C105_linear {eqs : Dict (EqKey ω) (List ω)} {e : EqKey ω} {o : ω} (ho : Spec.InEq eqs e o)
    (hother : ∀ e' ∈ Dict.keys eqs, e' ≠ e → ¬ Spec.InEq eqs e' o) (M : EqKey ω → ω → ℚ) (hM : ∀ e o, M e o ≠ 0 ↔ Spec.InEq eqs e o)
    (others : List (EqKey ω)) (hothers : ∀ e' ∈ others, e' ∈ Dict.keys eqs ∧ e' ≠ e) (a : EqKey ω → ℚ) :
    ¬ ∀ o, M e o = (others.map fun e' => a e' * M e' o).sum := by
  intro h
  refine (hM e o).2 ho ?_
  rw [h o]
  refine List.sum_eq_zero fun x hx => ?_
  obtain ⟨e', he', rfl⟩ := List.mem_map.1 hx
  obtain ⟨h1, h2⟩ := hothers e' he'
  have : M e' o = 0 := by
    by_contra hne
    exact hother e' h1 h2 ((hM e' o).1 hne)
  rw [this, mul_zero]

/-- Equations for the examples; the orbit number `10*n+i` has a graphlet of `n` nodes. -/
def sampleEqs : Dict (EqKey Nat) (List Nat) :=
  [(.square 20, [30, 31]), (.pair 20 21, [31, 32]), (.pair 20 30, [40, 41]), (.pair 20 31, [41, 42]), (.pair 21 30, [40, 42])]

example : (Dict.keys sampleEqs).Nodup ∧ definitelyIndependent (· / 10) sampleEqs =
    ([.square 20, .pair 20 21], [.pair 20 30, .pair 20 31, .pair 21 30], sampleEqs) := by decide +kernel
example : (definitelyIndependent (· / 10) (sampleEqs ++ [(.square 30, [50])])).1 = [.square 20, .pair 20 21, .square 30] := by decide +kernel

/-! ### C106: `redundant_orbits` -/

theorem maxE_ok {l : List Nat} (h : l ≠ []) : ∃ m, maxE l = .ok m ∧ m ∈ l ∧ ∀ x ∈ l, x ≤ m := by
  have fold : ∀ (t : List Nat) (a : Nat), (t.foldl max a = a ∨ t.foldl max a ∈ t) ∧ a ≤ t.foldl max a ∧ ∀ x ∈ t, x ≤ t.foldl max a := by
    intro t
    induction t with
    | nil => intro a; simp
    | cons b t ih =>
      intro a
      rw [List.foldl_cons]
      obtain ⟨h1, h2, h3⟩ := ih (max a b)
      refine ⟨?_, le_trans (le_max_left _ _) h2, ?_⟩
      · rcases h1 with h1 | h1
        · rw [h1]
          rcases max_choice a b with h | h
          · exact Or.inl h
          · exact Or.inr (by rw [h]; simp)
        · exact Or.inr (by simp [h1])
      · intro x hx
        rcases List.mem_cons.1 hx with rfl | hx
        · exact le_trans (le_max_right _ _) h2
        · exact h3 x hx
  cases l with
  | nil => exact absurd rfl h
  | cons a t =>
    obtain ⟨h1, h2, h3⟩ := fold t a
    refine ⟨_, rfl, ?_, ?_⟩
    · rcases h1 with h1 | h1
      · rw [h1]; simp
      · exact List.mem_cons_of_mem _ h1
    · intro x hx
      rcases List.mem_cons.1 hx with rfl | hx
      · exact h2
      · exact h3 x hx

/-- Internal: the largest number of `os` that is not in `rs`. -/
theorem freeMax_spec (rs : List Nat) (fuel : Nat) : ∀ (os : List Nat) (m : Nat), os.length ≤ fuel → os.Nodup → m ∈ os → (∀ x ∈ os, x ≤ m) →
    (∃ r, freeMax rs fuel os m = .ok r ∧ r ∈ os ∧ r ∉ rs ∧ ∀ x ∈ os, x ∉ rs → x ≤ r) ∨
      (freeMax rs fuel os m = .error .valueError ∧ ∀ x ∈ os, x ∈ rs) := by
  induction fuel with
  | zero =>
    intro os m hl _ hm
    rw [List.length_eq_zero_iff.1 (by omega : os.length = 0)] at hm
    cases hm
  | succ fuel ih =>
    intro os m hl hn hm hmax
    rw [freeMax]
    by_cases hr : m ∈ rs
    · rw [if_pos hr]
      have hlen : (os.filter (· ≠ m)).length ≤ fuel := by
        have : (os.filter (· ≠ m)).length < os.length := List.length_filter_lt_length_iff_exists.2 ⟨m, hm, by simp⟩
        omega
      by_cases he : os.filter (· ≠ m) = []
      · rw [he]
        refine Or.inr ⟨rfl, fun x hx => ?_⟩
        by_cases hxm : x = m
        · rw [hxm]; exact hr
        · have : x ∈ os.filter (· ≠ m) := List.mem_filter.2 ⟨hx, by simpa using hxm⟩
          rw [he] at this
          cases this
      · obtain ⟨m', h1, h2, h3⟩ := maxE_ok he
        rw [h1]
        rcases ih _ m' hlen (hn.filter _) h2 h3 with ⟨r, k1, k2, k3, k4⟩ | ⟨k1, k2⟩
        · refine Or.inl ⟨r, k1, (List.mem_filter.1 k2).1, k3, fun x hx hxr => ?_⟩
          refine k4 x (List.mem_filter.2 ⟨hx, ?_⟩) hxr
          have : x ≠ m := fun e => hxr (e ▸ hr)
          simpa using this
        · refine Or.inr ⟨k1, fun x hx => ?_⟩
          by_cases hxm : x = m
          · rw [hxm]; exact hr
          · exact k2 x (List.mem_filter.2 ⟨hx, by simpa using hxm⟩)
    · rw [if_neg hr]
      exact Or.inl ⟨m, rfl, hm, hr, fun x hx _ => hmax x hx⟩

theorem orbitNumbersOf_ok {orbitIs : Dict ω Nat} (rhs : List ω) (h : ∀ o ∈ rhs, o ∈ Dict.keys orbitIs) : ∀ s : List Nat, s.Nodup →
    ∃ os, forE (fun os o => match Dict.get orbitIs o with
      | none => .error .keyError
      | some n => .ok (sadd os n)) rhs s = (.ok os : Except Err (List Nat)) ∧ os.Nodup ∧
      ∀ n, n ∈ os ↔ n ∈ s ∨ ∃ o ∈ rhs, Dict.get orbitIs o = some n := by
  induction rhs with
  | nil => exact fun s hs => ⟨s, rfl, hs, by simp⟩
  | cons o rhs ih =>
    intro s hs
    obtain ⟨n, hn⟩ := Option.isSome_iff_exists.1 (Dict.mem_keys.1 (h o (by simp)))
    obtain ⟨os, h1, h2, h3⟩ := ih (fun x hx => h x (by simp [hx])) (sadd s n) (nodup_sadd hs n)
    refine ⟨os, ?_, h2, fun k => ?_⟩
    · rw [forE, hn]
      exact h1
    · rw [h3, mem_sadd]
      simp only [List.mem_cons, exists_eq_or_imp, hn, Option.some.injEq]
      constructor
      · rintro ((h | rfl) | h)
        · exact Or.inl h
        · exact Or.inr (Or.inl rfl)
        · exact Or.inr (Or.inr h)
      · rintro (h | h | h)
        · exact Or.inl (Or.inl h)
        · exact Or.inl (Or.inr h.symm)
        · exact Or.inr h

/-- `f` chooses for the equations, in turn, the orbit with the largest number that has not been chosen. -/
def Spec.Greedy (eqs : Dict κ (List ω)) (num : ω → Nat) (f : κ → ω) (inds : List κ) : Prop :=
  ∀ A e B, inds = A ++ e :: B → ∃ rhs, Dict.get eqs e = some rhs ∧ f e ∈ rhs ∧ (∀ a ∈ A, f a ≠ f e) ∧
    ∀ o ∈ rhs, (∀ a ∈ A, f a ≠ o) → num o ≤ num (f e)

section

variable {eqs : Dict κ (List ω)} {orbitIs : Dict ω Nat} {orbitList : List ω}

/-- What is assumed of the arguments: the equations have orbits, these have numbers, and the list of orbits is in the order of their
numbers. -/
structure OrbitArgs (eqs : Dict κ (List ω)) (orbitIs : Dict ω Nat) (orbitList : List ω) (inds : List κ) : Prop where
  rhs : ∀ e ∈ inds, ∃ rhs, Dict.get eqs e = some rhs ∧ rhs ≠ []
  num : ∀ e ∈ inds, ∀ rhs, Dict.get eqs e = some rhs → ∀ o ∈ rhs, ∃ n, Dict.get orbitIs o = some n ∧ orbitList[n]? = some o

/-- The number of an orbit. -/
def numOf (orbitIs : Dict ω Nat) (o : ω) : Nat := (Dict.get orbitIs o).getD 0

theorem redundants_loop (B : List κ) : ∀ (A : List κ) (f : κ → ω) (rs : List Nat), (A ++ B).Nodup →
    OrbitArgs eqs orbitIs orbitList (A ++ B) → Spec.Greedy eqs (numOf orbitIs) f A → rs = A.map (fun e => numOf orbitIs (f e)) →
    (∃ g rs', forE (addRedundant eqs orbitIs) B rs = .ok rs' ∧ rs' = (A ++ B).map (fun e => numOf orbitIs (g e)) ∧
      Spec.Greedy eqs (numOf orbitIs) g (A ++ B)) ∨
    (forE (addRedundant eqs orbitIs) B rs = .error .valueError ∧ ∃ C e D g rhs, A ++ B = C ++ e :: D ∧
      Spec.Greedy eqs (numOf orbitIs) g C ∧ Dict.get eqs e = some rhs ∧ ∀ o ∈ rhs, ∃ a ∈ C, g a = o) := by
  induction B with
  | nil =>
    intro A f rs _ _ hg hrs
    exact Or.inl ⟨f, rs, rfl, by simpa using hrs, by simpa using hg⟩
  | cons e B ih =>
    intro A f rs hnd ha hg hrs
    obtain ⟨rhs, h1, h2⟩ := ha.rhs e (by simp)
    have hnum := ha.num e (by simp) rhs h1
    obtain ⟨os, k1, k2, k3⟩ := orbitNumbersOf_ok (orbitIs := orbitIs) rhs (fun o ho => by
      obtain ⟨n, hn, -⟩ := hnum o ho
      exact Dict.mem_keys.2 (by rw [hn]; rfl)) [] List.nodup_nil
    have k1' : orbitNumbersOf orbitIs rhs = .ok os := k1
    have hos : ∀ n, n ∈ os ↔ ∃ o ∈ rhs, numOf orbitIs o = n := by
      intro n
      rw [k3]
      simp only [List.not_mem_nil, false_or]
      refine exists_congr fun o => and_congr_right fun ho => ?_
      obtain ⟨n', hn', -⟩ := hnum o ho
      simp [numOf, hn']
    have hne : os ≠ [] := by
      obtain ⟨o, ho⟩ := List.exists_mem_of_ne_nil _ h2
      exact List.ne_nil_of_mem ((hos _).2 ⟨o, ho, rfl⟩)
    obtain ⟨m, m1, m2, m3⟩ := maxE_ok hne
    have hfinj : ∀ a ∈ A, ∀ o ∈ rhs, numOf orbitIs (f a) = numOf orbitIs o → f a = o := by
      intro a haA o ho heq
      obtain ⟨A1, A2, hA⟩ := List.append_of_mem haA
      obtain ⟨rhs', g1, g2, -⟩ := hg A1 a A2 hA
      obtain ⟨n1, q1, q2⟩ := ha.num a (by simp [haA]) rhs' g1 (f a) g2
      obtain ⟨n2, q3, q4⟩ := hnum o ho
      simp only [numOf, q1, q3, Option.getD_some] at heq
      subst heq
      rw [q2] at q4
      exact Option.some.inj q4
    rcases freeMax_spec rs os.length os m (le_refl _) k2 m2 m3 with ⟨r, r1, r2, r3, r4⟩ | ⟨r1, r2⟩
    · obtain ⟨o, ho, hor⟩ := (hos r).1 r2
      have hadd : addRedundant eqs orbitIs rs e = .ok (rs ++ [r]) := by
        unfold addRedundant
        rw [h1]
        simp only
        rw [k1']
        simp only
        rw [m1]
        simp only
        rw [r1]
        simp only [sadd, r3, if_false]
      have heA : e ∉ A := by
        intro h
        exact (List.nodup_append.1 hnd).2.2 e h e (by simp) rfl
      let f' : κ → ω := fun x => if x = e then o else f x
      have hf' : ∀ a ∈ A, f' a = f a := fun a haA => if_neg (fun h : a = e => heA (h ▸ haA))
      have hfe : f' e = o := if_pos rfl
      have hgr : Spec.Greedy eqs (numOf orbitIs) f' (A ++ [e]) := by
        intro A1 e1 B1 hsplit
        rcases List.append_eq_append_iff.1 hsplit with ⟨C, c1, c2⟩ | ⟨C, c1, c2⟩
        · -- A1 = A ++ C
          cases C with
          | nil =>
            obtain ⟨rfl, -⟩ := List.cons.inj (by simpa using c2)
            rw [List.append_nil] at c1
            subst c1
            refine ⟨rhs, h1, by rw [hfe]; exact ho, ?_, ?_⟩
            · intro a haA
              rw [hfe, hf' a haA]
              intro h
              apply r3
              rw [hrs, ← hor, ← h]
              exact List.mem_map.2 ⟨a, haA, rfl⟩
            · intro o' ho' hno
              rw [hfe, hor]
              refine r4 _ ((hos _).2 ⟨o', ho', rfl⟩) ?_
              rw [hrs]
              intro hm
              obtain ⟨a, haA, hae⟩ := List.mem_map.1 hm
              have := hfinj a haA o' ho' hae
              exact hno a haA (by rw [hf' a haA]; exact this)
          | cons c C =>
            have := congrArg List.length c2
            simp at this
        · -- A = A1 ++ C
          cases C with
          | nil =>
            obtain ⟨rfl, -⟩ := List.cons.inj (by simpa using c2)
            rw [List.append_nil] at c1
            subst c1
            refine ⟨rhs, h1, by rw [hfe]; exact ho, ?_, ?_⟩
            · intro a haA
              rw [hfe, hf' a haA]
              intro h
              apply r3
              rw [hrs, ← hor, ← h]
              exact List.mem_map.2 ⟨a, haA, rfl⟩
            · intro o' ho' hno
              rw [hfe, hor]
              refine r4 _ ((hos _).2 ⟨o', ho', rfl⟩) ?_
              rw [hrs]
              intro hm
              obtain ⟨a, haA, hae⟩ := List.mem_map.1 hm
              have := hfinj a haA o' ho' hae
              exact hno a haA (by rw [hf' a haA]; exact this)
          | cons c C =>
            obtain ⟨rfl, -⟩ := List.cons.inj (by simpa using c2)
            obtain ⟨rhs', g1, g2, g3, g4⟩ := hg A1 _ C c1
            have hA1 : ∀ a ∈ A1, f' a = f a := fun a h => hf' a (by rw [c1]; simp [h])
            have he1 : f' e1 = f e1 := hf' e1 (by rw [c1]; simp)
            refine ⟨rhs', g1, by rw [he1]; exact g2, fun a h => by rw [hA1 a h, he1]; exact g3 a h, fun o' ho' hno => ?_⟩
            rw [he1]
            exact g4 o' ho' fun a h => by rw [← hA1 a h]; exact hno a h
      have hrs' : rs ++ [r] = (A ++ [e]).map (fun x => numOf orbitIs (f' x)) := by
        rw [List.map_append, hrs]
        congr 1
        · exact List.map_congr_left fun a haA => by rw [hf' a haA]
        · rw [List.map_cons, List.map_nil, hfe, hor]
      have := ih (A ++ [e]) f' (rs ++ [r]) (by simpa using hnd) (by simpa using ha) hgr hrs'
      rw [forE, hadd]
      simpa using this
    · refine Or.inr ⟨?_, A, e, B, f, rhs, rfl, hg, h1, ?_⟩
      · have hadd : addRedundant eqs orbitIs rs e = .error .valueError := by
          unfold addRedundant
          rw [h1]
          simp only
          rw [k1']
          simp only
          rw [m1]
          simp only
          rw [r1]
        rw [forE, hadd]
      · intro o ho
        have := r2 _ ((hos _).2 ⟨o, ho, rfl⟩)
        rw [hrs] at this
        obtain ⟨a, haA, hae⟩ := List.mem_map.1 this
        exact ⟨a, haA, hfinj a haA o ho hae⟩

/-- **C106.** `redundant_orbits(inds,eqs,orbit_is,orbit_list)`: the equations get, in the order of iteration, the orbit with the largest
number among those of their right side that no earlier equation got. The result has the text of each of these orbits: one for every
equation, all different. If all orbits of an equation are taken, `ValueError` is raised. -/
theorem C106_redundant {τ : Type} [Nonempty ω] (str : ω → τ) {ord : List Nat → List Nat} (hord : ∀ l, (ord l).Perm l) {inds : List κ} (hn : inds.Nodup)
    (ha : OrbitArgs eqs orbitIs orbitList inds) :
    (∃ f out, redundantOrbits str ord inds eqs orbitIs orbitList = .ok out ∧ Spec.Greedy eqs (numOf orbitIs) f inds ∧
      (∀ e ∈ inds, ∀ e' ∈ inds, f e = f e' → e = e') ∧ out.Perm (inds.map fun e => str (f e))) ∨
    (redundantOrbits str ord inds eqs orbitIs orbitList = .error .valueError ∧
      ∃ C e D f rhs, inds = C ++ e :: D ∧ Spec.Greedy eqs (numOf orbitIs) f C ∧ Dict.get eqs e = some rhs ∧ ∀ o ∈ rhs, ∃ a ∈ C, f a = o) := by
  by_cases hnil : inds = []
  · subst hnil
    have h0 : ord [] = [] := (hord []).eq_nil
    refine Or.inl ⟨fun _ => Classical.arbitrary ω, [], ?_, ?_, by simp, by simp⟩
    · unfold redundantOrbits
      rw [forE]
      simp only
      rw [h0]
      rfl
    · intro A e B h
      simp at h
  · obtain ⟨e0, he0⟩ := List.exists_mem_of_ne_nil _ hnil
    obtain ⟨rhs0, q1, q2⟩ := ha.rhs e0 he0
    obtain ⟨o0, -⟩ := List.exists_mem_of_ne_nil _ q2
    rcases redundants_loop inds [] (fun _ => o0) [] (by simpa using hn) (by simpa using ha) (by intro A e B h; simp at h) rfl with
      ⟨f, rs, h1, h2, h3⟩ | ⟨h1, h2⟩
    · rw [List.nil_append] at h2 h3
      have hinj : ∀ e ∈ inds, ∀ e' ∈ inds, f e = f e' → e = e' := by
        intro e he e' he' heq
        by_contra hne
        obtain ⟨A, B, hAB⟩ := List.append_of_mem he
        rw [hAB] at he'
        rcases List.mem_append.1 he' with h | h
        · obtain ⟨_, _, _, g, _⟩ := h3 A e B hAB
          exact g e' h heq.symm
        · rcases List.mem_cons.1 h with h | h
          · exact hne h.symm
          · obtain ⟨B1, B2, hB⟩ := List.append_of_mem h
            obtain ⟨_, _, _, g, _⟩ := h3 (A ++ e :: B1) e' B2 (by rw [hAB, hB]; simp)
            exact g e (by simp) heq
      have hlist : ∀ e ∈ inds, orbitList[numOf orbitIs (f e)]? = some (f e) := by
        intro e he
        obtain ⟨A, B, hAB⟩ := List.append_of_mem he
        obtain ⟨rhs, g1, g2, -⟩ := h3 A e B hAB
        obtain ⟨n, g3, g4⟩ := ha.num e he rhs g1 (f e) g2
        simp only [numOf, g3, Option.getD_some]
        exact g4
      have hout : ∀ (l : List Nat) (out : List τ), (∀ i ∈ l, ∃ o, orbitList[i]? = some o) →
          forE (fun out i => match orbitList[i]? with
            | none => .error .indexError
            | some o => .ok (out ++ [str o])) l out = (.ok (out ++ l.filterMap fun i => (orbitList[i]?).map str) : Except Err (List τ)) := by
        intro l
        induction l with
        | nil => intro out _; simp [forE]
        | cons i l ih =>
          intro out h
          obtain ⟨o, ho⟩ := h i (by simp)
          rw [forE, ho]
          simp only
          rw [ih _ fun j hj => h j (by simp [hj]), List.filterMap_cons, ho]
          simp
      refine Or.inl ⟨f, [] ++ (ord rs).filterMap fun i => (orbitList[i]?).map str, ?_, h3, hinj, ?_⟩
      · unfold redundantOrbits
        rw [h1]
        simp only
        refine hout (ord rs) [] ?_
        · intro i hi
          have hi' : i ∈ rs := (hord rs).mem_iff.1 hi
          rw [h2] at hi'
          obtain ⟨e, he, rfl⟩ := List.mem_map.1 hi'
          exact ⟨_, hlist e he⟩
      · rw [List.nil_append]
        refine ((hord rs).filterMap _).trans ?_
        rw [h2, List.filterMap_map]
        have : ∀ l : List κ, (∀ e ∈ l, e ∈ inds) → l.filterMap ((fun i => (orbitList[i]?).map str) ∘ fun e => numOf orbitIs (f e)) =
            l.map fun e => str (f e) := by
          intro l
          induction l with
          | nil => intro _; rfl
          | cons e l ih =>
            intro h
            rw [List.filterMap_cons]
            have hx := ih fun x hx => h x (by simp [hx])
            simp only [Function.comp_apply, hlist e (h e (by simp)), Option.map_some, List.map_cons, List.cons.injEq, true_and]
            exact hx
        rw [this inds fun _ h => h]
    · refine Or.inr ⟨?_, ?_⟩
      · unfold redundantOrbits
        rw [h1]
      · simpa using h2

end

/-- **C106 is false of the code** if the result should not depend on the order in which the set of equations is iterated: in one order there is
an orbit for every equation, in the other the same call raises `ValueError`. -/
theorem C106_false_order :
    redundantOrbits id id [2, 1] [(1, ["a", "b"]), (2, ["b"])] [("a", 0), ("b", 1)] ["a", "b"] = .ok ["b", "a"] ∧
    redundantOrbits id id [1, 2] [(1, ["a", "b"]), (2, ["b"])] [("a", 0), ("b", 1)] ["a", "b"] = .error .valueError := by decide +kernel

example : OrbitArgs [(1, ["a", "b"]), (2, ["b"])] [("a", 0), ("b", 1)] ["a", "b"] [1, 2] := by
  constructor
  · intro e he
    simp at he
    rcases he with rfl | rfl
    · exact ⟨["a", "b"], rfl, by simp⟩
    · exact ⟨["b"], rfl, by simp⟩
  · intro e he rhs h o ho
    simp at he
    rcases he with rfl | rfl
    · obtain rfl := Option.some.inj h
      simp at ho
      rcases ho with rfl | rfl
      · exact ⟨0, by decide +kernel, rfl⟩
      · exact ⟨1, by decide +kernel, rfl⟩
    · obtain rfl := Option.some.inj h
      simp at ho
      subst ho
      exact ⟨1, by decide +kernel, rfl⟩

end Pymnet
