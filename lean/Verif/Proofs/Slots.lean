import Verif.Model.Conf
import Mathlib.Tactic.Linarith

/-! Pairs of stubs: how often a pair occurs, the degrees, and what an exchange of pairs does. -/

set_option linter.unusedSectionVars false

namespace Pymnet

open Py Models

section srt
variable {α : Type} [LinearOrder α]

theorem srt_comm (a b : α) : srt a b = srt b a := by
  unfold srt
  rcases lt_trichotomy a b with h | h | h
  · rw [if_neg (not_lt.2 h.le), if_pos h]
  · subst h; rfl
  · rw [if_pos h, if_neg (not_lt.2 h.le)]

theorem srt_cases (a b : α) : srt a b = (a, b) ∨ srt a b = (b, a) := by
  unfold srt; split <;> simp

theorem srt_eq_iff {a b c d : α} : srt a b = srt c d ↔ (a = c ∧ b = d) ∨ (a = d ∧ b = c) := by
  constructor
  · intro h
    rcases srt_cases a b with h1 | h1 <;> rcases srt_cases c d with h2 | h2 <;> rw [h1, h2] at h <;>
      simp only [Prod.mk.injEq] at h <;> tauto
  · rintro (⟨rfl, rfl⟩ | ⟨rfl, rfl⟩)
    · rfl
    · exact srt_comm _ _

theorem srt_diag {a b : α} : (srt a b).1 = (srt a b).2 ↔ a = b := by
  rcases srt_cases a b with h | h <;> rw [h]
  exact eq_comm

@[simp] theorem srt_self (a : α) : srt a a = (a, a) := by simp [srt]

@[simp] theorem srt_idem (a b : α) : srt (srt a b).1 (srt a b).2 = srt a b := by
  rcases srt_cases a b with h | h <;> rw [h]
  · exact h
  · exact (srt_comm b a).trans h

end srt

variable {α : Type} [DecidableEq α] [LinearOrder α]

/-- the sorted pair -/
def key (p : α × α) : α × α := srt p.1 p.2

theorem key_key (p : α × α) : key (key p) = key p := srt_idem _ _

theorem key_srt (a b : α) : key (srt a b) = srt a b := srt_idem _ _

/-- sum over the pairs -/
def wsum (f : α × α → Nat) (l : List (α × α)) : Nat := (l.map f).sum

theorem wsum_set (f : α × α → Nat) (x p : α × α) : ∀ (l : List (α × α)) (i : Nat), l[i]? = some p →
    wsum f (l.set i x) + f p = wsum f l + f x
  | [], i, h => by simp at h
  | a :: l, 0, h => by
    simp only [List.getElem?_cons_zero, Option.some.injEq] at h
    subst h
    simp only [wsum, List.set_cons_zero, List.map_cons, List.sum_cons]; omega
  | a :: l, i + 1, h => by
    have := wsum_set f x p l i (by simpa using h)
    simp only [wsum, List.set_cons_succ, List.map_cons, List.sum_cons] at *; omega

/-- An exchange: positions, old and new pairs. -/
abbrev Exch (α : Type) := Nat × (α × α) × (α × α)

/-- the list after the exchanges -/
def setAll (l : List (α × α)) (us : List (Exch α)) : List (α × α) := us.foldl (fun l u => l.set u.1 u.2.2) l

theorem length_setAll (us : List (Exch α)) : ∀ l : List (α × α), (setAll l us).length = l.length := by
  induction us with
  | nil => intro l; rfl
  | cons u us ih => intro l; rw [setAll, List.foldl_cons]; exact (ih _).trans (List.length_set ..)

theorem setAll_get_ne (us : List (Exch α)) {s : Nat} (hs : s ∉ us.map Prod.fst) :
    ∀ l : List (α × α), (setAll l us)[s]? = l[s]? := by
  induction us with
  | nil => intro l; rfl
  | cons u us ih =>
    intro l
    simp only [List.map_cons, List.mem_cons, not_or] at hs
    rw [setAll, List.foldl_cons]
    exact (ih hs.2 _).trans (List.getElem?_set_ne (fun h => hs.1 h.symm))

theorem setAll_get (us : List (Exch α)) (hn : (us.map Prod.fst).Nodup) : ∀ l : List (α × α),
    (∀ u ∈ us, u.1 < l.length) → ∀ u ∈ us, (setAll l us)[u.1]? = some u.2.2 := by
  induction us with
  | nil => intro l _ u hu; cases hu
  | cons v us ih =>
    intro l hl u hu
    simp only [List.map_cons, List.nodup_cons] at hn
    rw [setAll, List.foldl_cons]
    rcases List.mem_cons.1 hu with rfl | hu
    · refine (setAll_get_ne us hn.1 _).trans ?_
      rw [List.getElem?_set_self]
      exact hl u (by simp)
    · exact ih hn.2 _ (fun u hu => by rw [List.length_set]; exact hl u (by simp [hu])) u hu

theorem wsum_setAll (f : α × α → Nat) (us : List (Exch α)) (hn : (us.map Prod.fst).Nodup) : ∀ l : List (α × α),
    (∀ u ∈ us, l[u.1]? = some u.2.1) →
    wsum f (setAll l us) + (us.map fun u => f u.2.1).sum = wsum f l + (us.map fun u => f u.2.2).sum := by
  induction us with
  | nil => intro l _; rfl
  | cons v us ih =>
    intro l hl
    simp only [List.map_cons, List.nodup_cons] at hn
    have h1 := wsum_set f v.2.2 v.2.1 l v.1 (hl v (by simp))
    have h2 := ih hn.2 (l.set v.1 v.2.2) (fun u hu => by
      rw [List.getElem?_set_ne]
      · exact hl u (by simp [hu])
      · rintro h; exact hn.1 (h ▸ List.mem_map_of_mem hu))
    have e : setAll l (v :: us) = setAll (l.set v.1 v.2.2) us := rfl
    rw [e]
    simp only [List.map_cons, List.sum_cons]
    omega

/-- how often the pair `q` occurs -/
def cnt (q : α × α) (l : List (α × α)) : Nat := wsum (fun p => if key p = q then 1 else 0) l

theorem cnt_pos {q : α × α} {l : List (α × α)} : 0 < cnt q l ↔ ∃ p ∈ l, key p = q := by
  induction l with
  | nil => simp [cnt, wsum]
  | cons a l ih =>
    simp only [cnt, wsum, List.map_cons, List.sum_cons, List.mem_cons, exists_eq_or_imp] at *
    rw [← ih]
    split <;> simp [*]

/-- number of ends of the pair at `a` -/
def endsAt (a : α) (p : α × α) : Nat := (if p.1 = a then 1 else 0) + (if p.2 = a then 1 else 0)

theorem endsAt_srt (x a b : α) : endsAt x (srt a b) = endsAt x (a, b) := by
  rcases srt_cases a b with h | h <;> rw [h]
  simp only [endsAt]; omega

/-- The pairs of stubs and the links of the network during the repairs. `lk` says which (sorted) pairs are linked. `U0` are
pairs that must not be linked, `pend` those that may occur several times. -/
structure Slots (stubs : List α) (U0 pend : α × α → Prop) (pairs : List (α × α)) (lk : α × α → Prop) : Prop where
  deg : ∀ a, wsum (endsAt a) pairs = stubs.count a
  lk : ∀ q, lk q ↔ q.1 ≠ q.2 ∧ ¬ U0 q ∧ 0 < cnt q pairs
  one : ∀ q, q.1 ≠ q.2 → ¬ U0 q → ¬ pend q → cnt q pairs ≤ 1

/-- how often the pair `q` is among the old pairs -/
def cntOld (q : α × α) (us : List (Exch α)) : Nat := (us.map fun u => if key u.2.1 = q then 1 else 0).sum

theorem sum_le_wsum : ∀ (f : α × α → Nat) (l : List (α × α)) (us : List (Exch α)), (us.map Prod.fst).Nodup →
    (∀ u ∈ us, l[u.1]? = some u.2.1) → (us.map fun u => f u.2.1).sum ≤ wsum f l := by
  intro f l
  induction l with
  | nil =>
    intro us _ h
    cases us with
    | nil => simp
    | cons u us => simpa using h u (by simp)
  | cons a l ihl =>
    intro us hn h
    -- split off the positions 0
    let us0 := us.filter fun u => u.1 = 0
    let us1 := (us.filter fun u => ¬ u.1 = 0).map fun u => (u.1 - 1, u.2)
    have hs : (us.map fun u => f u.2.1).sum = (us0.map fun u => f u.2.1).sum + (us1.map fun u => f u.2.1).sum := by
      have : ∀ us : List (Exch α), (us.map fun u => f u.2.1).sum =
          ((us.filter fun u => u.1 = 0).map fun u => f u.2.1).sum +
            (((us.filter fun u => ¬ u.1 = 0).map fun u => (u.1 - 1, u.2)).map fun u => f u.2.1).sum := by
        intro us
        induction us with
        | nil => simp
        | cons u us ih =>
          simp only [List.map_cons, List.sum_cons, ih]
          by_cases h0 : u.1 = 0 <;> simp [h0] <;> omega
      exact this us
    have h1 : (us1.map fun u => f u.2.1).sum ≤ wsum f l := by
      apply ihl
      · simp only [us1, List.map_map]
        have : ((us.filter fun u => ¬ u.1 = 0).map Prod.fst).Nodup :=
          hn.sublist (List.filter_sublist.map _)
        rw [show (Prod.fst ∘ fun u : Exch α => (u.1 - 1, u.2)) = (fun n => n - 1) ∘ Prod.fst from rfl, ← List.map_map]
        refine List.Nodup.map_on ?_ this
        intro x hx y hy hxy
        simp only [List.mem_map, List.mem_filter, decide_eq_true_eq] at hx hy
        obtain ⟨u, ⟨-, hu⟩, rfl⟩ := hx
        obtain ⟨v, ⟨-, hv⟩, rfl⟩ := hy
        omega
      · intro u hu
        simp only [us1, List.mem_map, List.mem_filter, decide_eq_true_eq] at hu
        obtain ⟨u, ⟨hu, h0⟩, rfl⟩ := hu
        have := h u hu
        obtain ⟨k, hk⟩ := Nat.exists_eq_succ_of_ne_zero h0
        rw [hk] at this
        simpa [hk] using this
    have h0 : (us0.map fun u => f u.2.1).sum ≤ f a := by
      have hn0 : (us0.map Prod.fst).Nodup := hn.sublist (List.filter_sublist.map _)
      match h0 : us0, hn0 with
      | [], _ => simp
      | [u], _ =>
        have hu : u ∈ us0 := by rw [h0]; simp
        simp only [us0, List.mem_filter, decide_eq_true_eq] at hu
        have := h u hu.1
        rw [hu.2] at this
        simp only [List.getElem?_cons_zero, Option.some.injEq] at this
        simp [this]
      | u :: v :: t, hn0 =>
        have hu : u ∈ us0 := by rw [h0]; simp
        have hv : v ∈ us0 := by rw [h0]; simp
        simp only [us0, List.mem_filter, decide_eq_true_eq] at hu hv
        simp [hu.2, hv.2] at hn0
    rw [hs]
    simp only [wsum, List.map_cons, List.sum_cons] at h1 ⊢
    omega

theorem cntOld_le {q : α × α} {us : List (Exch α)} (hn : (us.map Prod.fst).Nodup) {l : List (α × α)}
    (h : ∀ u ∈ us, l[u.1]? = some u.2.1) : cntOld q us ≤ cnt q l :=
  sum_le_wsum (fun p => if key p = q then 1 else 0) l us hn h

/-- **Exchange.** The new pairs are distinct, allowed and not linked; `D` are the old pairs that vanish. -/
theorem Slots.swap {stubs : List α} {U0 pend pend' : α × α → Prop} {pairs : List (α × α)} {lk : α × α → Prop}
    (h : Slots stubs U0 pend pairs lk) (us : List (Exch α)) (hpos : (us.map Prod.fst).Nodup)
    (hold : ∀ u ∈ us, pairs[u.1]? = some u.2.1)
    (hdeg : ∀ a, (us.map fun u => endsAt a u.2.1).sum = (us.map fun u => endsAt a u.2.2).sum)
    {D N : List (α × α)} (hNe : N = us.map fun u => key u.2.2) (hN : N.Nodup)
    (hN1 : ∀ q ∈ N, q.1 ≠ q.2 ∧ ¬ U0 q ∧ ¬ lk q)
    (hD : ∀ q, q.1 ≠ q.2 → ¬ U0 q → (q ∈ D ↔ 0 < cntOld q us ∧ cnt q pairs = cntOld q us))
    (hpend : ∀ q, q.1 ≠ q.2 → ¬ U0 q → ¬ pend' q → pend q → cnt q pairs ≤ cntOld q us + 1) :
    Slots stubs U0 pend' (setAll pairs us) (fun q => (lk q ∧ q ∉ D) ∨ q ∈ N) := by
  have hc : ∀ q, cnt q (setAll pairs us) + cntOld q us = cnt q pairs + N.count q := by
    intro q
    have := wsum_setAll (fun p => if key p = q then 1 else 0) us hpos pairs hold
    have e : (us.map fun u => if key u.2.2 = q then 1 else 0).sum = N.count q := by
      rw [hNe]
      clear * -
      induction us with
      | nil => rfl
      | cons u us ih =>
        simp only [List.map_cons, List.sum_cons, List.count_cons, ih]
        by_cases hq : key u.2.2 = q <;> simp [hq] ; omega
    rw [e] at this
    exact this
  have hle : ∀ q, cntOld q us ≤ cnt q pairs := fun q => cntOld_le hpos hold
  have hNc : ∀ q ∈ N, N.count q = 1 ∧ cnt q pairs = 0 := by
    intro q hq
    obtain ⟨h1, h2, h3⟩ := hN1 q hq
    refine ⟨List.count_eq_one_of_mem hN hq, ?_⟩
    rw [h.lk] at h3
    by_contra h0
    exact h3 ⟨h1, h2, Nat.pos_of_ne_zero h0⟩
  refine ⟨fun a => ?_, fun q => ?_, fun q h1 h2 h3 => ?_⟩
  · have := wsum_setAll (endsAt a) us hpos pairs hold
    rw [hdeg a, h.deg] at this
    omega
  · have hq := hc q
    by_cases hqN : q ∈ N
    · obtain ⟨n1, n2⟩ := hNc q hqN
      obtain ⟨h1, h2, -⟩ := hN1 q hqN
      have := hle q
      constructor
      · intro _; exact ⟨h1, h2, by omega⟩
      · intro _; exact .inr hqN
    · rw [List.count_eq_zero_of_not_mem hqN] at hq
      constructor
      · rintro (⟨h1, h2⟩ | h1)
        · rw [h.lk] at h1
          refine ⟨h1.1, h1.2.1, ?_⟩
          rw [hD q h1.1 h1.2.1] at h2
          have := hle q
          by_contra h0
          exact h2 ⟨by omega, by omega⟩
        · exact absurd h1 hqN
      · rintro ⟨h1, h2, h3⟩
        left
        rw [h.lk, hD q h1 h2]
        exact ⟨⟨h1, h2, by omega⟩, by omega⟩
  · have hq := hc q
    by_cases hqN : q ∈ N
    · obtain ⟨n1, n2⟩ := hNc q hqN
      omega
    · rw [List.count_eq_zero_of_not_mem hqN] at hq
      by_cases hp : pend q
      · have := hpend q h1 h2 h3 hp; omega
      · have := h.one q h1 h2 hp; omega

/-- The list holds the positions of the pair `k`. -/
def Tracks (pairs : List (α × α)) (k : α × α) (is : List Nat) : Prop :=
  is.Nodup ∧ ∀ s, s ∈ is ↔ ∃ p, pairs[s]? = some p ∧ key p = k

theorem Tracks.swap {pairs : List (α × α)} {k : α × α} {is is' : List Nat} (h : Tracks pairs k is)
    (us : List (Exch α)) (hpos : (us.map Prod.fst).Nodup) (hold : ∀ u ∈ us, pairs[u.1]? = some u.2.1)
    (hk : ∀ u ∈ us, key u.2.2 ≠ k) (hn : is'.Nodup) (his : ∀ s, s ∈ is' ↔ s ∈ is ∧ s ∉ us.map Prod.fst) :
    Tracks (setAll pairs us) k is' := by
  refine ⟨hn, fun s => ?_⟩
  rw [his, h.2]
  by_cases hs : s ∈ us.map Prod.fst
  · simp only [hs, not_true, and_false, false_iff]
    rintro ⟨p, hp, hpk⟩
    obtain ⟨u, hu, rfl⟩ := List.mem_map.1 hs
    rw [setAll_get us hpos pairs (fun u hu => by
      have := hold u hu
      exact (List.getElem?_eq_some_iff.1 this).1) u hu] at hp
    cases hp
    exact hk u hu hpk
  · rw [setAll_get_ne us hs]
    simp [hs]

/-- positions of a pair that takes no part in the exchange -/
theorem Tracks.keep {pairs : List (α × α)} {k : α × α} {is : List Nat} (h : Tracks pairs k is)
    (us : List (Exch α)) (hpos : (us.map Prod.fst).Nodup) (hold : ∀ u ∈ us, pairs[u.1]? = some u.2.1)
    (hk : ∀ u ∈ us, key u.2.2 ≠ k) (hk0 : ∀ u ∈ us, key u.2.1 ≠ k) : Tracks (setAll pairs us) k is := by
  refine h.swap us hpos hold hk h.1 (fun s => ⟨fun hs => ⟨hs, ?_⟩, And.left⟩)
  intro hm
  obtain ⟨u, hu, rfl⟩ := List.mem_map.1 hm
  obtain ⟨p, hp, hpk⟩ := (h.2 _).1 hs
  rw [hold u hu] at hp
  cases hp
  exact hk0 u hu hpk

theorem Tracks.cnt {pairs : List (α × α)} {k : α × α} {is : List Nat} (h : Tracks pairs k is) :
    cnt k pairs = is.length := by
  obtain ⟨hn, hm⟩ := h
  have h1 : is.Perm ((List.range pairs.length).filter fun s => ∃ p, pairs[s]? = some p ∧ key p = k) := by
    refine (List.perm_ext_iff_of_nodup hn (List.nodup_range.filter _)).2 fun s => ?_
    rw [hm]
    simp only [List.mem_filter, List.mem_range, decide_eq_true_eq]
    exact ⟨fun ⟨p, hp, hk⟩ => ⟨(List.getElem?_eq_some_iff.1 hp).1, p, hp, hk⟩, And.right⟩
  rw [h1.length_eq]
  clear hn hm h1
  unfold Pymnet.cnt wsum
  induction pairs with
  | nil => simp
  | cons a l ih =>
    rw [List.length_cons, List.range_succ_eq_map, List.filter_cons, List.filter_map]
    simp only [List.map_cons, List.sum_cons, ih]
    by_cases ha : key a = k
    · simp [ha, Function.comp_def]; omega
    · simp [ha, Function.comp_def]

end Pymnet
