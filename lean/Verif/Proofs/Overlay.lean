import Verif.Proofs.Aggregate
import Mathlib.Order.Defs.LinearOrder
import Mathlib.Algebra.BigOperators.Group.Finset.Piecewise

/-! `overlay_network` on a sound dispatch table. -/

set_option linter.unusedSectionVars false
set_option linter.unusedSimpArgs false

namespace Pymnet

open Py

theorem forE_append {σ β : Type} (f : σ → β → Except Err σ) (l l' : List β) (s : σ) :
    forE f (l ++ l') s = match forE f l s with
      | .error e => .error e
      | .ok s => forE f l' s := by
  induction l generalizing s with
  | nil => rfl
  | cons b l ih =>
    simp only [List.cons_append, forE]
    cases f s b with
    | error e => rfl
    | ok s => exact ih s

/-- Nested loops are one loop over the pairs. -/
theorem forE_nested {σ β γ : Type} (f : β → σ → γ → Except Err σ) (L : β → List γ) (l : List β) (s : σ) :
    forE (fun s x => forE (f x) (L x) s) l s = forE (fun s p => f p.1 s p.2) (l.flatMap fun x => (L x).map (Prod.mk x)) s := by
  induction l generalizing s with
  | nil => rfl
  | cons b l ih =>
    have hm : ∀ s, forE (fun s (p : β × γ) => f p.1 s p.2) ((L b).map (Prod.mk b)) s = forE (f b) (L b) s := by
      intro s
      generalize L b = k
      induction k generalizing s with
      | nil => rfl
      | cons c k ih =>
        simp only [List.map_cons, forE]
        cases f b s c with
        | error e => rfl
        | ok s => exact ih s
    rw [List.flatMap_cons, forE_append, hm]
    simp only [forE]
    cases forE (f b) (L b) s with
    | error e => rfl
    | ok s => exact ih s

theorem sum_flatMap_map {β γ M : Type} [AddCommMonoid M] (l : List β) (g : β → List γ) (f : γ → M) :
    ((l.flatMap g).map f).sum = (l.map fun x => ((g x).map f).sum).sum := by
  induction l with
  | nil => rfl
  | cons b l ih => rw [List.flatMap_cons, List.map_append, List.sum_append, ih]; rfl

variable {α W : Type} [DecidableEq α] [DecidableEq W]

theorem Built.congr' {m : MNet α W} {d : Nat} {z : W} {dir al : Bool} {S S' : Nat → α → Prop} {NL : List α → Prop}
    {R R' : List α → List α → W} (h : Built m d z dir al S NL R) (hS : ∀ k x, S k x ↔ S' k x)
    (hR : ∀ a b, R a b = R' a b) : Built m d z dir al S' NL R' := h.congr hS (fun _ => Iff.rfl) hR

variable [LinearOrder α] [AddCommMonoid W]

/-- the pair `i, j` in layer `s` contributes to the link `a, b` of the overlay network -/
def OContributes (dir : Bool) (a b : List α) (t : α × α × α) : Prop :=
  (dir = true ∨ t.2.2 < t.2.1) ∧ ((a = [t.2.1] ∧ b = [t.2.2]) ∨ (a = [t.2.2] ∧ b = [t.2.1]))

instance (dir : Bool) (a b : List α) : DecidablePred (OContributes dir a b) :=
  fun p => by unfold OContributes; infer_instance

def ocontrib (dir : Bool) (R : List α → List α → W) (ts : List (α × α × α)) (a b : List α) : W :=
  (ts.map fun t => if OContributes dir a b t then R [t.2.1, t.1] [t.2.2, t.1] else 0).sum

theorem ocontrib_symm (dir : Bool) (R : List α → List α → W) (ts : List (α × α × α)) (a b : List α) :
    ocontrib dir R ts a b = ocontrib dir R ts b a := by
  unfold ocontrib
  congr 1
  apply List.map_congr_left
  intro t _
  have : OContributes dir a b t ↔ OContributes dir b a t := by
    unfold OContributes
    refine and_congr_right fun _ => ?_
    rw [and_comm (a := b = _), and_comm (a := b = _), or_comm]
  by_cases hc : OContributes dir a b t
  · rw [if_pos hc, if_pos (this.1 hc)]
  · rw [if_neg hc, if_neg (fun h => hc (this.2 h))]

/-- the triples visited by the loops -/
def overlayTriples (v : View α W) : List (α × α × α) :=
  (v.slices.getD 1 []).flatMap fun s => ((v.slices.headD []).flatMap fun i =>
    (v.slices.headD []).map (Prod.mk i)).map (Prod.mk s)

theorem mem_overlayTriples {v : View α W} {t : α × α × α} : t ∈ overlayTriples v ↔
    t.1 ∈ v.slices.getD 1 [] ∧ t.2.1 ∈ v.slices.headD [] ∧ t.2.2 ∈ v.slices.headD [] := by
  unfold overlayTriples
  obtain ⟨s, i, j⟩ := t
  simp only [List.mem_flatMap, List.mem_map, Prod.mk.injEq]
  constructor
  · rintro ⟨s', hs, p, ⟨i', hi, j', hj, rfl⟩, rfl, e⟩
    simp only [Prod.mk.injEq] at e
    obtain ⟨rfl, rfl⟩ := e
    exact ⟨hs, hi, hj⟩
  · rintro ⟨hs, hi, hj⟩
    exact ⟨s, hs, (i, j), ⟨i, hi, j, hj, rfl⟩, rfl, rfl⟩

theorem overlay_loops {v : View α W} {R : List α → List α → W} (h1 : v.aspects = 1)
    (hread : ∀ s ∈ v.slices.getD 1 [], ∀ i ∈ v.slices.headD [], ∀ j ∈ v.slices.headD [],
      (v.directed = true ∨ j < i) → v.readItem [i, j, s, s] = .ok (.weight (R [i, s] [j, s])))
    (hself : v.directed = true → ∀ s ∈ v.slices.getD 1 [], ∀ i ∈ v.slices.headD [], R [i, s] [i, s] = 0) :
    ∃ m', v.overlay = .ok m' ∧
      Built m' 0 0 false true
        (fun k x => ∃ t ∈ overlayTriples v, (v.directed = true ∨ t.2.2 < t.2.1) ∧ ([t.2.1][k]? = some x ∨ [t.2.2][k]? = some x))
        (fun _ => True) (ocontrib v.directed R (overlayTriples v)) := by
  have hfl : v.overlay = forE (fun (m : MNet α W) (t : α × α × α) => overlayPair v t.1 t.2.1 m t.2.2) (overlayTriples v)
      (MNet.init 0 0 false true) := by
    unfold View.overlay
    rw [if_neg (by omega)]
    simp only [forE_nested]
    rfl
  rw [hfl]
  refine forE_ok (P := fun pre m' => Built m' 0 0 false true
    (fun k x => ∃ t ∈ pre, (v.directed = true ∨ t.2.2 < t.2.1) ∧ ([t.2.1][k]? = some x ∨ [t.2.2][k]? = some x))
    (fun _ => True) (ocontrib v.directed R pre)) _ (Built.anyNL ((Built.init (α := α) 0 (0 : W) false true).congr'
      (by simp) (by simp [ocontrib]))) ?_
  rintro pre ⟨s, i, j⟩ post m1 hpre hm
  have hmem : (s, i, j) ∈ overlayTriples v := by rw [hpre]; simp
  rw [mem_overlayTriples] at hmem
  obtain ⟨hs, hi, hj⟩ := hmem
  have zero_self : v.directed = true → ∀ x, ocontrib v.directed R pre [x] [x] = 0 := by
    intro hd x
    unfold ocontrib
    apply List.sum_eq_zero
    intro y hy
    obtain ⟨t, ht, rfl⟩ := List.mem_map.1 hy
    split
    · rename_i hc
      have htm : t ∈ overlayTriples v := by rw [hpre]; simp [ht]
      rw [mem_overlayTriples] at htm
      have e : t.2.1 = t.2.2 := by
        rcases hc.2 with ⟨h1, h2⟩ | ⟨h1, h2⟩ <;> · simp at h1 h2; rw [← h1, ← h2]
      rw [← e]; exact hself hd _ htm.1 _ htm.2.1
    · rfl
  unfold overlayPair
  by_cases hc : v.directed = true ∨ j < i
  · have hadr : Spec.Addresses 0 [i, j] [i] [j] := ⟨rfl, rfl, Or.inl rfl⟩
    obtain ⟨m2, e2, h2⟩ := hm.setItem hadr (ocontrib v.directed R pre [i] [j] + R [i, s] [j, s]) (by
      intro _ hij _
      have hij' : i = j := by simpa using hij
      subst hij'
      rcases hc with hc | hc
      · exact zero_self hc i
      · exact absurd hc (lt_irrefl _))
    refine ⟨m2, ?_, (Built.anyNL h2).congr' (fun k x => ?_) (fun a b => ?_)⟩
    · simp only [if_pos hc, hm.readItem hadr, Item.num, hread s hs i hi j hj hc]
      exact e2
    · rw [exists_mem_snoc]
      refine or_congr_right ?_
      exact (and_iff_right (by exact hc)).symm
    · have hC : OContributes v.directed a b (s, i, j) ↔ ((a = [i] ∧ b = [j]) ∨ (false = false ∧ a = [j] ∧ b = [i])) := by
        unfold OContributes
        rw [and_iff_right (by exact hc), and_iff_right (a := false = false) rfl]
      have expand : ocontrib v.directed R (pre ++ [(s, i, j)]) a b =
          ocontrib v.directed R pre a b + if OContributes v.directed a b (s, i, j) then R [i, s] [j, s] else 0 := by
        simp [ocontrib]
      rw [expand]
      by_cases hab : (a = [i] ∧ b = [j]) ∨ (false = false ∧ a = [j] ∧ b = [i])
      · rw [if_pos hab, if_pos (hC.2 hab)]
        rcases hab with ⟨rfl, rfl⟩ | ⟨-, rfl, rfl⟩
        · rfl
        · rw [ocontrib_symm]
      · rw [if_neg hab, if_neg (fun h => hab (hC.1 h)), add_zero]
  · refine ⟨m1, by simp only [if_neg hc], hm.congr' (fun k x => ?_) (fun a b => ?_)⟩
    · rw [exists_mem_snoc]
      exact (or_iff_left fun h => hc h.1).symm
    · have hC : ¬ OContributes v.directed a b (s, i, j) := fun h => hc h.1
      simp [ocontrib, hC]

theorem ocontrib_eq {v : View α W} {R : List α → List α → W} (hn : ∀ s ∈ v.slices, s.Nodup) (hl : v.slices.length = 2)
    (hsym : v.directed = false → ∀ s ∈ v.slices.getD 1 [], ∀ i ∈ v.slices.headD [], ∀ j ∈ v.slices.headD [],
      R [i, s] [j, s] = R [j, s] [i, s])
    {x y : α} (hx : x ∈ v.slices.headD []) (hy : y ∈ v.slices.headD []) (hxy : x ≠ y) :
    ocontrib v.directed R (overlayTriples v) [x] [y] =
      ((v.slices.getD 1 []).map fun s => R [x, s] [y, s] + if v.directed = true then R [y, s] [x, s] else 0).sum := by
  have n0 : (v.slices.headD []).Nodup := by
    match h : v.slices, hl with
    | [a, b], _ => exact hn a (by rw [h]; simp)
  unfold ocontrib overlayTriples
  rw [sum_flatMap_map]
  congr 1
  apply List.map_congr_left
  intro s hs
  rw [List.map_map, sum_flatMap_map]
  simp only [List.map_map, Function.comp_def]
  rw [← List.sum_toFinset _ n0]
  set N := (v.slices.headD []).toFinset with hN
  have hxN : x ∈ N := by simpa [N] using hx
  have hyN : y ∈ N := by simpa [N] using hy
  have e1 : ∀ i ∈ N, ((v.slices.headD []).map fun j =>
      if OContributes v.directed [x] [y] (s, i, j) then R [i, s] [j, s] else 0).sum =
      (if i = x then (if v.directed = true ∨ y < x then R [x, s] [y, s] else 0) else 0) +
      (if i = y then (if v.directed = true ∨ x < y then R [y, s] [x, s] else 0) else 0) := by
    intro i _
    rw [← List.sum_toFinset _ n0]
    have e2 : ∀ j ∈ N, (if OContributes v.directed [x] [y] (s, i, j) then R [i, s] [j, s] else 0) =
        (if j = y then (if i = x then (if v.directed = true ∨ y < x then R [x, s] [y, s] else 0) else 0) else 0) +
        (if j = x then (if i = y then (if v.directed = true ∨ x < y then R [y, s] [x, s] else 0) else 0) else 0) := by
      intro j _
      by_cases hjy : j = y
      · subst hjy
        by_cases hix : i = x
        · subst hix
          have : OContributes v.directed [i] [j] (s, i, j) ↔ (v.directed = true ∨ j < i) := by
            simp [OContributes]
          simp only [this, if_true, hxy.symm, if_false, add_zero]
        · have : ¬ OContributes v.directed [x] [j] (s, i, j) := by
            simp only [OContributes, not_and, not_or]
            intro _
            simp [Ne.symm hix, hxy]
          simp [this, hix, hxy.symm]
      · by_cases hjx : j = x
        · subst hjx
          by_cases hiy : i = y
          · subst hiy
            have : OContributes v.directed [j] [i] (s, i, j) ↔ (v.directed = true ∨ j < i) := by
              simp [OContributes]
            simp only [this, if_true, hxy, if_false, zero_add]
          · have : ¬ OContributes v.directed [j] [y] (s, i, j) := by
              simp only [OContributes, not_and, not_or]
              intro _
              simp [Ne.symm hiy, hxy, hxy.symm]
            simp [this, hiy, hxy]
        · have : ¬ OContributes v.directed [x] [y] (s, i, j) := by
            simp only [OContributes, not_and, not_or]
            intro _
            simp [Ne.symm hjy, Ne.symm hjx]
          simp [this, hjy, hjx]
    rw [Finset.sum_congr rfl e2, Finset.sum_add_distrib, Finset.sum_ite_eq' N y, Finset.sum_ite_eq' N x,
      if_pos hyN, if_pos hxN]
  rw [Finset.sum_congr rfl e1, Finset.sum_add_distrib, Finset.sum_ite_eq' N x, Finset.sum_ite_eq' N y,
      if_pos hyN, if_pos hxN]
  cases hd : v.directed with
  | true => simp
  | false =>
    rcases lt_or_gt_of_ne hxy with hlt | hlt
    · simp [hlt, not_lt_of_gt hlt, hsym hd s hs x hx y hy]
    · simp [hlt, not_lt_of_gt hlt]

end Pymnet
