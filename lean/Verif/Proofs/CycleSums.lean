import Verif.Proofs.CyclesAnet2

/-! Sums of cycle counts and the coefficients computed from them. -/

set_option linter.unusedSectionVars false
set_option linter.unusedSimpArgs false

namespace Pymnet

open Py MPlex Spec

/-- the words of the cycles -/
abbrev CWord (α : Type) := List (α × α → α × α → Prop)

/-- a tuple of counts given by a number for each word -/
def cycT {α : Type} (link : α → α → α → Prop) (f : CWord α → Int) : Cycles :=
  ⟨f [stepA link, stepA link, stepA link], f [stepA link, stepA link, stepC, stepA link, stepC],
    f [stepA link, stepC, stepA link, stepA link, stepC], f [stepA link, stepC, stepA link, stepC, stepA link],
    f [stepA link, stepC, stepA link, stepC, stepA link, stepC], f [stepA link, stepF, stepA link],
    f [stepA link, stepF, stepC, stepA link, stepC], f [stepA link, stepC, stepF, stepA link, stepC],
    f [stepA link, stepC, stepF, stepC, stepA link], f [stepA link, stepC, stepF, stepC, stepA link, stepC]⟩

variable {α : Type} {link : α → α → α → Prop}

theorem cyc_toList (f : CWord α → Int) : (cycT link f).toList = (cycleWords link).map f := rfl

theorem cyc_of_toList {v : Cycles} {f : CWord α → Int} (h : v.toList = (cycleWords link).map f) : v = cycT link f := by
  cases v
  simp only [Cycles.toList, cycleWords, List.map_cons, List.map_nil, List.cons.injEq] at h
  obtain ⟨h1, h2, h3, h4, h5, h6, h7, h8, h9, h10, -⟩ := h
  simp [cycT, h1, h2, h3, h4, h5, h6, h7, h8, h9, h10]

theorem cyc_add (f g : CWord α → Int) : (cycT link f).add (cycT link g) = cycT link (f + g) := rfl

theorem cyc_zero : Cycles.zero = cycT link 0 := rfl

theorem forE_cyc {β : Type} {F : Cycles → β → Except Err Cycles} {f : β → CWord α → Int} {l : List β} {X : Finset β}
    (hn : l.Nodup) (hm : ∀ x, x ∈ l ↔ x ∈ X) (h : ∀ x ∈ X, ∀ g, F (cycT link g) x = .ok (cycT link (g + f x)))
    (g : CWord α → Int) : forE F l (cycT link g) = .ok (cycT link (g + ∑ x ∈ X, f x)) := by
  classical
  have key : ∀ l : List β, (∀ x ∈ l, x ∈ X) → ∀ g, forE F l (cycT link g) = .ok (cycT link (g + (l.map f).sum)) := by
    intro l
    induction l with
    | nil => intro _ g; simp [forE]
    | cons x l ih =>
      intro hl g
      simp only [forE, h x (hl x (by simp)), List.map_cons, List.sum_cons]
      rw [ih (fun y hy => hl y (by simp [hy])), add_assoc]
  rw [key l fun x hx => (hm x).1 hx]
  have : l.toFinset = X := by ext x; rw [List.mem_toFinset, hm]
  rw [← this, List.sum_toFinset _ hn]

section

variable {K : Type} [DecidableEq α] [Field K] [LinearOrder K] [IsStrictOrderedRing K] [FloorRing K] [IntNames α]
  {p : MPlex α K} {N B : Finset α} {M : α → Finset α} {A : α → α → α → K}

/-- closed walks of a given kind around a node-layer -/
noncomputable def around (N B : Finset α) (M : α → Finset α) (n l : α) (r : CWord α) : Int :=
  walks (nodeLayers N B M) r (n, l) (n, l)

namespace CycL

theorem bf_cyc (h : CycL p N B M A) {l : α} (hl : l ∈ B) (n : α) :
    p.cyclesBf n l = .ok (cycT (LinkOf A) (around N B M n l)) := by
  obtain ⟨v, h1, h2⟩ := h.cyclesBf hl n
  rw [h1, cyc_of_toList h2]; rfl

theorem sumBf (h : CycL p N B M A) {ls ns : List α} {X Y : Finset α} (hX : X ⊆ B) (l2 : ls.Nodup) (l3 : ∀ x, x ∈ ls ↔ x ∈ X)
    (n2 : ns.Nodup) (n3 : ∀ x, x ∈ ns ↔ x ∈ Y) :
    p.sumBf ls ns = .ok (cycT (LinkOf A) (∑ l ∈ X, ∑ n ∈ Y, around N B M n l)) := by
  unfold MPlex.sumBf
  rw [cyc_zero (link := LinkOf A), ← zero_add (Finset.sum _ _)]
  refine forE_cyc l2 l3 (fun l hl g => ?_) 0
  refine forE_cyc n2 n3 (fun n hn g => ?_) g
  rw [h.bf_cyc (hX hl), ok_bind]; rfl

/-- nodes that are not on a layer do not count -/
theorem sum_filter (h : CycL p N B M A) {X Y : Finset α} (hX : X ⊆ B) (hY : Y ⊆ N) :
    (cycT (LinkOf A) (∑ l ∈ X, ∑ n ∈ Y, around N B M n l)).toList =
      cycleSums N B M (LinkOf A) fun u => u.1 ∈ Y ∧ u.2 ∈ X := by
  classical
  have key : ∀ r r' (rs : CWord α), r = stepA (LinkOf A) →
      (∑ l ∈ X, ∑ n ∈ Y, around N B M n l) (r :: r' :: rs) =
        ∑ u ∈ @Finset.filter _ (fun u => u.1 ∈ Y ∧ u.2 ∈ X) (fun _ => Classical.propDecidable _) (nodeLayers N B M),
          walks (nodeLayers N B M) (r :: r' :: rs) u u := by
    rintro r r' rs rfl
    rw [Finset.sum_filter, sum_nodeLayers, Finset.sum_apply]
    rw [← Finset.sum_subset hX]
    · refine Finset.sum_congr rfl fun l hl => ?_
      rw [Finset.sum_apply, ← Finset.sum_subset hY]
      · refine Finset.sum_congr rfl fun n hn => ?_
        by_cases hm : n ∈ M l
        · rw [if_pos hm, if_pos ⟨hn, hl⟩]; rfl
        · rw [if_neg hm]; exact h.walks_nil (hX hl) hm r' rs (n, l)
      · intro n _ hn
        by_cases hm : n ∈ M l
        · rw [if_pos hm, if_neg fun h' => hn h'.1]
        · rw [if_neg hm]
    · intro l _ hl
      refine Finset.sum_eq_zero fun n _ => ?_
      by_cases hm : n ∈ M l
      · rw [if_pos hm, if_neg fun h' => hl h'.2]
      · rw [if_neg hm]
  rw [cyc_toList, cycleSums]
  simp only [cycleWords, List.map_cons, List.map_nil, key _ _ _ rfl]

end CycL

namespace AnetOf

variable {u : View α K} {w : α → α → K}

theorem sumAnet (h : AnetOf p u N B M A w) {ns : List α} {Y : Finset α} (hY : Y ⊆ N) (n2 : ns.Nodup) (n3 : ∀ x, x ∈ ns ↔ x ∈ Y) :
    p.sumAnet ns none u = .ok (cycT (LinkOf A) (∑ l ∈ B, ∑ n ∈ Y, around N B M n l)) := by
  unfold MPlex.sumAnet
  rw [cyc_zero (link := LinkOf A), Finset.sum_comm, ← zero_add (Finset.sum _ _)]
  refine forE_cyc n2 n3 (fun n hn g => ?_) 0
  obtain ⟨v, v1, v2⟩ := h.cyclesAnet_none (hY hn)
  rw [v1, ok_bind, cyc_of_toList (v := v) (f := ∑ l ∈ B, around N B M n l) (link := LinkOf A)]
  · rfl
  · rw [v2]
    refine List.map_congr_left fun r _ => ?_
    rw [Finset.sum_apply]; rfl

theorem sumAnetL (h : AnetOf p u N B M A w) {l : α} (hl : l ∈ B) {ns : List α} {Y : Finset α} (hY : Y ⊆ N) (n2 : ns.Nodup)
    (n3 : ∀ x, x ∈ ns ↔ x ∈ Y) :
    p.sumAnet ns (some l) u = .ok (cycT (LinkOf A) (∑ l ∈ ({l} : Finset α), ∑ n ∈ Y, around N B M n l)) := by
  unfold MPlex.sumAnet
  rw [cyc_zero (link := LinkOf A), Finset.sum_singleton, ← zero_add (Finset.sum _ _)]
  refine forE_cyc n2 n3 (fun n hn g => ?_) 0
  obtain ⟨v, v1, v2⟩ := h.cyclesAnet hl (hY hn)
  rw [v1, ok_bind, cyc_of_toList (v := v) (f := around N B M n l) (link := LinkOf A)]
  · rfl
  · rw [v2]; rfl

end AnetOf

end

end Pymnet
