import Verif.Props.TransformsPlex
import Verif.Props.Transforms3

/-! `subnet` of a multiplex network into a general network. -/

set_option linter.unusedSectionVars false
set_option linter.unusedSimpArgs false

namespace Pymnet

open Py

variable {α W : Type} [DecidableEq α] [DecidableEq W]

theorem forE_congr_mem {σ β : Type} {f g : σ → β → Except Err σ} (l : List β) (h : ∀ s, ∀ x ∈ l, f s x = g s x) {s : σ} :
    forE f l s = forE g l s := by
  induction l generalizing s with
  | nil => rfl
  | cons x l ih =>
    simp only [forE, h s x (by simp)]
    cases g s x with
    | error e => rfl
    | ok s' => exact ih (fun s y hy => h s y (by simp [hy]))

/-- reading through a node -/
theorem View.nodeGet_readable {v : View α W} {a b : List α} {w : W} (ha : a.length = v.aspects + 1) (hb : b.length = v.aspects + 1)
    (hl : v.getLink (interleave a b) = .ok w) : v.nodeGet a (b.map .val) = .ok (.weight w) := by
  have := View.getItem_addresses (v := v) (item := interleave a b) (a := a) (b := b) ⟨ha, hb, Or.inl (interleave_eq_link a b)⟩ hl
  unfold View.nodeGet nodesToLink
  rw [if_pos (by simp; omega)]
  simp only [interleave_map]
  exact this

/-- the pairs whose links are copied -/
def viewPairs (deg : List α → Int) (it : List α → List (List α)) (sets : List (List α)) (total : Nat) : List (List α × List α) :=
  (product sets).flatMap fun a => (if (total : Int) ≤ deg a then product sets else (it a).filter fun b => inSets sets b).map (Prod.mk a)

namespace MPlex

theorem sumDims_ok_of {β γ : Type} [Add β] [Add γ] {f : Nat → Except Err β} {g : Nat → Except Err γ} (h : ∀ d k, f d = .ok k → ∃ k', g d = .ok k')
    {l : List Nat} {x : β} {k : β} (y : γ) (hk : sumDims f l x = .ok k) : ∃ k', sumDims g l y = .ok k' := by
  induction l generalizing x y with
  | nil => exact ⟨y, rfl⟩
  | cons d l ih =>
    simp only [sumDims] at hk ⊢
    cases hf : f d with
    | error e => rw [hf] at hk; cases hk
    | ok k1 =>
      rw [hf] at hk
      obtain ⟨k', hk'⟩ := h d k1 hf
      rw [hk']
      exact ih _ hk

/-- the total degree can be read where the out-degree can -/
theorem degTotalDir_ok [IntNames α] {p : MPlex α W} {nl : List α} {dims : Option (Dims α)} {k : Int} (h : p.degOut nl dims = .ok k) :
    ∃ k', p.degTotalDir nl dims = .ok k' := by
  unfold degOut at h
  unfold degTotalDir
  refine sumDims_ok_of (fun d k hd => ?_) 0 h
  by_cases h0 : d = 0
  · rw [if_pos h0] at hd ⊢
    unfold onChild at hd ⊢
    split at hd
    · cases hd
    · split at hd
      · cases hd
      · exact ⟨_, rfl⟩
  · rw [if_neg h0] at hd ⊢
    unfold dimDegree at hd ⊢
    split at hd
    · exact ⟨k, hd⟩
    · exact ⟨k, hd⟩
    · split at hd
      · cases hd
      · exact ⟨_, rfl⟩
    · exact ⟨k, hd⟩
    · cases hd

end MPlex

theorem subnetInto_flat {v : View α W} {R : List α → List α → W} (h : v.Sound R)
    (hlink : ∀ a ∈ product v.slices, ∀ b ∈ product v.slices, v.getLink (interleave a b) = .ok (R a b))
    (hal : v.fic = true) (hnl : ∃ l, v.nodeLayers = .ok l ∧ ∀ a, a ∈ l ↔ a ∈ product v.slices) (hdeg : ∀ a ∈ product v.slices, ∃ k, v.deg a none = .ok k)
    {sel : List (Option (List α))} (hs : sel.length = v.aspects + 1)
    (hsub : ∀ (i : Nat) l, sel[i]? = some (some l) → ∀ x ∈ l, v.inS i x) (f : Bool) (hf0 : f = false → 1 ≤ v.aspects) (nolinks : Bool) :
    ∃ m', v.subnetInto sel nolinks (MNet.init v.aspects v.noEdge v.directed f) = .ok m' ∧
      Built m' v.aspects v.noEdge v.directed f (fun k x => selName v.slices sel k x) (fun nl => nl ∈ product (selSets v.slices sel))
        (fun a b => if nolinks = false ∧ a ∈ product (selSets v.slices sel) ∧ b ∈ product (selSets v.slices sel) then R a b else v.noEdge) := by
  obtain ⟨nls, n1, n2⟩ := hnl
  set sets := selSets v.slices sel with hsets
  have hslen : sets.length = v.aspects + 1 := by
    rw [hsets, length_selSets (by rw [hs, h.slen]), h.slen]
  have lenP : ∀ a, a ∈ product sets → a.length = v.aspects + 1 := by
    intro a ha; rw [length_of_mem_product ha, hslen]
  have inS_iff : ∀ k x, x ∈ v.slices.getD k [] ↔ v.inS k x := by
    intro k x
    unfold View.inS
    cases hk : v.slices[k]? <;> simp [List.getD, hk]
  have sel_inS : ∀ k x, selName v.slices sel k x → v.inS k x := by
    rintro k x ⟨s, o, h1, h2, h3⟩
    cases o with
    | none => exact ⟨s, h1, h3⟩
    | some l => exact hsub k l h2 x h3
  have subP : ∀ a, a ∈ product sets → a ∈ product v.slices := by
    intro a ha
    rw [h.mem_product]
    exact ⟨lenP a ha, fun i x hx => sel_inS i x ((mem_selSets i x).1 ((mem_product_get.1 ha).2 i x hx))⟩
  obtain ⟨m1, e1, h1⟩ := subnetLayers_spec (v := v) sets 0 (Built.init (α := α) v.aspects v.noEdge v.directed f) (by rw [hslen]; omega)
  have hmem : ∀ nl, nl ∈ (nls.filter fun nl => inSets sets nl) ↔ nl ∈ product sets := by
    intro nl
    rw [List.mem_filter, n2]
    constructor
    · rintro ⟨q1, q2⟩
      exact (inSets_iff (by rw [hslen]; exact h.length_of_mem q1)).1 q2
    · intro q
      exact ⟨subP nl q, (inSets_iff (by rw [hslen, lenP nl q])).2 q⟩
  have nodes : ∃ m2, (if f then .ok m1 else forE addNodeLayer (nls.filter fun nl => inSets sets nl) m1) = (.ok m2 : Except Err (MNet α W)) ∧
      Built m2 v.aspects v.noEdge v.directed f (fun k x => selName v.slices sel k x) (fun nl => nl ∈ product sets) (fun _ _ => v.noEdge) := by
    have hS : ∀ k x, (False ∨ (0 ≤ k ∧ (v.fic = true ∨ k ≠ 0) ∧ (∃ s, sets[k - 0]? = some s ∧ x ∈ s) ∧ x ∈ v.slices.getD k [])) ↔
        selName v.slices sel k x := by
      intro k x
      simp only [hal, true_or, true_and, false_or, Nat.zero_le, Nat.sub_zero, mem_selSets, hsets, inS_iff]
      exact and_iff_left_of_imp (sel_inS k x)
    by_cases hf : f = true
    · rw [if_pos hf]
      refine ⟨m1, rfl, ?_⟩
      rw [hf] at h1 ⊢
      exact (Built.anyNL h1).congr' hS (fun _ _ => rfl)
    · rw [if_neg hf]
      have hff : f = false := by simpa using hf
      obtain ⟨m2, e2, h2⟩ := h1.addNodeLs (hf0 hff) hff (fun x : List α => x) (nls.filter fun nl => inSets sets nl)
        (fun y hy => lenP y ((hmem y).1 hy)) (g := addNodeLayer) (by intro m y n t _ he; subst he; rfl)
      refine ⟨m2, e2, h2.congr (fun k x => ?_) (fun nl => ?_) (fun _ _ => rfl)⟩
      · rw [hS k x]
        refine or_iff_left_of_imp ?_
        rintro ⟨y, hy, hx⟩
        exact (mem_selSets k x).1 ((mem_product_get.1 ((hmem y).1 hy)).2 _ _ hx)
      · simp only [false_or, hmem, exists_eq_right']
  obtain ⟨m2, e2, h2⟩ := nodes
  have hit : ∀ a, ∃ l k, a ∈ product v.slices → v.iterTotal a none = .ok l ∧ v.deg a none = .ok k ∧
      ∀ b, b ∈ l ↔ b ∈ product v.slices ∧ (R a b ≠ v.noEdge ∨ R b a ≠ v.noEdge) := by
    intro a
    by_cases ha : a ∈ product v.slices
    · obtain ⟨l, q1, -, q3⟩ := h.tot a ha
      obtain ⟨k, hk⟩ := hdeg a ha
      exact ⟨l, k, fun _ => ⟨q1, hk, q3⟩⟩
    · exact ⟨[], 0, fun hc => absurd hc ha⟩
  choose it dg hit using hit
  have mem_pairs : ∀ total p, p ∈ viewPairs dg it sets total →
      p.1 ∈ product sets ∧ p.2 ∈ product sets ∧ ((total : Int) ≤ dg p.1 ∨ (R p.1 p.2 ≠ v.noEdge ∨ R p.2 p.1 ≠ v.noEdge)) := by
    rintro total ⟨a, b⟩ hp
    simp only [viewPairs, List.mem_flatMap, List.mem_map, Prod.mk.injEq] at hp
    obtain ⟨a', ha, b', hb, rfl, rfl⟩ := hp
    split at hb
    · rename_i hc; exact ⟨ha, hb, Or.inl hc⟩
    · rw [List.mem_filter, (hit a' (subP a' ha)).2.2] at hb
      exact ⟨ha, (inSets_iff (by rw [hslen]; exact h.length_of_mem hb.1.1)).1 hb.2, Or.inr hb.1.2⟩
  have pairs_mem : ∀ total a b, a ∈ product sets → b ∈ product sets → R a b ≠ v.noEdge →
      (a, b) ∈ viewPairs dg it sets total := by
    intro total a b ha hb hne
    simp only [viewPairs, List.mem_flatMap, List.mem_map, Prod.mk.injEq]
    refine ⟨a, ha, b, ?_, rfl, rfl⟩
    split
    · exact hb
    · rw [List.mem_filter, (hit a (subP a ha)).2.2]
      exact ⟨⟨subP b hb, Or.inl hne⟩, (inSets_iff (by rw [lenP b hb, hslen])).2 hb⟩
  set total : Nat := if f = true then subnetCount v sets else (nls.filter fun nl => inSets sets nl).length with htot
  have hloop : forE (copyNode v sets total) (product sets) m2 =
      forE (fun (n : MNet α W) (p : List α × List α) => copyLink v (decide ((total : Int) ≤ dg p.1)) p.1 n p.2)
        (viewPairs dg it sets total) m2 := by
    unfold viewPairs
    rw [← forE_nested (fun a n b => copyLink v (decide ((total : Int) ≤ dg a)) a n b)]
    refine forE_congr_mem _ (fun n a ha => ?_)
    unfold copyNode
    simp only [(hit a (subP a ha)).1, (hit a (subP a ha)).2.1]
    by_cases hc : (total : Int) ≤ dg a
    · simp [hc]
    · simp [hc]
  obtain ⟨m3, R', e3, h3, h4⟩ := h2.setItems (viewPairs dg it sets total)
    (fun p => (total : Int) ≤ dg p.1 → R p.1 p.2 ≠ v.noEdge) (fun p => p.1) (fun p => p.2) (fun p => R p.1 p.2)
    (g := fun (n : MNet α W) (p : List α × List α) => copyLink v (decide ((total : Int) ≤ dg p.1)) p.1 n p.2)
    (by
      intro n p hp hpp
      obtain ⟨q1, q2, -⟩ := mem_pairs total p hp
      refine ⟨interleave p.1 p.2, ⟨lenP _ q1, lenP _ q2, Or.inl (interleave_eq_link _ _)⟩, ?_⟩
      unfold copyLink
      simp only [View.nodeGet_readable (lenP _ q1) (lenP _ q2) (hlink _ (subP _ q1) _ (subP _ q2)), Item.num]
      rw [if_neg (by
        rintro ⟨ht, hw⟩
        exact hpp (by simpa using ht) hw)]
      unfold MNet.nodeSet nodesToLink
      rw [if_pos (by rw [lenP _ q1, lenP _ q2])])
    (by
      intro n p hp hpp
      obtain ⟨q1, q2, -⟩ := mem_pairs total p hp
      rw [Classical.not_imp, not_not] at hpp
      unfold copyLink
      simp only [View.nodeGet_readable (lenP _ q1) (lenP _ q2) (hlink _ (subP _ q1) _ (subP _ q2)), Item.num]
      rw [if_pos ⟨by simpa using hpp.1, hpp.2⟩])
    (by
      intro p hp hpp _ he
      obtain ⟨q1, q2, hor⟩ := mem_pairs total p hp
      rcases hor with hc | hor
      · exact hpp hc
      · rw [he] at hor ⊢; exact hor.elim id id)
  have base : v.subnetInto sel nolinks (MNet.init v.aspects v.noEdge v.directed f) =
      if nolinks = true then .ok m2 else forE (copyNode v sets total) (product sets) m2 := by
    unfold View.subnetInto
    rw [if_neg (by rw [hs]; simp)]
    have hif : (MNet.init v.aspects v.noEdge v.directed f : MNet α W).fic = f := by
      have := (Built.init (α := α) v.aspects v.noEdge v.directed f).params.2.2.2
      rw [this]
      cases hf : f with
      | true => simp
      | false => have := hf0 hf; simp; omega
    rw [hif, if_neg (by rw [hal]; simp)]
    simp only [← hsets, e1, htot, n1]
    cases hf : f with
    | true =>
      rw [hf] at e2
      simp only [if_true, Except.ok.injEq] at e2
      subst e2
      simp only [if_true]
    | false =>
      rw [hf] at e2
      simp only [Bool.false_eq_true, if_false] at e2
      simp only [Bool.false_eq_true, if_false]
      rw [e2]
  rw [base]
  cases nolinks with
  | true => exact ⟨m2, if_pos rfl, h2.congr' (fun _ _ => Iff.rfl) (fun _ _ => by simp)⟩
  | false =>
  refine ⟨m3, by rw [if_neg (by simp), hloop]; exact e3, h3.congr (fun k x => ?_) (fun nl => ?_) (fun a b => ?_)⟩
  · refine or_iff_left_of_imp ?_
    rintro ⟨p, hp, -, hx | hx⟩
    · exact (mem_selSets k x).1 ((mem_product_get.1 (mem_pairs total p hp).1).2 _ _ hx)
    · exact (mem_selSets k x).1 ((mem_product_get.1 (mem_pairs total p hp).2.1).2 _ _ hx)
  · refine or_iff_left_of_imp ?_
    rintro ⟨p, hp, -, rfl | rfl⟩
    · exact (mem_pairs total p hp).1
    · exact (mem_pairs total p hp).2.1
  · rcases h4 a b with ⟨p, hp, hpp, hab, hR⟩ | ⟨hno, hR⟩
    · obtain ⟨w1, w2, -⟩ := mem_pairs total p hp
      rw [hR]
      rcases hab with ⟨rfl, rfl⟩ | ⟨hd, rfl, rfl⟩
      · rw [if_pos ⟨rfl, w1, w2⟩]
      · rw [if_pos ⟨rfl, w2, w1⟩]
        exact h.sym hd _ (subP _ w1) _ (subP _ w2)
    · rw [hR]
      split
      · rename_i hc
        by_contra hne
        exact hno (a, b) (pairs_mem total a b hc.2.1 hc.2.2 (fun e => hne e.symm)) (fun _ e => hne e.symm) (Or.inl ⟨rfl, rfl⟩)
      · rfl

end Pymnet
