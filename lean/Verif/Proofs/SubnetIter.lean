import Verif.Model.SubnetIter
import Verif.Spec.SubnetIter
import Verif.Proofs.Comb
import Verif.Props.Transforms3

/-! Internal lemmas on the choices of `subnet_iter`. -/

set_option linter.unusedSectionVars false

namespace Pymnet

open Py

variable {α W : Type} [DecidableEq α] [DecidableEq W]

theorem mem_allCombinations {γ : Type} {l c : List γ} : c ∈ allCombinations l.length l ↔ c.Sublist l := by
  unfold allCombinations
  simp only [List.mem_flatMap, List.mem_range, mem_combinations]
  exact ⟨fun ⟨_, _, h, _⟩ => h, fun h => ⟨c.length, by have := h.length_le; omega, h, rfl⟩⟩

theorem mem_allNonzero {γ : Type} {l c : List γ} : c ∈ allNonzeroCombinations l ↔ c.Sublist l ∧ c ≠ [] := by
  unfold allNonzeroCombinations
  simp only [List.mem_flatMap, List.mem_range, mem_combinations]
  constructor
  · rintro ⟨i, _, h, e⟩
    exact ⟨h, by rintro rfl; simp at e⟩
  · rintro ⟨h, hne⟩
    have := h.length_le
    have := List.length_pos_iff.2 hne
    exact ⟨c.length - 1, by omega, h, by omega⟩

theorem nodup_levels {γ : Type} {l : List γ} (h : l.Nodup) (ks : List Nat) (hk : ks.Nodup) :
    (ks.flatMap (combinations l)).Nodup := by
  rw [List.nodup_flatMap]
  refine ⟨fun k _ => nodup_combinations h k, hk.imp fun {a b} hab => ?_⟩
  intro c hc hc'
  exact hab ((mem_combinations.1 hc).2.symm.trans (mem_combinations.1 hc').2)

theorem nodup_allCombinations {γ : Type} {l : List γ} (h : l.Nodup) (n : Nat) : (allCombinations n l).Nodup :=
  nodup_levels h _ List.nodup_range

theorem nodup_allNonzero {γ : Type} {l : List γ} (h : l.Nodup) : (allNonzeroCombinations l).Nodup := by
  have : allNonzeroCombinations l = ((List.range l.length).map (· + 1)).flatMap (combinations l) := by
    unfold allNonzeroCombinations; rw [List.flatMap_map]
  rw [this]
  exact nodup_levels h _ (List.nodup_range.map_on (by intros; omega))

theorem sublist_unique {γ : Type} {l c c' : List γ} (h : l.Nodup) (hc : c.Sublist l) (hc' : c'.Sublist l)
    (hs : ∀ x, x ∈ c ↔ x ∈ c') : c = c' :=
  combinations_unique h (mem_combinations.2 ⟨hc, rfl⟩) (mem_combinations.2 ⟨hc', rfl⟩)
    ((List.perm_ext_iff_of_nodup (h.sublist hc) (h.sublist hc')).2 hs)

theorem mem_iterChoices {slices : List (List α)} {remove : List Nat} {c : List (List α)} :
    c ∈ iterChoices slices remove ↔ c.length = slices.length ∧ ∀ (a : Nat) s t, c[a]? = some s → slices[a]? = some t →
      if a ∈ remove then s.Sublist t ∧ s ≠ [] else s = t := by
  unfold iterChoices
  rw [mem_product_get]
  simp only [List.length_mapIdx, List.getElem?_mapIdx]
  refine and_congr_right fun hl => ⟨fun h a s t hs ht => ?_, fun h a s hs => ?_⟩
  · obtain ⟨r, hr, hsr⟩ := h a s hs
    rw [ht] at hr
    simp only [Option.map_some, Option.some.injEq] at hr
    subst hr
    split at hsr <;> rename_i hc
    · rw [if_pos hc]; exact mem_allNonzero.1 hsr
    · rw [if_neg hc]; simpa using hsr
  · have ha : a < slices.length := by have := (List.getElem?_eq_some_iff.1 hs).1; omega
    have ht := List.getElem?_eq_getElem ha
    refine ⟨_, by rw [ht]; rfl, ?_⟩
    have := h a s _ hs ht
    dsimp only
    split at this <;> rename_i hc
    · rw [if_pos hc]; exact mem_allNonzero.2 this
    · rw [if_neg hc]; simp [this]

theorem nodup_iterChoices {slices : List (List α)} (h : ∀ s ∈ slices, s.Nodup) (remove : List Nat) :
    (iterChoices slices remove).Nodup := by
  refine nodup_product fun l hl => ?_
  obtain ⟨i, hi, rfl⟩ := List.mem_mapIdx.1 hl
  split
  · exact nodup_allNonzero (h _ (List.getElem_mem hi))
  · simp

variable {m : MNet α W} {d : Nat} {z : W} {dir al : Bool} {S : Nat → α → Prop} {NL : List α → Prop}
  {R : List α → List α → W}

theorem Spec.Looks.slices_length (h : Spec.Looks m d z dir al S NL R) : m.slices.length = d + 1 := by
  rw [h.inv.r.slen, h.aspects_eq]

theorem Spec.Looks.slice_mem (h : Spec.Looks m d z dir al S NL R) {a : Nat} {s : List α} (hs : m.slices[a]? = some s) (x : α) :
    x ∈ s ↔ S a x := by
  have ha : a ≤ d := by have := (List.getElem?_eq_some_iff.1 hs).1; rw [h.slices_length] at this; omega
  rw [← h.inSlice ha]
  unfold MNet.inSlice
  rw [hs]
  simp

/-- Internal: the choices, each once. -/
theorem choices_spec {slices : List (List α)} (hlen : slices.length = d + 1) (hnd : ∀ s ∈ slices, s.Nodup)
    (hmem : ∀ a s, slices[a]? = some s → ∀ x, x ∈ s ↔ S a x) (remove : List Nat) :
    (∀ c ∈ iterChoices slices remove, Spec.Choice d S remove c) ∧
    (iterChoices slices remove).Pairwise (fun c c' => ¬ Spec.SameChoice c c') ∧
    ∀ c, Spec.Choice d S remove c → ∃ c' ∈ iterChoices slices remove, Spec.SameChoice c c' := by
  have get : ∀ {c : List (List α)}, c.length = d + 1 → ∀ {a : Nat} {s}, c[a]? = some s → ∃ t, slices[a]? = some t ∧ t.Nodup := by
    intro c hc a s hs
    have ha : a < slices.length := by have := (List.getElem?_eq_some_iff.1 hs).1; omega
    exact ⟨_, List.getElem?_eq_getElem ha, hnd _ (List.getElem_mem ha)⟩
  refine ⟨fun c hc => ?_, ?_, fun c hc => ?_⟩
  · obtain ⟨h1, h2⟩ := mem_iterChoices.1 hc
    have hl : c.length = d + 1 := h1.trans hlen
    refine ⟨hl, fun s hs => ?_, fun a s hs x hx => ?_, fun a s hs ha => ?_, fun a s hs ha x hx => ?_⟩
    · obtain ⟨a, hs⟩ := List.getElem?_of_mem hs
      obtain ⟨t, ht, hn⟩ := get hl hs
      have := h2 a s t hs ht
      split at this
      · exact hn.sublist this.1
      · rw [this]; exact hn
    · obtain ⟨t, ht, hn⟩ := get hl hs
      have := h2 a s t hs ht
      refine (hmem a t ht x).1 ?_
      split at this
      · exact this.1.subset hx
      · rwa [← this]
    · obtain ⟨t, ht, hn⟩ := get hl hs
      have := h2 a s t hs ht
      rw [if_pos ha] at this
      exact this.2
    · obtain ⟨t, ht, hn⟩ := get hl hs
      have := h2 a s t hs ht
      rw [if_neg ha] at this
      rw [this]; exact (hmem a t ht x).2 hx
  · refine List.Nodup.pairwise_of_forall_ne (nodup_iterChoices hnd remove) ?_
    intro c hc c' hc' hne hsame
    refine hne ?_
    obtain ⟨h1, h2⟩ := mem_iterChoices.1 hc
    obtain ⟨h1', h2'⟩ := mem_iterChoices.1 hc'
    rw [Spec.SameChoice, MNet.forall₂_iff_getElem] at hsame
    refine List.ext_getElem? fun a => ?_
    by_cases ha : a < c.length
    · have hs := List.getElem?_eq_getElem ha
      have hs' := List.getElem?_eq_getElem (l := c') (i := a) (by omega)
      obtain ⟨t, ht, hn⟩ := get (h1.trans hlen) hs
      have e1 := h2 a _ t hs ht
      have e2 := h2' a _ t hs' ht
      rw [hs, hs']
      split at e1 <;> rename_i hr
      · rw [if_pos hr] at e2
        congr 1
        exact sublist_unique hn e1.1 e2.1 (hsame.2 a _ _ hs hs')
      · rw [if_neg hr] at e2; rw [e1, e2]
    · rw [List.getElem?_eq_none (by omega), List.getElem?_eq_none (by omega)]
  · refine ⟨slices.mapIdx fun a t => t.filter (· ∈ c.getD a []), mem_iterChoices.2 ⟨by simp, fun a s t hs ht => ?_⟩, ?_⟩
    · rw [List.getElem?_mapIdx, ht] at hs
      simp only [Option.map_some, Option.some.injEq] at hs
      have ha : a < c.length := by
        have := (List.getElem?_eq_some_iff.1 ht).1
        rw [hc.length]; omega
      have hca := List.getElem?_eq_getElem ha
      have hg : c.getD a [] = c[a] := by rw [List.getD_eq_getElem?_getD, hca]; rfl
      rw [hg] at hs
      subst hs
      split <;> rename_i hr
      · refine ⟨List.filter_sublist, ?_⟩
        obtain ⟨x, hx⟩ := List.exists_mem_of_ne_nil _ (hc.some_of a _ hca hr)
        have : x ∈ t.filter (· ∈ c[a]) := by
          rw [List.mem_filter]
          exact ⟨(hmem a t ht x).2 (hc.names a _ hca x hx), by simpa using hx⟩
        exact List.ne_nil_of_mem this
      · rw [List.filter_eq_self]
        intro x hx
        simpa using hc.all_of a _ hca hr x ((hmem a t ht x).1 hx)
    · rw [Spec.SameChoice, MNet.forall₂_iff_getElem]
      refine ⟨by simp [hc.length, hlen], fun a s t' hs ht' x => ?_⟩
      obtain ⟨t, ht, hn⟩ := get hc.length hs
      rw [List.getElem?_mapIdx, ht] at ht'
      simp only [Option.map_some, Option.some.injEq] at ht'
      have hg : c.getD a [] = s := by rw [List.getD_eq_getElem?_getD, hs]; rfl
      rw [hg] at ht'
      subst ht'
      rw [List.mem_filter]
      simp only [decide_eq_true_eq]
      exact ⟨fun hx => ⟨(hmem a t ht x).2 (hc.names a s hs x hx), hx⟩, fun h => h.2⟩

theorem selected_map_some (c : List (List α)) (nl : List α) : Spec.Selected (c.map some) nl ↔ Spec.Within c nl := by
  unfold Spec.Selected Spec.Within
  refine forall_congr' fun i => forall_congr' fun x => forall_congr' fun l => ?_
  simp [List.getElem?_map]

open Classical in
theorem subnet_choice (h : Spec.Looks m d z dir al S NL R) {remove : List Nat} {c : List (List α)} (hc : Spec.Choice d S remove c) :
    ∃ m', m.subnet (c.map some) false = .ok m' ∧ Spec.SubnetOf d z dir al S NL R c m' := by
  obtain ⟨m', e, hl⟩ := C28_subnet_partial h (sel := c.map some) (by simp [hc.length]) false
  refine ⟨m', e, ?_⟩
  unfold Spec.SubnetOf
  refine hl.congr (fun k hk x => ?_) (fun nl => ?_) (fun u v _ _ => ?_)
  · simp only [selected_map_some]
    split
    · exact Iff.rfl
    · refine and_congr_right fun _ => ?_
      have hk' : k < c.length := by rw [hc.length]; omega
      simp [List.getElem?_map, List.getElem?_eq_getElem hk']
  · rw [selected_map_some]
  · simp only [selected_map_some, true_and]

end Pymnet
