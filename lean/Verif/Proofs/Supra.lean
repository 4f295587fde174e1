import Verif.Proofs.Relabel

/-! The supra-adjacency matrix of a general network. -/

set_option linter.unusedSectionVars false
set_option linter.unusedSimpArgs false

namespace Pymnet

open Py

theorem mapE_ok {β γ : Type} {f : β → Except Err γ} {g : β → γ} (l : List β) (h : ∀ x ∈ l, f x = .ok (g x)) :
    mapE f l = .ok (l.map g) := by
  induction l with
  | nil => rfl
  | cons b l ih => simp only [mapE, h b (by simp), ih (fun x hx => h x (by simp [hx])), List.map_cons]

variable {α W : Type} [DecidableEq α] [DecidableEq W] [LinearOrder α]

theorem mem_supraNodes {v : View α W} (a : List α) : a ∈ v.supraNodes ↔ a ∈ product v.slices := by
  unfold View.supraNodes
  rw [List.mem_map]
  constructor
  · rintro ⟨b, hb, rfl⟩
    rw [(pySorted_perm _).mem_iff, Py.mem_product] at hb
    rw [Py.mem_product]
    have h1 : List.Forall₂ (fun x s => x ∈ s) b v.slices.reverse := by
      rw [List.forall₂_map_right_iff] at hb
      exact hb.imp (by intro x s h; rwa [(pySorted_perm _).mem_iff] at h)
    have := List.rel_reverse h1
    rwa [List.reverse_reverse] at this
  · intro ha
    refine ⟨a.reverse, ?_, List.reverse_reverse a⟩
    rw [(pySorted_perm _).mem_iff, Py.mem_product, List.forall₂_map_right_iff]
    rw [Py.mem_product] at ha
    exact (List.rel_reverse ha).imp (by intro x s h; rwa [(pySorted_perm _).mem_iff])

theorem supraNodes_nodup {v : View α W} (h : ∀ s ∈ v.slices, s.Nodup) : v.supraNodes.Nodup := by
  unfold View.supraNodes
  refine List.Nodup.map List.reverse_injective ?_
  rw [(pySorted_perm _).nodup_iff]
  apply nodup_product
  intro s hs
  obtain ⟨t, ht, rfl⟩ := List.mem_map.1 hs
  rw [(pySorted_perm _).nodup_iff]
  exact h t (List.mem_reverse.1 ht)

/-- The value of one entry. -/
def supraValue [Zero W] (m : MNet α W) (couplings : Bool) (i j : Nat) (a b : List α) : W :=
  if (if 0 < m.aspects then couplings = true ∨ a.drop 1 = b.drop 1 else i ≠ j) then m.reads a b else 0

theorem supra_spec [Zero W] {m : MNet α W} (h : m.Inv) (couplings : Bool) :
    ∃ rows, m.view.supra couplings = .ok (rows, m.view.supraNodes) ∧ rows.length = m.view.supraNodes.length ∧
      ∀ (i : Nat) a, m.view.supraNodes[i]? = some a → ∃ row, rows[i]? = some row ∧
        row.length = m.view.supraNodes.length ∧
        ∀ (j : Nat) b, m.view.supraNodes[j]? = some b → row[j]? = some (supraValue m couplings i j a b) := by
  have hlen : ∀ a, a ∈ m.view.supraNodes → a.length = m.aspects + 1 := by
    intro a ha
    exact h.sound.length_of_mem ((mem_supraNodes a).1 ha)
  have hent : ∀ i ∈ m.view.supraNodes.zipIdx, ∀ j ∈ m.view.supraNodes.zipIdx,
      m.view.supraEntry couplings i j = .ok (supraValue m couplings i.2 j.2 i.1 j.1) := by
    rintro ⟨a, i⟩ hi ⟨b, j⟩ hj
    have ha : a ∈ m.view.supraNodes := List.mem_of_getElem? (List.mem_zipIdx_iff_getElem?.1 hi)
    have hb : b ∈ m.view.supraNodes := List.mem_of_getElem? (List.mem_zipIdx_iff_getElem?.1 hj)
    unfold View.supraEntry supraValue
    simp only [MNet.nodeGet_eq (hlen a ha) (hlen b hb), Item.num]
    change (if (if 0 < m.aspects then couplings = true ∨ a.drop 1 = b.drop 1 else i ≠ j) then _ else _) = _
    by_cases hc : (if 0 < m.aspects then couplings = true ∨ a.drop 1 = b.drop 1 else i ≠ j)
    · rw [if_pos hc, if_pos hc]
    · rw [if_neg hc, if_neg hc]
  have hrow : ∀ i ∈ m.view.supraNodes.zipIdx, mapE (fun j => m.view.supraEntry couplings i j) m.view.supraNodes.zipIdx =
      .ok (m.view.supraNodes.zipIdx.map fun j => supraValue m couplings i.2 j.2 i.1 j.1) :=
    fun i hi => mapE_ok _ (hent i hi)
  refine ⟨m.view.supraNodes.zipIdx.map fun i => m.view.supraNodes.zipIdx.map fun j =>
    supraValue m couplings i.2 j.2 i.1 j.1, ?_, by simp, ?_⟩
  · unfold View.supra
    rw [mapE_ok _ hrow]
  · intro i a ha
    refine ⟨m.view.supraNodes.zipIdx.map fun j => supraValue m couplings i j.2 a j.1, ?_, by simp, ?_⟩
    · simp [List.getElem?_map, List.getElem?_zipIdx, ha]
    · intro j b hb
      simp [List.getElem?_map, List.getElem?_zipIdx, hb]

end Pymnet
