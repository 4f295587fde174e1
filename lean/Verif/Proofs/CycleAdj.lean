import Verif.Model.CycleAdj
import Verif.Proofs.Supra
import Verif.Proofs.CycleNet
import Mathlib.Data.Matrix.Mul
import Mathlib.LinearAlgebra.Matrix.Trace

/-! Products of matrices given as lists of rows, and supra-adjacency matrices as such lists. -/

set_option linter.unusedSectionVars false
set_option linter.unusedSimpArgs false

namespace Pymnet

open Py

section tab

variable {I K : Type} [Fintype I] [DecidableEq I] [Field K]

/-- The rows of a matrix whose indices are enumerated by `e`. -/
def tab (e : List I) (A : Matrix I I K) : Mat K := e.map fun u => e.map fun v => A u v

theorem sum_enum {e : List I} (he : e.Nodup) (hm : ∀ u, u ∈ e) (f : I → K) : (e.map f).sum = ∑ u, f u := by
  rw [← List.sum_toFinset f he]
  congr 1
  ext u; simp [hm]

theorem map_range_eq {β γ : Type} (e : List β) (h : Nat → γ) (g : β → γ) (hg : ∀ i u, e[i]? = some u → h i = g u) :
    (List.range e.length).map h = e.map g := by
  refine List.ext_getElem? fun i => ?_
  rw [List.getElem?_map, List.getElem?_map]
  by_cases hi : i < e.length
  · rw [List.getElem?_range hi, List.getElem?_eq_getElem hi]
    simp only [Option.map_some]
    rw [hg i _ (List.getElem?_eq_getElem hi)]
  · rw [List.getElem?_eq_none (by simp; omega), List.getElem?_eq_none (by omega)]
    rfl

theorem mul_tab {e : List I} (he : e.Nodup) (hm : ∀ u, u ∈ e) (A B : Matrix I I K) :
    Mat.mul (tab e A) (tab e B) = .ok (tab e (A * B)) := by
  unfold Mat.mul tab
  rw [if_neg (by simp)]
  rw [List.map_map, List.length_map]
  congr 1
  refine List.map_congr_left fun u _ => ?_
  refine map_range_eq e _ _ fun j v hv => ?_
  rw [Matrix.mul_apply, ← sum_enum he hm]
  congr 1
  rw [List.zip_map', List.map_map]
  refine List.map_congr_left fun w _ => ?_
  simp [hv]

theorem zip_tab (f : K → K → K) (e : List I) (A B : Matrix I I K) :
    Mat.zip f (tab e A) (tab e B) = .ok (tab e (Matrix.of fun u v => f (A u v) (B u v))) := by
  unfold Mat.zip tab
  rw [if_neg (by simp)]
  simp [List.zipWith_map_left, List.zipWith_map_right, List.zipWith_self]

theorem sub_tab (e : List I) (A B : Matrix I I K) : Mat.zip (· - ·) (tab e A) (tab e B) = .ok (tab e (A - B)) := zip_tab _ e A B

theorem add_tab (e : List I) (A B : Matrix I I K) : Mat.zip (· + ·) (tab e A) (tab e B) = .ok (tab e (A + B)) := zip_tab _ e A B

theorem eye_tab {e : List I} (he : e.Nodup) : Mat.eye e.length = tab e (1 : Matrix I I K) := by
  unfold Mat.eye tab
  refine map_range_eq e _ _ fun i u hi => ?_
  refine map_range_eq e _ _ fun j v hj => ?_
  rw [Matrix.one_apply]
  by_cases h : i = j
  · subst h
    rw [hi] at hj; cases hj; simp
  · rw [if_neg h, if_neg]
    rintro rfl
    obtain ⟨hi', e1⟩ := List.getElem?_eq_some_iff.1 hi
    obtain ⟨hj', e2⟩ := List.getElem?_eq_some_iff.1 hj
    exact h ((he.getElem_inj_iff).1 (e1.trans e2.symm))

theorem entry_tab {e : List I} {i j : Nat} {u v : I} (hi : e[i]? = some u) (hj : e[j]? = some v) (A : Matrix I I K) :
    (tab e A).entry i j = .ok (A u v) := by
  unfold Mat.entry tab
  simp [hi, hj]

theorem prod_tab {e : List I} (he : e.Nodup) (hm : ∀ u, u ∈ e) (A : Matrix I I K) (As : List (Matrix I I K)) :
    Mat.prod (tab e A :: As.map (tab e)) = .ok (tab e (As.foldl (· * ·) A)) := by
  unfold Mat.prod
  induction As generalizing A with
  | nil => rfl
  | cons B As ih =>
    simp only [List.map_cons, forE, mul_tab he hm, List.foldl_cons]
    exact ih _

theorem closed_tab {e : List I} (he : e.Nodup) (hm : ∀ u, u ∈ e) {i : Nat} {u : I} (hi : e[i]? = some u)
    (A : Matrix I I K) (As : List (Matrix I I K)) :
    Mat.closed i (tab e A :: As.map (tab e)) = .ok ((As.foldl (· * ·) A) u u) := by
  unfold Mat.closed
  rw [prod_tab he hm, ok_bind, entry_tab hi hi]

theorem length_tab (e : List I) (A : Matrix I I K) : (tab e A).length = e.length := by simp [tab]

theorem mapE_range {β γ : Type} (e : List β) (f : Nat → Except Err γ) (g : β → γ)
    (h : ∀ i u, e[i]? = some u → f i = .ok (g u)) : mapE f (List.range e.length) = .ok (e.map g) := by
  classical
  by_cases hne : e = []
  · subst hne; rfl
  · obtain ⟨b, hb⟩ := List.exists_mem_of_ne_nil e hne
    rw [mapE_ok (g := fun i => match e[i]? with | some u => g u | none => g b)]
    · congr 1
      refine map_range_eq e _ _ fun i u hi => by simp [hi]
    · intro i hi
      have := List.mem_range.1 hi
      rw [List.getElem?_eq_getElem this]
      exact h i _ (List.getElem?_eq_getElem this)

theorem diagonal_tab (e : List I) (A : Matrix I I K) : (tab e A).diagonal = .ok (e.map fun u => A u u) := by
  unfold Mat.diagonal
  rw [length_tab]
  exact mapE_range e _ _ fun i u hi => entry_tab hi hi A

theorem forE_range_sum {β : Type} (e : List β) (f : K → Nat → Except Err K) (g : β → K)
    (h : ∀ i u s, e[i]? = some u → f s i = .ok (s + g u)) (s : K) : forE f (List.range e.length) s = .ok (s + (e.map g).sum) := by
  induction e using List.reverseRecOn generalizing s with
  | nil => simp [forE]
  | append_singleton e b ih =>
    have e0 : (e ++ [b]).length = e.length + 1 := by simp
    rw [e0, List.range_succ]
    have ih' := ih (fun i u s hi => h i u s (by
      rw [List.getElem?_append_left (List.getElem?_eq_some_iff.1 hi).1]; exact hi)) s
    have : ∀ (l : List Nat) (x : Nat) (s t : K), forE f l s = .ok t → forE f (l ++ [x]) s = f t x := by
      intro l x
      induction l with
      | nil => intro s t ht; cases ht; simp only [List.nil_append, forE]; cases f s x <;> rfl
      | cons y l ihl =>
        intro s t ht
        simp only [List.cons_append, forE] at ht ⊢
        cases hy : f s y with
        | error x => rw [hy] at ht; cases ht
        | ok s' => rw [hy] at ht; exact ihl s' t ht
    rw [this _ _ _ _ ih', h e.length b _ (by simp)]
    simp [add_assoc]

theorem offDiagonal_tab {e : List I} (he : e.Nodup) (hm : ∀ u, u ∈ e) (A : Matrix I I K) :
    (tab e A).offDiagonal = .ok (∑ u, ∑ v, if u ≠ v then A u v else 0) := by
  unfold Mat.offDiagonal
  rw [length_tab]
  rw [forE_range_sum e _ (fun u => ∑ v, if u ≠ v then A u v else 0)]
  · rw [sum_enum he hm, zero_add]
  · intro i u s hi
    rw [forE_range_sum e _ (fun v => if u ≠ v then A u v else 0)]
    · rw [sum_enum he hm]
    · intro j v s hj
      by_cases h : i = j
      · subst h
        rw [hi] at hj; cases hj
        simp [pure_eq_ok]
      · have huv : u ≠ v := by
          rintro rfl
          obtain ⟨hi', e1⟩ := List.getElem?_eq_some_iff.1 hi
          obtain ⟨hj', e2⟩ := List.getElem?_eq_some_iff.1 hj
          exact h ((he.getElem_inj_iff).1 (e1.trans e2.symm))
        rw [if_pos h, if_pos huv, entry_tab hi hj, ok_bind, pure_eq_ok]

end tab

section supra

variable {α K : Type} [DecidableEq α] [DecidableEq K] [Field K]

/-- The node-layers of a network with nodes `N` and layers `B` if all nodes were on all layers. -/
abbrev NL (N B : Finset α) : Type := {u : α × α // u ∈ N ×ˢ B}

/-- a node-layer as a tuple -/
def NL.tup {N B : Finset α} (u : NL N B) : List α := [u.1.1, u.1.2]

theorem NL.tup_inj {N B : Finset α} : Function.Injective (NL.tup (N := N) (B := B)) := by
  rintro ⟨⟨a, b⟩, h⟩ ⟨⟨c, d⟩, h'⟩ e
  simp [NL.tup] at e
  simp [e.1, e.2]

theorem NL.layer {N B : Finset α} (u : NL N B) : u.1.2 ∈ B := (Finset.mem_product.1 u.2).2

theorem NL.node {N B : Finset α} (u : NL N B) : u.1.1 ∈ N := (Finset.mem_product.1 u.2).1

variable [LinearOrder α]

/-- the enumeration of the node-layers in the order of the matrix -/
theorem exists_enum {v : View α K} {s t : List α} (hs : v.slices = [s, t]) (h1 : s.Nodup) (h2 : t.Nodup) {N B : Finset α}
    (hN : ∀ x, x ∈ s ↔ x ∈ N) (hB : ∀ x, x ∈ t ↔ x ∈ B) :
    ∃ e : List (NL N B), v.supraNodes = e.map NL.tup ∧ e.Nodup ∧ ∀ u, u ∈ e := by
  have hmem : ∀ a, a ∈ v.supraNodes ↔ ∃ u : NL N B, a = u.tup := by
    intro a
    rw [mem_supraNodes, hs, Py.mem_product]
    constructor
    · intro h
      cases h with
      | cons hx h =>
        cases h with
        | cons hy h =>
          cases h
          exact ⟨⟨(_, _), Finset.mem_product.2 ⟨(hN _).1 hx, (hB _).1 hy⟩⟩, rfl⟩
    · rintro ⟨u, rfl⟩
      exact .cons ((hN _).2 u.node) (.cons ((hB _).2 u.layer) .nil)
  have : ∀ l : List (List α), (∀ a ∈ l, ∃ u : NL N B, a = u.tup) → ∃ e : List (NL N B), l = e.map NL.tup := by
    intro l
    induction l with
    | nil => exact fun _ => ⟨[], rfl⟩
    | cons a l ih =>
      intro h
      obtain ⟨u, rfl⟩ := h a (by simp)
      obtain ⟨e, he⟩ := ih fun b hb => h b (by simp [hb])
      exact ⟨u :: e, by rw [he]; rfl⟩
  obtain ⟨e, he⟩ := this v.supraNodes fun a ha => (hmem a).1 ha
  have hnd := supraNodes_nodup (v := v) (by
    intro x hx; rw [hs] at hx; rcases List.mem_cons.1 hx with rfl | hx
    · exact h1
    · rw [List.mem_singleton.1 hx]; exact h2)
  refine ⟨e, he, ?_, fun u => ?_⟩
  · rw [he] at hnd; exact hnd.of_map _
  · have := (hmem u.tup).2 ⟨u, rfl⟩
    rw [he] at this
    exact (List.mem_map_of_injective NL.tup_inj).1 this

theorem supra_tab {v : View α K} (ha : v.aspects = 1) {N B : Finset α} {e : List (NL N B)} (he : v.supraNodes = e.map NL.tup)
    (couplings : Bool) (F : Matrix (NL N B) (NL N B) K)
    (hF : ∀ u w : NL N B, (couplings = true ∨ u.1.2 = w.1.2) → v.num2 u.tup w.tup = .ok (F u w))
    (h0 : ∀ u w : NL N B, couplings = false → u.1.2 ≠ w.1.2 → F u w = 0) :
    v.supra couplings = .ok (tab e F, v.supraNodes) := by
  have key : ∀ (u w : NL N B) (i j : Nat), v.supraEntry couplings (u.tup, i) (w.tup, j) = .ok (F u w) := by
    intro u w i j
    unfold View.supraEntry
    have e1 : ∀ u w : NL N B, (u.tup.drop 1 = w.tup.drop 1 ↔ u.1.2 = w.1.2) := fun u w => by simp [NL.tup]
    simp only [ha, Nat.zero_lt_one, if_true, e1]
    by_cases h : couplings = true ∨ u.1.2 = w.1.2
    · rw [if_pos h]
      have := hF u w h
      unfold View.num2 at this
      cases hg : v.nodeGet u.tup (w.tup.map .val) with
      | error x => rw [hg] at this; cases this
      | ok it => rw [hg] at this; exact this
    · rw [if_neg h]
      push Not at h
      rw [h0 u w (by simpa using h.1) h.2]
  unfold View.supra
  have hrow : ∀ i ∈ v.supraNodes.zipIdx, ∃ u : NL N B, i.1 = u.tup := by
    rintro ⟨a, i⟩ hi
    have ha : a ∈ v.supraNodes := List.mem_of_getElem? (List.mem_zipIdx_iff_getElem?.1 hi)
    rw [he] at ha
    obtain ⟨u, -, rfl⟩ := List.mem_map.1 ha
    exact ⟨u, rfl⟩
  have hmap : ∀ {γ : Type} (f : List α × Nat → Except Err γ) (g : NL N B → γ)
      (_ : ∀ u i, f (u.tup, i) = .ok (g u)), mapE f v.supraNodes.zipIdx = .ok (e.map g) := by
    intro γ f g hfg
    rw [he]
    have : ∀ (l : List (NL N B)) (k : Nat), mapE f ((l.map NL.tup).zipIdx k) = .ok (l.map g) := by
      intro l
      induction l with
      | nil => intro k; rfl
      | cons u l ih => intro k; simp only [List.map_cons, List.zipIdx_cons, mapE, hfg, ih]
    exact this e 0
  rw [hmap _ (fun u => e.map fun w => F u w) fun u i => hmap _ _ fun w j => key u w i j]
  rfl

end supra

end Pymnet
