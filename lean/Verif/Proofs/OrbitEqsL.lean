import Verif.Proofs.OrbitEqs2
import Mathlib.Data.Fintype.Card
import Mathlib.Logic.Equiv.Fintype

/-! Permutations of the layers: the cyclic ones that `combine_orbits` tries, and those that respect several sets of layers. -/

set_option linter.unusedSectionVars false
set_option linter.unusedSimpArgs false
set_option linter.unusedVariables false

namespace Pymnet

open Py MPlex

section cycles
variable {α : Type} [DecidableEq α] {A B : Finset α}

/-- a walk in which an element is in `A` if and only if the one before it is in `B` -/
inductive Walk (A B : Finset α) : Prop → List α → Prop → Prop
  | nil (b : Prop) : Walk A B b [] b
  | cons {b b' : Prop} {x : α} {t : List α} : (b ↔ x ∈ A) → Walk A B (x ∈ B) t b' → Walk A B b (x :: t) b'

theorem Walk.append {b b' b'' : Prop} {l l' : List α} (h : Walk A B b l b') (h' : Walk A B b' l' b'') : Walk A B b (l ++ l') b'' := by
  induction h with
  | nil => exact h'
  | cons h1 _ ih => exact .cons h1 (ih h')

theorem Walk.iff {b b' c c' : Prop} {l : List α} (h : Walk A B b l b') (h1 : b ↔ c) (h2 : b' ↔ c') : Walk A B c l c' := by
  rw [← propext h1, ← propext h2]; exact h

theorem Walk.const {b : Prop} {l : List α} (h : ∀ x ∈ l, (x ∈ A ↔ b) ∧ (x ∈ B ↔ b)) : Walk A B b l b := by
  induction l with
  | nil => exact .nil b
  | cons x t ih =>
    refine .cons (h x (by simp)).1.symm ((ih fun y hy => h y (by simp [hy])).iff (h x (by simp)).2.symm Iff.rfl)

theorem Walk.pairs {us ws : List α} (hlen : us.length = ws.length) (hu : ∀ x ∈ us, x ∉ A ∧ x ∈ B) (hw : ∀ x ∈ ws, x ∈ A ∧ x ∉ B) :
    Walk A B False ((us.zip ws).flatMap fun p => [p.1, p.2]) False := by
  induction us generalizing ws with
  | nil => exact .nil _
  | cons u us ih =>
    cases ws with
    | nil => exact .nil _
    | cons w ws =>
      rw [List.zip_cons_cons, List.flatMap_cons]
      have hu1 := hu u (by simp)
      have hw1 := hw w (by simp)
      refine .cons (by simp [hu1.1]) (.cons (by simp [hu1.2, hw1.1]) ?_)
      exact (ih (by simpa using hlen) (fun x hx => hu x (by simp [hx])) fun x hx => hw x (by simp [hx])).iff (by simp [hw1.2]) Iff.rfl

theorem Walk.step {b b' : Prop} {l : List α} (h : Walk A B b l b') :
    (∀ x, l[0]? = some x → (b ↔ x ∈ A)) ∧ (∀ k x y, l[k]? = some x → l[k + 1]? = some y → (x ∈ B ↔ y ∈ A)) ∧
      (∀ x, l.getLast? = some x → (x ∈ B ↔ b')) := by
  induction h with
  | nil b => simp
  | @cons b b' z t h1 h2 ih =>
    obtain ⟨i1, i2, i3⟩ := ih
    refine ⟨?_, ?_, ?_⟩
    · intro x hx; simp at hx; rw [← hx]; exact h1
    · intro k x y hx hy
      cases k with
      | zero =>
        simp at hx
        rw [List.getElem?_cons_succ] at hy
        rw [← hx]; exact i1 y hy
      | succ k =>
        rw [List.getElem?_cons_succ] at hx hy
        exact i2 k x y hx hy
    · intro x hx
      cases t with
      | nil =>
        simp at hx
        subst hx
        cases h2
        rfl
      | cons y t =>
        rw [List.getLast?_cons_cons] at hx
        exact i3 x hx

/-- A cyclic permutation maps any set to any other one with equally many elements. -/
theorem exists_cycle {ls : List α} (hn : ls.Nodup) (hA : ∀ x ∈ A, x ∈ ls) (hB : ∀ x ∈ B, x ∈ ls) (hc : A.card = B.card) (hne : A ≠ B) :
    ∃ perm : List α, perm.Perm ls ∧ Walk A B False perm False := by
  have hc1 : (B \ A).card = (A \ B).card := by
    have h1 := Finset.card_sdiff_add_card_inter A B
    have h2 := Finset.card_sdiff_add_card_inter B A
    rw [Finset.inter_comm] at h2
    omega
  have hpos : (B \ A).Nonempty := by
    rw [Finset.nonempty_iff_ne_empty]
    intro h
    have h0 : (A \ B).card = 0 := by rw [← hc1, h]; rfl
    rw [Finset.card_eq_zero] at h0
    exact hne (Finset.Subset.antisymm (Finset.sdiff_eq_empty_iff_subset.1 h0) (Finset.sdiff_eq_empty_iff_subset.1 h))
  obtain ⟨u, us, hU⟩ : ∃ u us, (B \ A).toList = u :: us := by
    cases h : (B \ A).toList with
    | nil => rw [Finset.toList_eq_nil] at h; rw [h] at hpos; simp at hpos
    | cons u us => exact ⟨u, us, rfl⟩
  obtain ⟨w, ws, hW⟩ : ∃ w ws, (A \ B).toList = w :: ws := by
    cases h : (A \ B).toList with
    | nil =>
      rw [Finset.toList_eq_nil] at h
      rw [h, Finset.card_empty, Finset.card_eq_zero] at hc1
      rw [hc1] at hpos; simp at hpos
    | cons w ws => exact ⟨w, ws, rfl⟩
  have hlen : us.length = ws.length := by
    have h1 : (B \ A).toList.length = (A \ B).toList.length := by rw [Finset.length_toList, Finset.length_toList, hc1]
    rw [hU, hW] at h1
    simpa using h1
  have mu : ∀ x, x ∈ u :: us ↔ x ∈ B ∧ x ∉ A := fun x => by rw [← hU, Finset.mem_toList, Finset.mem_sdiff]
  have mw : ∀ x, x ∈ w :: ws ↔ x ∈ A ∧ x ∉ B := fun x => by rw [← hW, Finset.mem_toList, Finset.mem_sdiff]
  have nu : (u :: us).Nodup := hU ▸ Finset.nodup_toList _
  have nw : (w :: ws).Nodup := hW ▸ Finset.nodup_toList _
  let both := ls.filter fun x => decide (x ∈ A ∧ x ∈ B)
  let neither := ls.filter fun x => decide (x ∉ A ∧ x ∉ B)
  have mb : ∀ x, x ∈ both ↔ x ∈ ls ∧ x ∈ A ∧ x ∈ B := fun x => by simp [both]
  have mn : ∀ x, x ∈ neither ↔ x ∈ ls ∧ x ∉ A ∧ x ∉ B := fun x => by simp [neither]
  have hperm : (([u] ++ both ++ [w] ++ neither) ++ (us.zip ws).flatMap fun p => [p.1, p.2]).Perm ((u :: us) ++ (w :: ws) ++ both ++ neither) := by
    have hp : ∀ (us ws : List α), us.length = ws.length → ((us.zip ws).flatMap fun p => [p.1, p.2]).Perm (us ++ ws) := by
      intro us
      induction us with
      | nil =>
        intro ws h
        rw [List.length_nil] at h
        rw [List.length_eq_zero_iff.1 h.symm]
        exact List.Perm.refl _
      | cons a us ih =>
        intro ws h
        cases ws with
        | nil => simp at h
        | cons b ws =>
          rw [List.zip_cons_cons, List.flatMap_cons]
          have := ih ws (by simpa using h)
          rw [List.perm_iff_count] at this ⊢
          intro z
          have := this z
          simp only [List.count_append, List.count_cons, List.count_nil] at this ⊢
          omega
    have := hp us ws hlen
    rw [List.perm_iff_count] at this ⊢
    intro z
    have := this z
    simp only [List.count_append, List.count_cons, List.count_nil] at this ⊢
    omega
  refine ⟨_, hperm.trans ?_, ?_⟩
  · refine (List.perm_ext_iff_of_nodup ?_ hn).2 fun x => ?_
    · simp only [List.nodup_append]
      refine ⟨⟨⟨nu, nw, ?_⟩, hn.filter _, ?_⟩, hn.filter _, ?_⟩
      · rintro x hx y hy rfl
        exact ((mu x).1 hx).2 ((mw x).1 hy).1
      · rintro x hx y hy rfl
        rcases List.mem_append.1 hx with h | h
        · exact ((mu x).1 h).2 ((mb x).1 hy).2.1
        · exact ((mw x).1 h).2 ((mb x).1 hy).2.2
      · rintro x hx y hy rfl
        have hy := (mn x).1 hy
        rcases List.mem_append.1 hx with h | h
        · rcases List.mem_append.1 h with h | h
          · exact hy.2.2 ((mu x).1 h).1
          · exact hy.2.1 ((mw x).1 h).1
        · exact hy.2.1 ((mb x).1 h).2.1
    · rw [List.mem_append, List.mem_append, List.mem_append, mu, mw, mb, mn]
      have := hA x
      have := hB x
      tauto
  · refine Walk.append (Walk.append (Walk.append (Walk.append (b' := True) ?_ (b'' := True) ?_) (b'' := False) ?_) (b'' := False) ?_) ?_
    · have := (mu u).1 (by simp)
      exact .cons (by simp [this.2]) ((Walk.nil _).iff Iff.rfl (by simp [this.1]))
    · refine Walk.const fun x hx => ?_
      have := (mb x).1 hx
      simp [this.2.1, this.2.2]
    · have := (mw w).1 (by simp)
      exact .cons (by simp [this.1]) ((Walk.nil _).iff Iff.rfl (by simp [this.2]))
    · refine Walk.const fun x hx => ?_
      have := (mn x).1 hx
      simp [this.2.1, this.2.2]
    · exact Walk.pairs hlen (fun x hx => by have := (mu x).1 (by simp [hx]); exact ⟨this.2, this.1⟩) fun x hx => (mw x).1 (by simp [hx])

theorem rotate_last {l : List α} (k : Nat) (x y : α) (hx : (l.rotate (l.length - 1))[k]? = some x) (hy : l[k]? = some y) :
    (k = 0 ∧ l.getLast? = some x) ∨ ∃ j, k = j + 1 ∧ l[j]? = some x := by
  obtain ⟨hk, -⟩ := List.getElem?_eq_some_iff.1 hy
  rw [List.getElem?_rotate hk] at hx
  cases k with
  | zero =>
    left
    refine ⟨rfl, ?_⟩
    rw [List.getLast?_eq_getElem?, ← hx, Nat.zero_add, Nat.mod_eq_of_lt (by omega)]
  | succ j =>
    right
    refine ⟨j, rfl, ?_⟩
    rw [← hx]
    congr 1
    rw [show j + 1 + (l.length - 1) = j + l.length by omega, Nat.add_mod_right, Nat.mod_eq_of_lt (by omega)]

/-- what the layer names of a permutation do -/
theorem Walk.shift {perm : List α} (h : Walk A B False perm False) {k : Nat} {x y : α} (hx : (perm.rotate (perm.length - 1))[k]? = some x)
    (hy : perm[k]? = some y) : x ∈ B ↔ y ∈ A := by
  obtain ⟨h1, h2, h3⟩ := h.step
  rcases rotate_last k x y hx hy with ⟨rfl, h⟩ | ⟨j, rfl, h⟩
  · exact (h3 x h).trans (h1 y hy)
  · exact h2 j x y h hy

end cycles

theorem permutationsOf_all {γ : Type} (n : Nat) (l : List γ) (hn : l.length = n) (m : List γ) (hm : m.Perm l) : m ∈ permutationsOf n l := by
  induction n generalizing l m with
  | zero =>
    rw [List.length_eq_zero_iff.1 hn, List.perm_nil] at hm
    rw [hm]; simp [permutationsOf]
  | succ n ih =>
    cases m with
    | nil => rw [List.nil_perm] at hm; rw [hm] at hn; simp at hn
    | cons x m =>
      obtain ⟨i, hi, hx⟩ := List.getElem_of_mem (hm.mem_iff.1 (by simp) : x ∈ l)
      simp only [permutationsOf, List.mem_flatMap, List.mem_range]
      refine ⟨i, hi, ?_⟩
      rw [List.getElem?_eq_getElem hi]
      simp only [List.mem_map]
      refine ⟨m, ih (l.eraseIdx i) (by rw [List.length_eraseIdx_of_lt hi]; omega) m ?_, by rw [hx]⟩
      have h1 := List.getElem_cons_eraseIdx_perm hi
      rw [hx] at h1
      exact (List.perm_cons x).1 (hm.trans h1.symm)


/-! ### sets of layers -/

section regions
variable {α : Type} [DecidableEq α]

open Classical in
/-- A bijection that respects a classification exists if the classes have equally many elements. -/
theorem exists_respecting {τ : Type} (L : Finset α) (t t' : α → τ) (h : ∀ c, (L.filter fun x => t x = c).card = (L.filter fun x => t' x = c).card) :
    ∃ σ : α → α, Set.BijOn σ {x | x ∈ L} {x | x ∈ L} ∧ ∀ x ∈ L, t' (σ x) = t x := by
  have hf : ∀ c, Nonempty ({a : {x // x ∈ L} // t a.1 = c} ≃ {a : {x // x ∈ L} // t' a.1 = c}) := by
    intro c
    refine ⟨Fintype.equivOfCardEq ?_⟩
    have key : ∀ f : α → τ, Fintype.card {a : {x // x ∈ L} // f a.1 = c} = (L.filter fun x => f x = c).card := by
      intro f
      rw [← Fintype.card_coe]
      refine Fintype.card_congr ⟨fun a => ⟨a.1.1, Finset.mem_filter.2 ⟨a.1.2, a.2⟩⟩, fun a => ⟨⟨a.1, (Finset.mem_filter.1 a.2).1⟩, (Finset.mem_filter.1 a.2).2⟩,
        fun _ => rfl, fun _ => rfl⟩
    rw [key, key, h]
  let e : {x // x ∈ L} ≃ {x // x ∈ L} := Equiv.ofFiberEquiv (f := fun a => t a.1) (g := fun a => t' a.1) fun c => (hf c).some
  have he : ∀ a, t' (e a).1 = t a.1 := fun a => Equiv.ofFiberEquiv_map (f := fun a : {x // x ∈ L} => t a.1) (g := fun a : {x // x ∈ L} => t' a.1) (fun c => (hf c).some) a
  refine ⟨fun x => if h : x ∈ L then (e ⟨x, h⟩).1 else x, ⟨?_, ?_, ?_⟩, ?_⟩
  · intro x hx
    have hx : x ∈ L := hx
    change (if h : x ∈ L then (e ⟨x, h⟩).1 else x) ∈ L
    rw [dif_pos hx]; exact (e _).2
  · intro x hx y hy hxy
    have hx : x ∈ L := hx
    have hy : y ∈ L := hy
    dsimp only at hxy
    rw [dif_pos hx, dif_pos hy] at hxy
    have := e.injective (Subtype.ext hxy)
    exact congrArg Subtype.val this
  · intro y hy
    have hy : y ∈ L := hy
    refine ⟨(e.symm ⟨y, hy⟩).1, (e.symm ⟨y, hy⟩).2, ?_⟩
    dsimp only
    rw [dif_pos (e.symm ⟨y, hy⟩).2]
    simp
  · intro x hx
    dsimp only
    rw [dif_pos hx]; exact he _

open Classical in
/-- the number of layers in the sets -/
noncomputable def regionSet (L : Finset α) (P Q R : α → Prop) (a b c : Prop) : Finset α :=
  L.filter fun x => (P x ↔ a) ∧ (Q x ↔ b) ∧ (R x ↔ c)

noncomputable def region (L : Finset α) (P Q R : α → Prop) (a b c : Prop) : Nat := (regionSet L P Q R a b c).card

theorem mem_regionSet {L : Finset α} {P Q R : α → Prop} {a b c : Prop} {x : α} :
    x ∈ regionSet L P Q R a b c ↔ x ∈ L ∧ (P x ↔ a) ∧ (Q x ↔ b) ∧ (R x ↔ c) := by
  classical
  unfold regionSet
  rw [Finset.mem_filter]

/-- `f` is a permutation of the layers that maps one set to another -/
def MapsSet (L : Finset α) (f : α → α) (P Q : α → Prop) : Prop := ∀ x ∈ L, P x ↔ Q (f x)

theorem region_map {L : Finset α} {f : α → α} (hf : Set.BijOn f {x | x ∈ L} {x | x ∈ L}) {P Q R P' Q' R' : α → Prop} (h1 : MapsSet L f P P')
    (h2 : MapsSet L f Q Q') (h3 : MapsSet L f R R') (a b c : Prop) : region L P Q R a b c = region L P' Q' R' a b c := by
  classical
  unfold region
  refine Finset.card_bij (fun x _ => f x) ?_ ?_ ?_
  · intro x hx
    obtain ⟨k1, k2, k3, k4⟩ := mem_regionSet.1 hx
    exact mem_regionSet.2 ⟨hf.mapsTo k1, by rw [← h1 x k1]; exact k2, by rw [← h2 x k1]; exact k3, by rw [← h3 x k1]; exact k4⟩
  · intro x hx y hy e
    exact hf.injOn (mem_regionSet.1 hx).1 (mem_regionSet.1 hy).1 e
  · intro y hy
    obtain ⟨k1, k2, k3, k4⟩ := mem_regionSet.1 hy
    obtain ⟨x, hx, rfl⟩ := hf.surjOn k1
    have hx : x ∈ L := hx
    exact ⟨x, mem_regionSet.2 ⟨hx, by rw [h1 x hx]; exact k2, by rw [h2 x hx]; exact k3, by rw [h3 x hx]; exact k4⟩, rfl⟩

theorem region_sum (L : Finset α) (P Q R : α → Prop) (b c : Prop) : region L P Q R True b c + region L P Q R False b c = region L Q Q R b b c := by
  classical
  unfold region
  rw [← Finset.card_union_of_disjoint]
  · congr 1
    ext x
    simp only [Finset.mem_union, mem_regionSet]
    by_cases hP : P x <;> simp [hP]
  · refine Finset.disjoint_left.2 fun x h1 h2 => ?_
    exact (mem_regionSet.1 h2).2.1.1 ((mem_regionSet.1 h1).2.1.2 trivial)

theorem region_swap (L : Finset α) (P Q R : α → Prop) (a b c : Prop) : region L P Q R a b c = region L Q P R b a c := by
  classical
  unfold region
  congr 1
  ext x
  simp only [mem_regionSet]
  tauto

theorem region_swap' (L : Finset α) (P Q R : α → Prop) (a b c : Prop) : region L P Q R a b c = region L P R Q a c b := by
  classical
  unfold region
  congr 1
  ext x
  simp only [mem_regionSet]
  tauto

theorem exists_region {L : Finset α} {P Q R P' Q' R' : α → Prop} (h : ∀ a b c : Prop, region L P Q R a b c = region L P' Q' R' a b c) :
    ∃ f, Set.BijOn f {x | x ∈ L} {x | x ∈ L} ∧ MapsSet L f P P' ∧ MapsSet L f Q Q' ∧ MapsSet L f R R' := by
  classical
  obtain ⟨f, h1, h2⟩ := exists_respecting L (fun x => (P x, Q x, R x)) (fun x => (P' x, Q' x, R' x)) (by
    rintro ⟨a, b, c⟩
    have := h a b c
    unfold region regionSet at this
    simp only [Prod.mk.injEq, eq_iff_iff]
    convert this)
  refine ⟨f, h1, fun x hx => ?_, fun x hx => ?_, fun x hx => ?_⟩ <;> have := h2 x hx <;> simp only [Prod.mk.injEq, eq_iff_iff] at this
  · exact this.1.symm
  · exact this.2.1.symm
  · exact this.2.2.symm

theorem prop_cases {F : Prop → Prop → Prop → Prop} (h : F True True True ∧ F True True False ∧ F True False True ∧ F True False False ∧
    F False True True ∧ F False True False ∧ F False False True ∧ F False False False) (a b c : Prop) : F a b c := by
  obtain ⟨h1, h2, h3, h4, h5, h6, h7, h8⟩ := h
  by_cases ha : a <;> by_cases hb : b <;> by_cases hc : c <;> simp only [ha, hb, hc, eq_true, eq_false] <;> assumption

/-- Two sets exchanged. -/
theorem exists_of_swap {L : Finset α} {A B C B' C' : α → Prop} {f τ : α → α} (hf : Set.BijOn f {x | x ∈ L} {x | x ∈ L})
    (hτ : Set.BijOn τ {x | x ∈ L} {x | x ∈ L}) (f1 : MapsSet L f A B') (f2 : MapsSet L f B A) (f3 : MapsSet L f C C')
    (t2 : MapsSet L τ B B') (t3 : MapsSet L τ C C') :
    ∃ g, Set.BijOn g {x | x ∈ L} {x | x ∈ L} ∧ MapsSet L g A A ∧ MapsSet L g B B' ∧ MapsSet L g C C' := by
  refine exists_region ?_
  have r1 : ∀ a b c, region L A B C a b c = region L A B' C' b a c := fun a b c => by
    rw [region_map hf f1 f2 f3, region_swap]
  have m : ∀ b c, region L A B C True b c + region L A B C False b c = region L A B' C' True b c + region L A B' C' False b c := by
    intro b c
    rw [region_sum, region_sum, region_map hτ t2 t2 t3]
  refine prop_cases ?_
  have m1 := m True True
  have m2 := m True False
  have m3 := m False True
  have m4 := m False False
  rw [r1, r1] at m1 m2 m3 m4
  refine ⟨?_, ?_, ?_, ?_, ?_, ?_, ?_, ?_⟩ <;> rw [r1] <;> omega

/-- Three sets permuted cyclically. -/
theorem exists_of_cycle {L : Finset α} {A B C B' C' : α → Prop} {f τ : α → α} (hf : Set.BijOn f {x | x ∈ L} {x | x ∈ L})
    (hτ : Set.BijOn τ {x | x ∈ L} {x | x ∈ L}) (f1 : MapsSet L f A B') (f2 : MapsSet L f B C') (f3 : MapsSet L f C A)
    (t2 : MapsSet L τ B B') (t3 : MapsSet L τ C C') :
    ∃ g, Set.BijOn g {x | x ∈ L} {x | x ∈ L} ∧ MapsSet L g A A ∧ MapsSet L g B C' ∧ MapsSet L g C B' := by
  refine exists_region ?_
  have r1 : ∀ a b c, region L A B C a b c = region L A C' B' c b a := fun a b c => by
    rw [region_map hf f1 f2 f3, region_swap', region_swap, region_swap']
  have m : ∀ b c, region L A B C True b c + region L A B C False b c = region L A C' B' True c b + region L A C' B' False c b := by
    intro b c
    rw [region_sum, region_map hτ t2 t2 t3, ← region_sum L A B' C', region_swap', region_swap' L A B' C']
  refine prop_cases ?_
  have m1 := m True True
  have m2 := m True False
  have m3 := m False True
  have m4 := m False False
  rw [r1, r1] at m1 m2 m3 m4
  refine ⟨?_, ?_, ?_, ?_, ?_, ?_, ?_, ?_⟩ <;> rw [r1] <;> omega

end regions

end Pymnet
