import Verif.Proofs.ModularityNet
import Verif.Props.Transforms

/-! C122-C123: the modularity view. -/

set_option linter.unusedSectionVars false
set_option linter.unusedSimpArgs false

namespace Pymnet

open Py

variable {α W : Type} [DecidableEq α] [DecidableEq W] [Field W] {m : MNet α W} {d : Nat} {z : W} {dir al : Bool} {S : Nat → α → Prop}
  {NL : List α → Prop} {R : List α → List α → W}

/-- The strength of node `i` within layer `s`: the sum of the weights of its links to nodes `N` of the layer. -/
def Spec.layerStr (N : Finset α) (R : List α → List α → W) (i : α) (s : List α) : W := ∑ j ∈ N, R (i :: s) (j :: s)

/-- Twice the weight of all links within layer `s`. -/
def Spec.layerWeight (N : Finset α) (R : List α → List α → W) (s : List α) : W := ∑ i ∈ N, Spec.layerStr N R i s

theorem mem_cons_product {N : List α} {Ls : List (List α)} {i : α} {s : List α} : i :: s ∈ product (N :: Ls) ↔ i ∈ N ∧ s ∈ product Ls := by
  simp only [product, List.mem_flatMap, List.mem_map]
  constructor
  · rintro ⟨x, hx, y, hy, e⟩
    obtain ⟨rfl, rfl⟩ := List.cons.inj e
    exact ⟨hx, hy⟩
  · rintro ⟨h1, h2⟩
    exact ⟨i, h1, s, h2, rfl⟩

theorem sum_finset_of_list {β M : Type} [DecidableEq β] [AddCommMonoid M] {l : List β} (hl : l.Nodup) {A : Finset β}
    (hA : ∀ x, x ∈ A ↔ x ∈ l) (f : β → M) : (l.map f).sum = ∑ x ∈ A, f x := by
  have : A = l.toFinset := by ext x; simp [hA]
  rw [this, List.sum_toFinset _ hl]

/-- **C122 (partial).** The modularity view of an undirected network with at least one aspect and a total weight that is not zero: between
layers it has the weights of the network, and within a layer that has links these weights less `gamma*k_i*k_j/(2m)`, where the `k` are the
strengths within the layer and `2m` is their sum. Within a layer in which `2m` is zero, reading raises a `ZeroDivisionError`. -/
theorem C122_modularity_partial [CharZero W] (h : Spec.Looks m d 0 false al S NL R) (hd : 1 ≤ d) (gamma : W) {N : Finset α}
    (hN : ∀ x, x ∈ N ↔ S 0 x) {A : Finset (List α)} (hA : ∀ a, a ∈ A ↔ Spec.AllNodeLayers d S a) (hw : ∑ a ∈ A, ∑ b ∈ A, R a b ≠ 0) :
    ∃ V, modInit m.view m.str gamma = .ok V ∧
      ∀ i j s t item, Spec.Addresses d item (i :: s) (j :: t) → Spec.AllNodeLayers d S (i :: s) → Spec.AllNodeLayers d S (j :: t) →
        (s ≠ t → V.read item = .ok (.weight (R (i :: s) (j :: t)))) ∧
        (s = t → V.read item = if Spec.layerWeight N R s = 0 then .error .zeroDivisionError
          else .ok (.weight (R (i :: s) (j :: s) -
            gamma * Spec.layerStr N R i s * Spec.layerStr N R j s / Spec.layerWeight N R s))) := by
  obtain ⟨N', Ls, hnd, hN', hsl, hm⟩ := looks_modSees h hd
  have hNN : ∀ x, x ∈ N ↔ x ∈ N' := fun x => (hN x).trans (hN' x).symm
  have hp : (product (N' :: Ls)).Nodup := nodup_product (by
    intro s hs
    rcases List.mem_cons.1 hs with rfl | hs
    · exact hnd
    · exact hm.nodup s hs)
  have hAA : ∀ a, a ∈ A ↔ a ∈ product (N' :: Ls) := fun a => by rw [hA, ← h.mem_product, hsl]
  have hu : ((product (N' :: Ls)).map fun a => ((product (N' :: Ls)).map fun b => R a b).sum).sum ≠ 0 := by
    rw [sum_finset_of_list hp hAA]
    simpa only [sum_finset_of_list hp hAA] using hw
  obtain ⟨mm, hi, hmm⟩ := modInit_ok hm gamma hu
  refine ⟨_, hi, fun i j s t item had hi hj => ?_⟩
  rw [← h.mem_product, hsl] at hi hj
  have hasp : m.view.aspects = d := h.aspects_eq
  have hr := modRead_ok hm (gamma := gamma) hmm (item := item) (a := i :: s) (b := j :: t)
    (u := ((product (N' :: Ls)).map fun a => ((product (N' :: Ls)).map fun b => R a b).sum).sum) (by rw [hasp]; exact had)
    (hm.link _ hi _ hj)
  refine ⟨fun hst => hr.1 hst, ?_⟩
  rintro rfl
  rw [hr.2 i j s rfl rfl (mem_cons_product.1 hi).2]
  have e : ∀ i, (N'.map fun j => R (i :: s) (j :: s)).sum = Spec.layerStr N R i s := fun i => sum_finset_of_list hnd hNN _
  simp only [e, sum_finset_of_list hnd hNN, Spec.layerWeight]
  congr

/-- **C123.** In a layer that has links, the entries of the view with one node add up to the strength of the node within the layer times
`1 - gamma`: to 0 with the default. -/
theorem C123_row_sums [CharZero W] (h : Spec.Looks m d 0 false al S NL R) (hd : 1 ≤ d) (gamma : W) {N : Finset α}
    (hN : ∀ x, x ∈ N ↔ S 0 x) {A : Finset (List α)} (hA : ∀ a, a ∈ A ↔ Spec.AllNodeLayers d S a) (hw : ∑ a ∈ A, ∑ b ∈ A, R a b ≠ 0)
    {i : α} {s : List α} (hi : Spec.AllNodeLayers d S (i :: s)) (hs : Spec.layerWeight N R s ≠ 0) :
    ∃ V, modInit m.view m.str gamma = .ok V ∧ ∃ Q : α → W, (∀ j ∈ N, V.read (i :: j :: s) = .ok (.weight (Q j))) ∧
      ∑ j ∈ N, Q j = (1 - gamma) * Spec.layerStr N R i s := by
  obtain ⟨V, h1, h2⟩ := C122_modularity_partial h hd gamma hN hA hw
  refine ⟨V, h1, fun j => R (i :: s) (j :: s) - gamma * Spec.layerStr N R i s * Spec.layerStr N R j s / Spec.layerWeight N R s,
    fun j hj => ?_, ?_⟩
  · have ls : s.length = d := by simpa using hi.1
    have hj' : Spec.AllNodeLayers d S (j :: s) := by
      refine ⟨by simp [ls], fun k x hx => ?_⟩
      cases k with
      | zero =>
        have : j = x := by simpa using hx
        rw [← this]; exact (hN j).1 hj
      | succ k => exact hi.2 (k + 1) x (by simpa using hx)
    rw [(h2 i j s s (i :: j :: s) ⟨by simp [ls], by simp [ls], Or.inr ⟨i, j, s, rfl, rfl, rfl⟩⟩ hi hj').2 rfl, if_neg hs]
  · rw [Finset.sum_sub_distrib]
    have e : ∑ j ∈ N, gamma * Spec.layerStr N R i s * Spec.layerStr N R j s / Spec.layerWeight N R s =
        gamma * Spec.layerStr N R i s := by
      rw [← Finset.sum_div, ← Finset.mul_sum]
      exact mul_div_cancel_right₀ _ hs
    rw [e, sub_mul, one_mul]
    rfl

/-- **C122, not met.** The view of a network without aspects cannot be made. -/
theorem C122_false_no_aspects (h : Spec.Looks m 0 z dir al S NL R) (gamma : W) : ∃ e, modInit m.view m.str gamma = .error e := by
  have hasp : m.view.aspects = 0 := h.aspects_eq
  have hlen : m.slices.length = 1 := by rw [h.inv.r.slen, h.aspects_eq]
  obtain ⟨N, hsl⟩ := List.length_eq_one_iff.1 hlen
  have hsl' : m.view.slices = [N] := hsl
  unfold modInit
  rw [hsl']
  simp only [List.drop_one, List.tail_cons, product, forE]
  have : ∃ e, modSlice m.view m.str [] [] = .error e := by
    unfold modSlice
    rw [hsl']
    cases N with
    | nil => exact ⟨.keyError, rfl⟩
    | cons x N =>
      refine ⟨.attributeError, ?_⟩
      simp only [List.headD_cons, forE, modNode, sliceStr, hasp, if_true]
  obtain ⟨e, he⟩ := this
  rw [he]
  exact ⟨e, rfl⟩

/-- an example: two layers, links within the first of them and between them -/
def modSampleOps : List (Op Nat ℚ) :=
  [.addLayer 11 1, .setItem [1, 2, 10, 10] 2, .setItem [2, 3, 10, 10] 1, .setItem [1, 1, 10, 11] 5]

/-- its node-layers -/
def modSampleAll : Finset (List Nat) := {[1, 10], [1, 11], [2, 10], [2, 11], [3, 10], [3, 11]}

theorem modSample_names : (∀ x, x ∈ ({1, 2, 3} : Finset Nat) ↔ Spec.HasName 1 true modSampleOps 0 x) ∧
    ∀ a, a ∈ modSampleAll ↔ Spec.AllNodeLayers 1 (Spec.HasName 1 true modSampleOps) a := by
  have h := network_looks 1 0 false true modSampleOps
  constructor
  · intro x
    obtain ⟨l, h1, -, h2⟩ := h.layers 0 (by omega)
    rw [← h2]
    have : l = [1, 2, 3] := by
      have e : (after 1 0 false true modSampleOps).getLayers 0 = .ok [1, 2, 3] := by decide +kernel
      rw [e] at h1; cases h1; rfl
    simp [this]
  · intro a
    rw [← h.mem_product]
    have : product (after 1 0 false true modSampleOps).slices = [[1, 11], [1, 10], [2, 11], [2, 10], [3, 11], [3, 10]] := by decide +kernel
    rw [this]
    constructor
    · intro ha; revert a; decide
    · intro ha; revert a; decide

/-- its links -/
def modSampleTab : List (List Nat × List Nat × ℚ) :=
  [([1, 10], [2, 10], 2), ([2, 10], [3, 10], 1), ([1, 10], [1, 11], 5), ([2, 10], [1, 10], 2), ([3, 10], [2, 10], 1), ([1, 11], [1, 10], 5)]

theorem modSample_reads : ∀ a ∈ modSampleAll, ∀ b ∈ modSampleAll, Spec.read 1 false (0 : ℚ) modSampleOps a b =
    ((modSampleTab.find? fun p => p.1 = a ∧ p.2.1 = b).map fun p => p.2.2).getD 0 := by
  intro a ha b hb
  have h := network_looks 1 0 false true modSampleOps
  have la := ((modSample_names.2 a).1 ha).1
  have lb := ((modSample_names.2 b).1 hb).1
  rw [← h.reads_eq la lb]
  revert a b
  decide +kernel

theorem modSample_weight : ∑ a ∈ modSampleAll, ∑ b ∈ modSampleAll, Spec.read 1 false (0 : ℚ) modSampleOps a b ≠ 0 := by
  rw [Finset.sum_congr rfl fun a ha => Finset.sum_congr rfl fun b hb => modSample_reads a ha b hb]
  simp [modSampleAll, modSampleTab]
  norm_num

theorem modSample_layerStr (i x : Nat) (h : i ∈ ({1, 2, 3} : Finset Nat)) (hx : x ∈ ({10, 11} : Finset Nat)) :
    Spec.layerStr {1, 2, 3} (Spec.read 1 false (0 : ℚ) modSampleOps) i [x] = if x = 11 then 0 else if i = 2 then 3 else if i = 1 then 2 else 1 := by
  unfold Spec.layerStr
  have hall : ∀ i ∈ ({1, 2, 3} : Finset Nat), ∀ x ∈ ({10, 11} : Finset Nat), [i, x] ∈ modSampleAll := by decide
  rw [Finset.sum_congr rfl fun j hj => modSample_reads [i, x] (hall i h x hx) [j, x] (hall j hj x hx)]
  simp only [Finset.mem_insert, Finset.mem_singleton] at h hx
  rcases h with rfl | rfl | rfl <;> rcases hx with rfl | rfl <;> simp [modSampleTab] <;> norm_num

theorem modSample_layerWeight : Spec.layerWeight {1, 2, 3} (Spec.read 1 false (0 : ℚ) modSampleOps) [10] = 6 ∧
    Spec.layerWeight {1, 2, 3} (Spec.read 1 false (0 : ℚ) modSampleOps) [11] = 0 := by
  unfold Spec.layerWeight
  constructor
  · rw [Finset.sum_congr rfl fun i hi => modSample_layerStr i 10 hi (by decide)]
    simp
    norm_num
  · rw [Finset.sum_congr rfl fun i hi => modSample_layerStr i 11 hi (by decide)]
    simp

example : ∃ V, modInit (after 1 0 false true modSampleOps).view (after 1 0 false true modSampleOps).str 1 = .ok V ∧
    ∃ Q : Nat → ℚ, (∀ j ∈ ({1, 2, 3} : Finset Nat), V.read [2, j, 10] = .ok (.weight (Q j))) ∧
      ∑ j ∈ {1, 2, 3}, Q j = (1 - 1) * Spec.layerStr {1, 2, 3} (Spec.read 1 false (0 : ℚ) modSampleOps) 2 [10] :=
  C123_row_sums (network_looks 1 0 false true modSampleOps) le_rfl 1 modSample_names.1 modSample_names.2 modSample_weight
    ((modSample_names.2 _).1 (by decide)) (by rw [modSample_layerWeight.1]; norm_num)

/-- **C122, not met.** A layer without links: its entries of the view cannot be read. -/
theorem C122_false_layer_without_links : ∃ V, modInit (after 1 0 false true modSampleOps).view (after 1 0 false true modSampleOps).str 1 = .ok V ∧
    V.read [1, 2, 11] = .error .zeroDivisionError ∧ V.read [1, 2, 10] = .ok (.weight 1) := by
  obtain ⟨V, h1, h2⟩ := C122_modularity_partial (network_looks 1 0 false true modSampleOps) le_rfl 1 modSample_names.1 modSample_names.2
    modSample_weight
  have hall : ∀ a ∈ modSampleAll, Spec.AllNodeLayers 1 (Spec.HasName 1 true modSampleOps) a := fun a ha => (modSample_names.2 a).1 ha
  refine ⟨V, h1, ?_, ?_⟩
  · rw [(h2 1 2 [11] [11] [1, 2, 11] ⟨rfl, rfl, Or.inr ⟨1, 2, [11], rfl, rfl, rfl⟩⟩ (hall _ (by decide)) (hall _ (by decide))).2 rfl]
    exact if_pos modSample_layerWeight.2
  · rw [(h2 1 2 [10] [10] [1, 2, 10] ⟨rfl, rfl, Or.inr ⟨1, 2, [10], rfl, rfl, rfl⟩⟩ (hall _ (by decide)) (hall _ (by decide))).2 rfl,
      modSample_layerWeight.1, if_neg (by norm_num), modSample_layerStr 1 10 (by decide) (by decide),
      modSample_layerStr 2 10 (by decide) (by decide), modSample_reads _ (by decide) _ (by decide)]
    congr 2
    simp [modSampleTab]
    norm_num

end Pymnet
