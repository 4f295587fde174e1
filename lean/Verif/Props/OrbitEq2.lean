import Verif.Props.OrbitEq

/-! C107-C110: cases that meet the hypotheses, and the value of `subtrahend`. -/

set_option linter.unusedSectionVars false
set_option linter.unusedSimpArgs false
set_option linter.unusedVariables false

namespace Pymnet

open Py MPlex

/-- Four nodes, any two of them linked on layer 7, and another layer. -/
def fourAll : List (POp Int Int) := [.setItem [1, 2, 7] 1, .setItem [1, 3, 7] 1, .setItem [1, 4, 7] 1, .setItem [2, 3, 7] 1,
  .setItem [2, 4, 7] 1, .setItem [3, 4, 7] 1, .addLayer 8 1]

theorem fourAll_net : Spec.CountNet [7, 8] none fourAll ∧ (∀ x, (Spec.shown fourAll).node x ↔ x ∈ ([1, 2, 3, 4] : List Int)) ∧
    ∀ x, (Spec.shown fourAll).layer x ↔ x = 7 ∨ x = 8 := by
  obtain ⟨s0, s1, -, -, s4⟩ := after_spec (cs := [(.uncoupled none : Coupling Int Int)]) (by simp) false 0 true fourAll
  have h1 : ∀ x, (Spec.shown fourAll).layer x ↔ x ∈ ([7, 8] : List Int) := fun x => by
    refine (s1 1 x (by omega)).symm.trans ?_
    rw [inSlice_getElem? (s := [7, 8]) (by decide +kernel)]
  refine ⟨⟨⟨[7, 8], List.Sublist.refl _, rfl, h1⟩, ?_⟩, fun x => ?_, fun x => by rw [h1]; simp⟩
  · intro L i w h
    simp [fourAll] at h
  · refine (s0 x).symm.trans ?_
    rw [inSlice_getElem? (s := [1, 2, 3, 4]) (by decide +kernel)]

theorem fourAll_link {i j x : Int} (hi : i ∈ ([1, 2, 3, 4] : List Int)) (hj : j ∈ ([1, 2, 3, 4] : List Int)) (hx : x = 7 ∨ x = 8) :
    (Spec.shown fourAll).link x i j ↔ x = 7 ∧ i ≠ j := by
  have hl : Spec.HasLayer [(.uncoupled none : Coupling Int Int)].length true fourAll (.ofList [x]) := by
    refine ⟨[x], rfl, rfl, fun k y hk => ?_⟩
    rcases k with - | k
    · cases hk; exact (fourAll_net.2.2 x).2 hx
    · simp at hk
  by_cases hij : i = j
  · exact ⟨fun h => absurd hij h.1, fun h => absurd hij h.2⟩
  · have key := (C18_read (cs := [(.uncoupled none : Coupling Int Int)]) (by simp) false 0 true fourAll hl i j).1 [i, j, x] hij
      ⟨rfl, rfl, Or.inr ⟨i, j, [x], rfl, rfl, rfl⟩⟩
    have hw : (afterP [(.uncoupled none : Coupling Int Int)] false 0 true fourAll).view.readItem [i, j, x] =
        .ok (.weight (if x = 7 then 1 else 0)) := by
      have all : ∀ i ∈ ([1, 2, 3, 4] : List Int), ∀ j ∈ ([1, 2, 3, 4] : List Int), ∀ x ∈ ([7, 8] : List Int), i ≠ j →
          (afterP [(.uncoupled none : Coupling Int Int)] false 0 true fourAll).view.readItem [i, j, x] =
          .ok (.weight (if x = 7 then 1 else 0)) := by decide +kernel
      exact all i hi j hj x (by simpa using hx) hij
    rw [hw] at key
    have e : (if x = 7 then 1 else 0) = Spec.readP 1 false true fourAll [x] i j := by
      injection key with key
      injection key
    show (i ≠ j ∧ Spec.readP 1 false true fourAll [x] i j ≠ 0) ↔ _
    rw [← e]
    rcases hx with rfl | rfl <;> simp [hij]

theorem fourAll_connected {s : Finset Int} (hs : ∀ x ∈ s, x ∈ ([1, 2, 3, 4] : List Int)) : Spec.ConnectedSet (Spec.shown fourAll) s := by
  refine ⟨fun x hx => (fourAll_net.2.1 x).2 (hs x hx), fun i j hi hj => ?_⟩
  by_cases hij : i = j
  · rw [hij]
  · exact Relation.ReflTransGen.single ⟨hi, hj, 7, (fourAll_net.2.2 7).2 (Or.inl rfl),
      (fourAll_link (hs i hi) (hs j hj) (Or.inl rfl)).2 ⟨rfl, hij⟩⟩

/-- any two sets of equally many nodes are alike -/
theorem fourAll_iso {s t : Finset Int} (hs : ∀ x ∈ s, x ∈ ([1, 2, 3, 4] : List Int)) (ht : ∀ x ∈ t, x ∈ ([1, 2, 3, 4] : List Int))
    {f : Int → Int} (hf : Set.BijOn f s t) : MIso (cplRel (.uncoupled none : Coupling Int Int)) (Spec.mayChange 1 none)
      (subG (Spec.shown fourAll) s) (subG (Spec.shown fourAll) t) f id := by
  refine ⟨fun h => absurd (by decide) h, fun _ _ => rfl, hf, Set.bijOn_id _, fun x i j hx hi hj => ?_, fun _ _ _ _ => Iff.rfl⟩
  have hx' := (fourAll_net.2.2 x).1 hx
  have e1 : (subG (Spec.shown fourAll) s).link x i j ↔ _ := fourAll_link (hs i hi) (hs j hj) hx'
  have e2 : (subG (Spec.shown fourAll) t).link x (f i) (f j) ↔ _ := fourAll_link (ht _ (hf.mapsTo hi)) (ht _ (hf.mapsTo hj)) hx'
  rw [e1, id, e2]
  exact and_congr_right fun _ => not_congr (hf.injOn.eq_iff hi hj).symm

open Classical in
/-- **C110 is false of the code**, even where the name `xrange` is defined: there are sets of nodes in which the node has the role of the second
orbit, but `subtrahend` does not count them, as they have more than the node in common. The graphlet is that of four nodes that are all
linked on one layer, the second orbit that of three such nodes. -/
theorem C110_false_disjoint {ordS : List Int → List Int} (ho : ∀ l, (ordS l).Perm l) :
    ∃ (canon : CGraph → (CGraph → Prop)) (match? : _) (gens : _) (T : _) (is : _) (ol : _),
    Spec.Prepared canon (id : List (List Int × Nat) × (CGraph → Prop) → _) match? gens none (.uncoupled none : Coupling Int Int)
      (fun k => (k : Int)) [7, 8] none 4 (fun s => s.sort (· ≤ ·)) T is ol ∧
    ∃ q1 ∈ ol, ∃ q2 ∈ ol, ∃ (l1 l2 : _) (ops1 ops2 : List (POp Int Int)) (m : Nat),
      Dict.get T.nets q1.1 = some l1 ∧ l1[q1.2.1]? = some (afterP [.uncoupled none] false 0 true ops1) ∧
      Dict.get T.nets q2.1 = some l2 ∧ l2[q2.2.1]? = some (afterP [.uncoupled none] false 0 true ops2) ∧
      subtrahend true ⟨canon, id, match?, none⟩ T (fun s => s.sort (· ≤ ·)) ordS q1 q2 = .ok m ∧ m ≤ 1 ∧
      ∃ t u : Finset Int, t ≠ u ∧
        (q1.2.2 ∈ t ∧ (∀ x ∈ t, (Spec.shown ops1).node x) ∧ Spec.PlaysRole (.uncoupled none) none ops1 t q1.2.2 ops2 q2.2.2) ∧
        q1.2.2 ∈ u ∧ (∀ x ∈ u, (Spec.shown ops1).node x) ∧ Spec.PlaysRole (.uncoupled none) none ops1 u q1.2.2 ops2 q2.2.2 := by
  obtain ⟨canon, match?, gens, T, is, ol, P⟩ := exists_prepared 4
  refine ⟨canon, match?, gens, T, is, ol, P, ?_⟩
  obtain ⟨S, -, -⟩ := P.setup
  have hok := fourAll_net.1.netOk P.coupling
  have hA : ∀ x ∈ ({1, 2, 3, 4} : Finset Int), x ∈ ([1, 2, 3, 4] : List Int) := by decide
  have hB : ∀ x ∈ ({1, 2, 3} : Finset Int), x ∈ ([1, 2, 3, 4] : List Int) := by decide
  have hC : ∀ x ∈ ({1, 2, 4} : Finset Int), x ∈ ([1, 2, 3, 4] : List Int) := by decide
  obtain ⟨m1, k1, iso1, -, i1⟩ := S.identify hok fourAll_net.1.layer (fourAll_connected hA) (by decide) (by decide)
  obtain ⟨o1, -, hq1, hr1⟩ := i1 1 (by decide)
  obtain ⟨m2, k2, iso2, -, i2⟩ := S.identify hok fourAll_net.1.layer (fourAll_connected hB) (by decide) (by decide)
  obtain ⟨o2, -, hq2, hr2⟩ := i2 1 (by decide)
  obtain ⟨ops1, hst1, f0, f1, hf, hf1⟩ := (hr1 _ hq1).1 rfl
  have hrB := (hr2 _ hq2).1 rfl
  obtain ⟨ops2, hst2, g0, g1, hg, hg1⟩ := hrB
  have hbij : Set.BijOn (fun x : Int => if x = 4 then 3 else x) (({1, 2, 4} : Finset Int) : Set Int) (({1, 2, 3} : Finset Int) : Set Int) := by
    refine ⟨?_, ?_, ?_⟩
    · intro x hx
      simp only [Finset.coe_insert, Finset.coe_singleton, Set.mem_insert_iff, Set.mem_singleton_iff] at hx ⊢
      rcases hx with rfl | rfl | rfl <;> decide
    · intro x hx y hy e
      simp only [Finset.coe_insert, Finset.coe_singleton, Set.mem_insert_iff, Set.mem_singleton_iff] at hx hy
      rcases hx with rfl | rfl | rfl <;> rcases hy with rfl | rfl | rfl <;> first | rfl | exact absurd e (by decide)
    · intro y hy
      simp only [Finset.coe_insert, Finset.coe_singleton, Set.mem_insert_iff, Set.mem_singleton_iff] at hy
      rcases hy with rfl | rfl | rfl
      · exact ⟨1, by simp, by decide⟩
      · exact ⟨2, by simp, by decide⟩
      · exact ⟨4, by simp, by decide⟩
  have hrC : Role (.uncoupled none) none T.nets (Spec.shown fourAll) {1, 2, 4} 1 (m2, k2, o2) := by
    refine ⟨ops2, hst2, _, _, (fourAll_iso hC hB hbij).trans hg, ?_⟩
    rw [Function.comp_apply]
    exact hg1
  have hrB : Role (.uncoupled none) none T.nets (Spec.shown fourAll) {1, 2, 3} 1 (m2, k2, o2) := ⟨ops2, hst2, g0, g1, hg, hg1⟩
  have hBA : ({1, 2, 3} : Finset Int) ⊆ {1, 2, 3, 4} := by decide
  have hCA : ({1, 2, 4} : Finset Int) ⊆ {1, 2, 3, 4} := by decide
  have him : ∀ t ⊆ ({1, 2, 3, 4} : Finset Int), ∀ x ∈ t.image f0, (Spec.shown ops1).node x := by
    intro t ht x hx
    obtain ⟨y, hy, rfl⟩ := Finset.mem_image.1 hx
    exact hf.nodes.mapsTo (ht hy)
  have rB := (role_image hf hBA (by decide)).2 hrB
  have rC := (role_image hf hCA (by decide)).2 hrC
  rw [hf1] at rB rC
  have hin : ∀ t : Finset Int, 1 ∈ t → o1 ∈ t.image f0 := fun t ht => Finset.mem_image.2 ⟨1, ht, hf1⟩
  obtain ⟨l1, hl1, hk1⟩ := hst1
  obtain ⟨l2, hl2, hk2⟩ := hst2
  obtain ⟨m, e, ⟨F, ⟨hF1, hF2⟩, hFm⟩, -⟩ := C110_disjoint_partial P ho hq1 hq2 hl1 hk1 hl2 hk2
  refine ⟨_, hq1, _, hq2, l1, l2, ops1, ops2, m, hl1, hk1, hl2, hk2, e, ?_, ({1, 2, 3} : Finset Int).image f0, ({1, 2, 4} : Finset Int).image f0,
    ?_, ⟨hin _ (by decide), him _ hBA, ?_⟩, hin _ (by decide), him _ hCA, ?_⟩
  · have hm1 : m1 = 4 := (S.role_set (fun x hx => (fourAll_net.2.1 x).2 (hA x hx)) ((hr1 _ hq1).1 rfl)).1.symm
    have hm2 : m2 = 3 := (S.role_set (fun x hx => (fourAll_net.2.1 x).2 (hB x hx)) hrB).1.symm
    rw [← hFm]
    refine Finset.card_le_one.2 fun t ht u hu => ?_
    by_contra hne
    have hi := hF2 t ht u hu hne
    have ct := (S.role_set (hF1 t ht).2.1 ((S.role_plays hq2 ⟨l2, hl2, hk2⟩ (hF1 t ht).2.1 (hF1 t ht).1).2 (hF1 t ht).2.2)).1
    have cu := (S.role_set (hF1 u hu).2.1 ((S.role_plays hq2 ⟨l2, hl2, hk2⟩ (hF1 u hu).2.1 (hF1 u hu).1).2 (hF1 u hu).2.2)).1
    obtain ⟨A, cA, hAm⟩ := S.all_nodes (q := (m1, k1, o1)) (ops' := ops1) ⟨l1, hl1, hk1⟩
    have hsub : t ∪ u ⊆ A := by
      intro x hx
      rcases Finset.mem_union.1 hx with hx | hx
      · exact (hAm x).2 ((hF1 t ht).2.1 x hx)
      · exact (hAm x).2 ((hF1 u hu).2.1 x hx)
    have h1 := Finset.card_le_card hsub
    have h2 := Finset.card_union_add_card_inter t u
    rw [hi, Finset.card_singleton] at h2
    dsimp only at ct cu cA
    omega
  · intro h
    have h3 : f0 3 ∈ ({1, 2, 4} : Finset Int).image f0 := h ▸ Finset.mem_image.2 ⟨3, by decide, rfl⟩
    obtain ⟨y, hy, e⟩ := Finset.mem_image.1 h3
    have := hf.nodes.injOn (hCA hy) (show (3 : Int) ∈ ({1, 2, 3, 4} : Finset Int) by decide) e
    rw [this] at hy
    exact absurd hy (by decide)
  · exact (S.role_plays hq2 ⟨l2, hl2, hk2⟩ (him _ hBA) (hin _ (by decide))).1 rB
  · exact (S.role_plays hq2 ⟨l2, hl2, hk2⟩ (him _ hCA) (hin _ (by decide))).1 rC

open Classical in
/-- the hypotheses of C107, C108 and C109 are met: the orbits of two and of three linked nodes, in the network of four; the orbit of the node
is named -/
example : ∃ (canon : CGraph → (CGraph → Prop)) (match? : _) (gens : _) (T : _) (is : _) (ol : _),
    Spec.Prepared canon (id : List (List Int × Nat) × (CGraph → Prop) → _) match? gens none (.uncoupled none : Coupling Int Int)
      (fun k => (k : Int)) [7, 8] none 4 (fun s => s.sort (· ≤ ·)) T is ol ∧
    ∃ q1 ∈ ol, ∃ q2 ∈ ol, ∃ q3 ∈ ol, q1.1 = 2 ∧ q2.1 = 3 ∧ q1.1 + q2.1 ≤ 4 + 1 ∧ Spec.CountNet [7, 8] none fourAll ∧
      orbitName ⟨canon, id, match?, none⟩ T 1 (afterP [.uncoupled none] false 0 true fourAll) = .ok q3 ∧ q3.1 = 4 := by
  obtain ⟨canon, match?, gens, T, is, ol, P⟩ := exists_prepared 4
  refine ⟨canon, match?, gens, T, is, ol, P, ?_⟩
  obtain ⟨S, -, -⟩ := P.setup
  have hok := fourAll_net.1.netOk P.coupling
  have hA : ∀ x ∈ ({1, 2, 3, 4} : Finset Int), x ∈ ([1, 2, 3, 4] : List Int) := by decide
  have hB : ∀ x ∈ ({1, 2, 3} : Finset Int), x ∈ ([1, 2, 3, 4] : List Int) := by decide
  have hC : ∀ x ∈ ({1, 2} : Finset Int), x ∈ ([1, 2, 3, 4] : List Int) := by decide
  obtain ⟨m1, k1, iso1, -, i1⟩ := S.identify hok fourAll_net.1.layer (fourAll_connected hC) (by decide) (by decide)
  obtain ⟨o1, -, hq1, hr1⟩ := i1 1 (by decide)
  obtain ⟨m2, k2, iso2, -, i2⟩ := S.identify hok fourAll_net.1.layer (fourAll_connected hB) (by decide) (by decide)
  obtain ⟨o2, -, hq2, hr2⟩ := i2 1 (by decide)
  obtain ⟨q3, hq3, e3, hn3⟩ := C109_name P fourAll_net.1 (s := {1, 2, 3, 4}) (v := 1) (fun x => by rw [fourAll_net.2.1]; simp)
    (fourAll_connected hA) (by decide) (by decide) (by decide)
  have hm1 : m1 = 2 := (S.role_set (fun x hx => (fourAll_net.2.1 x).2 (hC x hx)) ((hr1 _ hq1).1 rfl)).1.symm
  have hm2 : m2 = 3 := (S.role_set (fun x hx => (fourAll_net.2.1 x).2 (hB x hx)) ((hr2 _ hq2).1 rfl)).1.symm
  obtain ⟨-, ops3, -, ⟨l3, hl3, hk3⟩, -⟩ := (S.ol q3).1 hq3
  have hr3 := (S.role_plays hq3 ⟨l3, hl3, hk3⟩ (fun x hx => (fourAll_net.2.1 x).2 (hA x hx)) (by decide)).2
    ((hn3 q3 hq3 l3 ops3 hl3 hk3).2 rfl)
  have hm3 := (S.role_set (fun x hx => (fourAll_net.2.1 x).2 (hA x hx)) hr3).1.symm
  refine ⟨_, hq1, _, hq2, q3, hq3, hm1, hm2, ?_, fourAll_net.1, e3, hm3⟩
  dsimp only
  omega

end Pymnet
