import Verif.Model.Graphlets
import Verif.Spec.Graphlets
import Verif.Proofs.Comb
import Verif.Proofs.Checks
import Verif.Proofs.Subnet
import Mathlib.Algebra.Order.BigOperators.Group.Finset

/-! The enumerators of `graphlets.py`. -/

namespace Pymnet

open Py Spec

variable {α : Type} [DecidableEq α]

/-- a loop that appends to a list in every round -/
theorem forE_concat {β γ : Type} {f : List γ → β → Except Err (List γ)} {g : β → List γ} {l : List β}
    (h : ∀ x ∈ l, ∀ s, f s x = .ok (s ++ g x)) (s : List γ) : forE f l s = .ok (s ++ l.flatMap g) := by
  induction l generalizing s with
  | nil => simp [forE]
  | cons x l ih =>
    simp only [forE, h x (by simp), List.flatMap_cons]
    rw [ih (fun y hy => h y (by simp [hy])), List.append_assoc]

theorem toFinset_filter_not (s c : List α) : (s.filter (· ∉ c)).toFinset = s.toFinset \ c.toFinset := by
  ext x; simp

theorem toFinset_filter_ne (s : List α) (a : α) : (s.filter (· ≠ a)).toFinset = s.toFinset.erase a := by
  ext x; simp [and_comm]

theorem blocks_cons (b : List α) (p : List (List α)) : blocks (b :: p) = insert b.toFinset (blocks p) := by
  simp [blocks]

theorem mem_blocks {p : List (List α)} {B : Finset α} : B ∈ blocks p ↔ ∃ b ∈ p, b.toFinset = B := by
  simp [blocks]

theorem Spec.Partition.erase {P : Finset (Finset α)} {s B : Finset α} (h : Partition P s) (hB : B ∈ P) :
    Partition (P.erase B) (s \ B) := by
  refine ⟨fun C hC => h.nonempty C (Finset.mem_of_mem_erase hC), fun C hC x hx => ?_, fun x hx => ?_⟩
  · have hC' := Finset.mem_erase.1 hC
    have hxs := h.inside C hC'.2 hx
    refine Finset.mem_sdiff.2 ⟨hxs, fun hxB => hC'.1 ?_⟩
    exact (h.one x hxs).unique ⟨hC'.2, hx⟩ ⟨hB, hxB⟩
  · obtain ⟨hxs, hxB⟩ := Finset.mem_sdiff.1 hx
    obtain ⟨C, ⟨hC, hxC⟩, hu⟩ := h.one x hxs
    refine ⟨C, ⟨Finset.mem_erase.2 ⟨fun e => hxB (e ▸ hxC), hC⟩, hxC⟩, ?_⟩
    rintro D ⟨hD, hxD⟩
    exact hu D ⟨Finset.mem_of_mem_erase hD, hxD⟩

theorem Spec.Partition.insert {P : Finset (Finset α)} {s B : Finset α} (h : Partition P (s \ B)) (hB : B ⊆ s)
    (hne : B.Nonempty) : Partition (insert B P) s ∧ B ∉ P := by
  have hnot : B ∉ P := by
    intro hB'
    obtain ⟨x, hx⟩ := hne
    exact (Finset.mem_sdiff.1 (h.inside B hB' hx)).2 hx
  refine ⟨⟨fun C hC => ?_, fun C hC => ?_, fun x hx => ?_⟩, hnot⟩
  · rcases Finset.mem_insert.1 hC with rfl | hC
    · exact hne
    · exact h.nonempty C hC
  · rcases Finset.mem_insert.1 hC with rfl | hC
    · exact hB
    · exact (h.inside C hC).trans Finset.sdiff_subset
  · by_cases hxB : x ∈ B
    · refine ⟨B, ⟨Finset.mem_insert_self _ _, hxB⟩, ?_⟩
      rintro C ⟨hC, hxC⟩
      rcases Finset.mem_insert.1 hC with rfl | hC
      · rfl
      · exact absurd hxB (Finset.mem_sdiff.1 (h.inside C hC hxC)).2
    · obtain ⟨C, ⟨hC, hxC⟩, hu⟩ := h.one x (Finset.mem_sdiff.2 ⟨hx, hxB⟩)
      refine ⟨C, ⟨Finset.mem_insert_of_mem hC, hxC⟩, ?_⟩
      rintro D ⟨hD, hxD⟩
      rcases Finset.mem_insert.1 hD with rfl | hD
      · exact absurd hxD hxB
      · exact hu D ⟨hD, hxD⟩

omit [DecidableEq α] in
theorem partition_empty {P : Finset (Finset α)} : Partition P ∅ ↔ P = ∅ := by
  constructor
  · intro h
    refine Finset.eq_empty_of_forall_notMem fun B hB => ?_
    obtain ⟨x, hx⟩ := h.nonempty B hB
    simpa using h.inside B hB hx
  · rintro rfl; exact ⟨by simp, by simp, by simp⟩

/-- what `partitions` promises of its result -/
structure PartList (ps : List (List (List α))) (r : Nat) (s : Finset α) : Prop where
  shape : ∀ p ∈ ps, p.flatten.Nodup ∧ ∀ b ∈ p, b.length = r
  nodup : (ps.map blocks).Nodup
  all : ∀ P, P ∈ ps.map blocks ↔ Partition P s ∧ ∀ B ∈ P, B.card = r

theorem partitionsAux_spec {ord : List α → List α} (ho : ∀ l, (ord l).Perm l) {r : Nat} (hr : 1 ≤ r) (fuel : Nat) :
    ∀ s : List α, s.Nodup → s.length < fuel → s.length % r = 0 →
      ∃ ps, partitionsAux ord r fuel s = .ok ps ∧ PartList ps r s.toFinset := by
  induction fuel with
  | zero => intro s _ h; omega
  | succ fuel ih =>
    intro s hs hf hd
    unfold partitionsAux
    rw [if_neg (by omega), if_neg (by omega)]
    cases hos : ord s with
    | nil =>
      have : s = [] := by
        have := ho s; rw [hos] at this; exact this.nil_eq.symm
      subst this
      refine ⟨[[]], rfl, by simp, by simp, ?_⟩
      intro P
      simp only [List.map_cons, List.map_nil, List.mem_singleton, List.toFinset_nil, partition_empty]
      constructor
      · rintro rfl; simp [blocks]
      · rintro ⟨rfl, _⟩; simp [blocks]
    | cons first tl =>
      have hfirst : first ∈ s := (ho s).mem_iff.1 (by rw [hos]; simp)
      set rest := s.filter (· ≠ first) with hrest
      have hrn : rest.Nodup := hs.filter _
      have hor : (ord rest).Nodup := (ho rest).nodup_iff.2 hrn
      have hmr : ∀ x, x ∈ ord rest ↔ x ∈ s ∧ x ≠ first := by
        intro x; rw [(ho rest).mem_iff, hrest]; simp
      have hrl : rest.length + 1 = s.length := by
        have h1 := List.toFinset_card_of_nodup hrn
        have h2 := List.toFinset_card_of_nodup hs
        rw [hrest, toFinset_filter_ne, Finset.card_erase_of_mem (by simpa using hfirst)] at h1
        have : 0 < s.length := List.length_pos_of_mem hfirst
        rw [hrest]; omega
      -- facts about one choice of the first block
      have hc : ∀ c ∈ combinations (ord rest) (r - 1), (first :: c).Nodup ∧ (first :: c).toFinset ⊆ s.toFinset ∧
          (first :: c).length = r := by
        intro c hc
        obtain ⟨hsub, hlen⟩ := mem_combinations.1 hc
        refine ⟨List.nodup_cons.2 ⟨fun h => ((hmr first).1 (hsub.subset h)).2 rfl, hsub.nodup hor⟩, ?_, by simp; omega⟩
        intro x hx
        rw [List.mem_toFinset, List.mem_cons] at hx
        rw [List.mem_toFinset]
        rcases hx with rfl | hx
        · exact hfirst
        · exact ((hmr x).1 (hsub.subset hx)).1
      have hset : ∀ c, (rest.filter (· ∉ c)).toFinset = s.toFinset \ (first :: c).toFinset := by
        intro c
        ext x
        simp [hrest]
        tauto
      have hsub : ∀ c ∈ combinations (ord rest) (r - 1), ∃ ps, partitionsAux ord r fuel (rest.filter (· ∉ c)) = .ok ps ∧
          PartList ps r (s.toFinset \ (first :: c).toFinset) := by
        intro c hcm
        obtain ⟨h1, h2, h3⟩ := hc c hcm
        have hnf : (rest.filter (· ∉ c)).Nodup := hrn.filter _
        have hlen : (rest.filter (· ∉ c)).length + r = s.length := by
          have e1 := List.toFinset_card_of_nodup hnf
          rw [hset, Finset.card_sdiff_of_subset h2, List.toFinset_card_of_nodup h1, List.toFinset_card_of_nodup hs, h3] at e1
          have := Finset.card_le_card h2
          rw [List.toFinset_card_of_nodup h1, List.toFinset_card_of_nodup hs, h3] at this
          omega
        obtain ⟨ps, e1, e2⟩ := ih (rest.filter (· ∉ c)) hnf (by omega) (by
          rw [← hlen, Nat.add_mod_right] at hd; exact hd)
        rw [hset] at e2
        exact ⟨ps, e1, e2⟩
      choose! g hg1 hg2 using hsub
      refine ⟨_, forE_concat (g := fun c => (g c).map fun p => (first :: c) :: p) (fun c hcm out => by rw [hg1 c hcm]) [], ?_⟩
      simp only [List.nil_append]
      refine ⟨?_, ?_, ?_⟩
      · intro p hp
        simp only [List.mem_flatMap, List.mem_map] at hp
        obtain ⟨c, hcm, q, hq, rfl⟩ := hp
        obtain ⟨h1, h2, h3⟩ := hc c hcm
        obtain ⟨h4, h5⟩ := (hg2 c hcm).shape q hq
        refine ⟨?_, ?_⟩
        · rw [List.flatten_cons, List.nodup_append]
          refine ⟨h1, h4, ?_⟩
          rintro a ha b hb rfl
          obtain ⟨B, hB, haB⟩ := List.mem_flatten.1 hb
          have := ((hg2 c hcm).all _).1 (List.mem_map.2 ⟨q, hq, rfl⟩)
          have := this.1.inside _ (mem_blocks.2 ⟨B, hB, rfl⟩) (List.mem_toFinset.2 haB)
          exact (Finset.mem_sdiff.1 this).2 (List.mem_toFinset.2 ha)
        · intro b hb
          rcases List.mem_cons.1 hb with rfl | hb
          · exact h3
          · exact h5 b hb
      · rw [List.map_flatMap]
        rw [List.nodup_flatMap]
        constructor
        · intro c hcm
          obtain ⟨h1, h2, h3⟩ := hc c hcm
          rw [List.map_map]
          have hpart : ∀ q ∈ g c, (first :: c).toFinset ∉ blocks q := by
            intro q hq
            have := ((hg2 c hcm).all _).1 (List.mem_map.2 ⟨q, hq, rfl⟩)
            exact (this.1.insert h2 ⟨first, by simp⟩).2
          have := (hg2 c hcm).nodup
          rw [List.nodup_map_iff_inj_on (List.Nodup.of_map _ this)] at this
          refine (List.nodup_map_iff_inj_on (List.Nodup.of_map _ (hg2 c hcm).nodup)).2 ?_
          intro q hq q' hq' he
          simp only [Function.comp, blocks_cons] at he
          apply this q hq q' hq'
          rw [← Finset.erase_insert (hpart q hq), he, Finset.erase_insert (hpart q' hq')]
        · refine (nodup_combinations hor (r - 1)).imp_of_mem ?_
          intro c c' hcm hcm' hne
          simp only [Function.onFun, List.disjoint_left, List.mem_map]
          rintro _ ⟨_, ⟨q, hq, rfl⟩, rfl⟩ ⟨_, ⟨q', hq', rfl⟩, he⟩
          obtain ⟨h1, h2, h3⟩ := hc c hcm
          obtain ⟨h1', h2', h3'⟩ := hc c' hcm'
          have hP := (((hg2 c hcm).all _).1 (List.mem_map.2 ⟨q, hq, rfl⟩)).1.insert h2 ⟨first, by simp⟩
          rw [blocks_cons, blocks_cons] at he
          have heq : (first :: c').toFinset = (first :: c).toFinset := by
            refine (hP.1.one first (by simpa using hfirst)).unique ⟨?_, by simp⟩ ⟨Finset.mem_insert_self _ _, by simp⟩
            rw [← he]; exact Finset.mem_insert_self _ _
          apply hne
          refine combinations_unique hor hcm hcm' ?_
          rw [List.perm_ext_iff_of_nodup (List.nodup_cons.1 h1).2 (List.nodup_cons.1 h1').2]
          intro x
          have hx := congrArg (x ∈ ·) heq
          simp only [List.mem_toFinset, List.mem_cons, eq_iff_iff] at hx
          constructor
          · intro hxc
            rcases hx.2 (.inr hxc) with rfl | h
            · exact absurd hxc (List.nodup_cons.1 h1).1
            · exact h
          · intro hxc
            rcases hx.1 (.inr hxc) with rfl | h
            · exact absurd hxc (List.nodup_cons.1 h1').1
            · exact h
      · intro P
        constructor
        · intro hP
          simp only [List.mem_map, List.mem_flatMap] at hP
          obtain ⟨_, ⟨c, hcm, q, hq, rfl⟩, rfl⟩ := hP
          obtain ⟨h1, h2, h3⟩ := hc c hcm
          obtain ⟨h4, h5⟩ := ((hg2 c hcm).all _).1 (List.mem_map.2 ⟨q, hq, rfl⟩)
          rw [blocks_cons]
          refine ⟨(h4.insert h2 ⟨first, by simp⟩).1, ?_⟩
          intro B hB
          rcases Finset.mem_insert.1 hB with rfl | hB
          · rw [List.toFinset_card_of_nodup h1, h3]
          · exact h5 B hB
        · rintro ⟨hP, hPr⟩
          obtain ⟨B, ⟨hB, hfB⟩, _⟩ := hP.one first (by simpa using hfirst)
          obtain ⟨c, hcm, hperm⟩ := exists_combination (l := ord rest) (s := (s.filter (· ∈ B)).filter (· ≠ first))
            ((hs.filter _).filter _) hor (by
              intro x hx
              simp only [List.mem_filter, decide_eq_true_eq] at hx
              exact (hmr x).2 ⟨hx.1.1, hx.2⟩)
          have hcB : (first :: c).toFinset = B := by
            ext x
            simp only [List.mem_toFinset, List.mem_cons, hperm.mem_iff, List.mem_filter, decide_eq_true_eq]
            constructor
            · rintro (rfl | h)
              · exact hfB
              · exact h.1.2
            · intro hx
              by_cases hxf : x = first
              · exact .inl hxf
              · exact .inr ⟨⟨by simpa using hP.inside B hB hx, hx⟩, hxf⟩
          have hcn : (first :: c).Nodup := by
            refine List.nodup_cons.2 ⟨fun h => ?_, hperm.nodup_iff.2 ((hs.filter _).filter _)⟩
            have := hperm.mem_iff.1 h
            simp at this
          have hlen : c.length = r - 1 := by
            have := hPr B hB
            rw [← hcB, List.toFinset_card_of_nodup hcn, List.length_cons] at this
            omega
          have hcm' : c ∈ combinations (ord rest) (r - 1) :=
            mem_combinations.2 ⟨(mem_combinations.1 hcm).1, hlen⟩
          have := ((hg2 c hcm').all (P.erase B)).2 ⟨by rw [hcB]; exact hP.erase hB, fun C hC => hPr C (Finset.mem_of_mem_erase hC)⟩
          obtain ⟨q, hq, hqe⟩ := List.mem_map.1 this
          refine List.mem_map.2 ⟨(first :: c) :: q, List.mem_flatMap.2 ⟨c, hcm', List.mem_map.2 ⟨q, hq, rfl⟩⟩, ?_⟩
          rw [blocks_cons, hcB, hqe, Finset.insert_erase hB]

theorem toFinset_toSet (s : List α) : (toSet s).toFinset = s.toFinset := by
  ext x; simp [mem_toSet]

theorem length_toSet_eq (s : List α) : (toSet s).length = s.toFinset.card := by
  rw [← toFinset_toSet, List.toFinset_card_of_nodup nodup_toSet]

theorem partitions_spec {ord : List α → List α} (ho : ∀ l, (ord l).Perm l) {r : Nat} (hr : 1 ≤ r) {s : List α}
    (hd : s.toFinset.card % r = 0) : ∃ ps, partitions ord s r = .ok ps ∧ PartList ps r s.toFinset := by
  rw [← toFinset_toSet]
  refine partitionsAux_spec ho hr _ (toSet s) nodup_toSet ?_ ?_
  · rw [length_toSet_eq]; have := List.toFinset_card_le s; omega
  · rw [length_toSet_eq]; exact hd

theorem partitions_error {ord : List α → List α} {r : Nat} {s : List α} :
    (r = 0 → partitions ord s r = .error .zeroDivisionError) ∧
    (1 ≤ r → s.toFinset.card % r ≠ 0 → partitions ord s r = .error .assertionError) := by
  constructor
  · intro h; simp [partitions, partitionsAux, h]
  · intro h1 h2
    rw [← length_toSet_eq] at h2
    unfold partitions partitionsAux
    rw [if_neg (by omega), if_pos h2]

/-- what `partitions_with_remainder` yields for one size of the remainder -/
structure RemList (ps : List (List (List α))) (r n : Nat) (s : Finset α) : Prop where
  shape : ∀ p ∈ ps, p.flatten.Nodup
  nodup : (ps.map blocks).Nodup
  all : ∀ P, P ∈ ps.map blocks ↔ Partition P s ∧
    ((n = 0 ∧ ∀ B ∈ P, B.card = r) ∨ (n ≠ 0 ∧ n ≠ r ∧ ∃ B ∈ P, B.card = n ∧ ∀ C ∈ P, C.card ≠ r → C = B))

theorem blocks_snoc (b : List α) (p : List (List α)) : blocks (p ++ [b]) = insert b.toFinset (blocks p) := by
  ext B
  simp only [mem_blocks, Finset.mem_insert, List.mem_append, List.mem_singleton]
  constructor
  · rintro ⟨b', h | rfl, rfl⟩
    · exact .inr ⟨b', h, rfl⟩
    · exact .inl rfl
  · rintro (rfl | ⟨b', h, rfl⟩)
    · exact ⟨b, .inr rfl, rfl⟩
    · exact ⟨b', .inl h, rfl⟩

theorem remainderSize_spec {ord : List α → List α} (ho : ∀ l, (ord l).Perm l) {r : Nat} (hr : 1 ≤ r) {s : List α}
    (hs : s.Nodup) {n : Nat} (hn : n ≤ s.length) (hd : (s.length - n) % r = 0) :
    ∃ G, RemList G r n s.toFinset ∧ ∀ out, remainderSize ord s r out n = .ok (out ++ G) := by
  have hcard : s.toFinset.card = s.length := List.toFinset_card_of_nodup hs
  unfold remainderSize
  by_cases h0 : n = 0
  · subst h0
    obtain ⟨ps, h1, h2⟩ := partitions_spec ho hr (s := s) (by rw [hcard]; simpa using hd)
    refine ⟨ps, ⟨fun p hp => (h2.shape p hp).1, h2.nodup, fun P => ?_⟩, fun out => by simp [h1]⟩
    rw [h2.all]; simp
  by_cases hnr : n = r
  · subst hnr
    exact ⟨[], ⟨by simp, by simp, fun P => by simp [h0]⟩, fun out => by simp [h0]⟩
  have hos : (ord s).Nodup := (ho s).nodup_iff.2 hs
  have hc : ∀ c ∈ combinations (ord s) n, c.Nodup ∧ c.toFinset ⊆ s.toFinset ∧ c.length = n := by
    intro c hc
    obtain ⟨h1, h2⟩ := mem_combinations.1 hc
    refine ⟨h1.nodup hos, ?_, h2⟩
    intro x hx
    rw [List.mem_toFinset] at hx ⊢
    exact (ho s).mem_iff.1 (h1.subset hx)
  have hsub : ∀ c ∈ combinations (ord s) n, ∃ ps, partitions ord (s.filter (· ∉ c)) r = .ok ps ∧
      PartList ps r (s.toFinset \ c.toFinset) := by
    intro c hcm
    obtain ⟨h1, h2, h3⟩ := hc c hcm
    rw [← toFinset_filter_not]
    apply partitions_spec ho hr
    rw [toFinset_filter_not, Finset.card_sdiff_of_subset h2, hcard, List.toFinset_card_of_nodup h1, h3]
    exact hd
  choose! g hg1 hg2 using hsub
  have hins : ∀ c ∈ combinations (ord s) n, ∀ q ∈ g c, Partition (blocks (q ++ [c])) s.toFinset ∧
      c.toFinset ∉ blocks q ∧ c.toFinset ∈ blocks (q ++ [c]) ∧ ∀ C ∈ blocks (q ++ [c]), C.card ≠ r → C = c.toFinset := by
    intro c hcm q hq
    obtain ⟨h1, h2, h3⟩ := hc c hcm
    obtain ⟨h4, h5⟩ := ((hg2 c hcm).all _).1 (List.mem_map.2 ⟨q, hq, rfl⟩)
    have hne : c.toFinset.Nonempty := by
      rw [← Finset.card_pos, List.toFinset_card_of_nodup h1]; omega
    obtain ⟨h6, h7⟩ := h4.insert h2 hne
    rw [blocks_snoc]
    refine ⟨h6, h7, Finset.mem_insert_self _ _, fun C hC hCr => ?_⟩
    rcases Finset.mem_insert.1 hC with h | h
    · exact h
    · exact absurd (h5 C h) hCr
  refine ⟨(combinations (ord s) n).flatMap fun c => (g c).map fun p => p ++ [c], ⟨?_, ?_, ?_⟩, ?_⟩
  · intro p hp
    simp only [List.mem_flatMap, List.mem_map] at hp
    obtain ⟨c, hcm, q, hq, rfl⟩ := hp
    obtain ⟨h1, h2, h3⟩ := hc c hcm
    rw [List.flatten_append, List.nodup_append]
    refine ⟨((hg2 c hcm).shape q hq).1, by simpa using h1, ?_⟩
    rintro a ha b hb rfl
    obtain ⟨B, hB, haB⟩ := List.mem_flatten.1 ha
    have := ((hg2 c hcm).all _).1 (List.mem_map.2 ⟨q, hq, rfl⟩)
    have := this.1.inside _ (mem_blocks.2 ⟨B, hB, rfl⟩) (List.mem_toFinset.2 haB)
    exact (Finset.mem_sdiff.1 this).2 (List.mem_toFinset.2 (by simpa using hb))
  · rw [List.map_flatMap, List.nodup_flatMap]
    constructor
    · intro c hcm
      rw [List.map_map]
      have := (hg2 c hcm).nodup
      rw [List.nodup_map_iff_inj_on (List.Nodup.of_map _ this)] at this
      refine (List.nodup_map_iff_inj_on (List.Nodup.of_map _ (hg2 c hcm).nodup)).2 ?_
      intro q hq q' hq' he
      simp only [Function.comp, blocks_snoc] at he
      apply this q hq q' hq'
      rw [← Finset.erase_insert (hins c hcm q hq).2.1, he, Finset.erase_insert (hins c hcm q' hq').2.1]
    · refine (nodup_combinations hos n).imp_of_mem ?_
      intro c c' hcm hcm' hne
      simp only [Function.onFun, List.disjoint_left, List.mem_map]
      rintro _ ⟨_, ⟨q, hq, rfl⟩, rfl⟩ ⟨_, ⟨q', hq', rfl⟩, he⟩
      obtain ⟨h1, h2, h3⟩ := hc c hcm
      obtain ⟨h1', h2', h3'⟩ := hc c' hcm'
      have heq : c'.toFinset = c.toFinset := by
        apply (hins c hcm q hq).2.2.2
        · rw [← he]; exact (hins c' hcm' q' hq').2.2.1
        · rw [List.toFinset_card_of_nodup h1', h3']; exact hnr
      apply hne
      refine combinations_unique hos hcm hcm' ?_
      rw [List.perm_ext_iff_of_nodup h1 h1']
      intro x
      have hx := congrArg (x ∈ ·) heq
      simp only [List.mem_toFinset, eq_iff_iff] at hx
      exact hx.symm
  · intro P
    simp only [h0, false_and, false_or, ne_eq, not_false_eq_true, hnr, true_and]
    constructor
    · intro hP
      simp only [List.mem_map, List.mem_flatMap] at hP
      obtain ⟨_, ⟨c, hcm, q, hq, rfl⟩, rfl⟩ := hP
      obtain ⟨h1, h2, h3⟩ := hc c hcm
      obtain ⟨h4, h5, h6, h7⟩ := hins c hcm q hq
      exact ⟨h4, _, h6, by rw [List.toFinset_card_of_nodup h1, h3], h7⟩
    · rintro ⟨hP, B, hB, hBn, hBu⟩
      obtain ⟨c, hcm, hperm⟩ := exists_combination (l := ord s) (s := s.filter (· ∈ B)) (hs.filter _) hos (by
        intro x hx
        simp only [List.mem_filter, decide_eq_true_eq] at hx
        exact (ho s).mem_iff.2 hx.1)
      have hcB : c.toFinset = B := by
        ext x
        simp only [List.mem_toFinset, hperm.mem_iff, List.mem_filter, decide_eq_true_eq]
        exact ⟨fun h => h.2, fun hx => ⟨by simpa using hP.inside B hB hx, hx⟩⟩
      have hcn : c.Nodup := hperm.nodup_iff.2 (hs.filter _)
      have hlen : c.length = n := by rw [← hBn, ← hcB, List.toFinset_card_of_nodup hcn]
      have hcm' : c ∈ combinations (ord s) n := mem_combinations.2 ⟨(mem_combinations.1 hcm).1, hlen⟩
      have := ((hg2 c hcm').all (P.erase B)).2 ⟨by rw [hcB]; exact hP.erase hB, fun C hC => by
        have hC' := Finset.mem_erase.1 hC
        by_contra h
        exact hC'.1 (hBu C hC'.2 h)⟩
      obtain ⟨q, hq, hqe⟩ := List.mem_map.1 this
      refine List.mem_map.2 ⟨q ++ [c], List.mem_flatMap.2 ⟨c, hcm', List.mem_map.2 ⟨q, hq, rfl⟩⟩, ?_⟩
      rw [blocks_snoc, hcB, hqe, Finset.insert_erase hB]
  · intro out
    rw [if_neg h0, if_pos hnr]
    refine forE_concat (g := fun c => (g c).map fun p => p ++ [c]) (fun c hcm out => ?_) out
    simp only [withRemainder, hg1 c hcm]

theorem mem_rangeDown {n r k : Nat} : k ∈ rangeDown n r ↔ k ≤ n ∧ (n - k) % r = 0 := by
  simp only [rangeDown, List.mem_map, List.mem_range]
  constructor
  · rintro ⟨i, hi, rfl⟩
    have : i * r ≤ n := (Nat.mul_le_mul_right r (Nat.lt_succ_iff.1 hi)).trans (Nat.div_mul_le_self n r)
    refine ⟨Nat.sub_le _ _, ?_⟩
    rw [Nat.sub_sub_self this, Nat.mul_mod_left]
  · rintro ⟨h1, h2⟩
    refine ⟨(n - k) / r, Nat.lt_succ_iff.2 (Nat.div_le_div_right (Nat.sub_le _ _)), ?_⟩
    rw [Nat.div_mul_cancel (Nat.dvd_of_mod_eq_zero h2)]
    omega

theorem nodup_rangeDown {n r : Nat} (hr : 1 ≤ r) : (rangeDown n r).Nodup := by
  refine (List.nodup_map_iff_inj_on List.nodup_range).2 ?_
  intro i hi j hj he
  have h1 : ∀ i ∈ List.range (n / r + 1), i * r ≤ n := fun i hi =>
    (Nat.mul_le_mul_right r (Nat.lt_succ_iff.1 (List.mem_range.1 hi))).trans (Nat.div_mul_le_self n r)
  have := h1 i hi
  have := h1 j hj
  have : i * r = j * r := by omega
  exact Nat.eq_of_mul_eq_mul_right (by omega) this

theorem card_eq_of_blocks {P : Finset (Finset α)} {s : Finset α} (h : Partition P s) : s.card = ∑ B ∈ P, B.card := by
  have : s = P.biUnion id := by
    ext x
    simp only [Finset.mem_biUnion, id]
    constructor
    · intro hx; obtain ⟨B, hB, _⟩ := h.one x hx; exact ⟨B, hB⟩
    · rintro ⟨B, hB, hx⟩; exact h.inside B hB hx
  conv_lhs => rw [this]
  rw [Finset.card_biUnion]
  · rfl
  · intro B hB C hC hne
    change Disjoint B C
    rw [Finset.disjoint_left]
    intro x hxB hxC
    exact hne ((h.one x (h.inside B hB hxB)).unique ⟨hB, hxB⟩ ⟨hC, hxC⟩)

theorem partitionsWithRemainder_spec {ord : List α → List α} (ho : ∀ l, (ord l).Perm l) {r : Nat} (hr : 1 ≤ r)
    (s : List α) : ∃ ps, partitionsWithRemainder true ord s r = .ok ps ∧ (∀ p ∈ ps, p.flatten.Nodup) ∧
      (ps.map blocks).Nodup ∧ ∀ P, P ∈ ps.map blocks ↔ Partition P s.toFinset ∧
        ∀ B ∈ P, ∀ C ∈ P, B.card ≠ r → C.card ≠ r → B = C := by
  have hG : ∀ n ∈ rangeDown (toSet s).length r, ∃ G, RemList G r n s.toFinset ∧
      ∀ out, remainderSize ord (toSet s) r out n = .ok (out ++ G) := by
    intro n hn
    obtain ⟨h1, h2⟩ := (mem_rangeDown).1 hn
    rw [← toFinset_toSet]
    exact remainderSize_spec ho hr nodup_toSet h1 h2
  choose! G hG1 hG2 using hG
  refine ⟨(rangeDown (toSet s).length r).flatMap G, ?_, ?_, ?_, ?_⟩
  · unfold partitionsWithRemainder
    rw [if_neg (by simp), if_neg (by omega), forE_concat (g := G) (fun n hn out => hG2 n hn out), List.nil_append]
  · intro p hp
    obtain ⟨n, hn, hp⟩ := List.mem_flatMap.1 hp
    exact (hG1 n hn).shape p hp
  · rw [List.map_flatMap, List.nodup_flatMap]
    refine ⟨fun n hn => (hG1 n hn).nodup, (nodup_rangeDown hr).imp_of_mem ?_⟩
    intro n n' hn hn' hne
    simp only [Function.onFun, List.disjoint_left]
    intro P hP hP'
    obtain ⟨_, h⟩ := ((hG1 n hn).all P).1 hP
    obtain ⟨_, h'⟩ := ((hG1 n' hn').all P).1 hP'
    rcases h with ⟨h1, h2⟩ | ⟨h1, h2, B, hB, h3, h4⟩
    · rcases h' with ⟨h1', h2'⟩ | ⟨h1', h2', B', hB', h3', h4'⟩
      · omega
      · have := h2 B' hB'; omega
    · rcases h' with ⟨h1', h2'⟩ | ⟨h1', h2', B', hB', h3', h4'⟩
      · have := h2' B hB; omega
      · have := h4 B' hB' (by omega); subst this; omega
  · intro P
    rw [List.map_flatMap, List.mem_flatMap]
    constructor
    · rintro ⟨n, hn, hP⟩
      obtain ⟨h, h'⟩ := ((hG1 n hn).all P).1 hP
      refine ⟨h, fun B hB C hC hBr hCr => ?_⟩
      rcases h' with ⟨_, h2⟩ | ⟨h1, h2, D, hD, h3, h4⟩
      · exact absurd (h2 B hB) hBr
      · rw [h4 B hB hBr, h4 C hC hCr]
    · rintro ⟨hP, hu⟩
      have hc := card_eq_of_blocks hP
      by_cases hex : ∃ B ∈ P, B.card ≠ r
      · obtain ⟨B, hB, hBr⟩ := hex
        have hrest : ∑ C ∈ P.erase B, C.card = (P.erase B).card * r := by
          rw [Finset.sum_const_nat]
          intro C hC
          by_contra hCr
          exact (Finset.mem_erase.1 hC).1 (hu C (Finset.mem_erase.1 hC).2 B hB hCr hBr)
        rw [← Finset.add_sum_erase _ _ hB, hrest] at hc
        have hn : B.card ∈ rangeDown (toSet s).length r := by
          rw [mem_rangeDown, length_toSet_eq, hc]
          refine ⟨by omega, ?_⟩
          rw [Nat.add_sub_cancel_left, Nat.mul_mod_left]
        have hne := (Finset.card_pos.2 (hP.nonempty B hB)).ne'
        exact ⟨_, hn, ((hG1 _ hn).all P).2 ⟨hP, .inr ⟨hne, hBr, B, hB, rfl, fun C hC hCr => hu C hC B hB hCr hBr⟩⟩⟩
      · push Not at hex
        rw [Finset.sum_const_nat hex] at hc
        have hn : 0 ∈ rangeDown (toSet s).length r := by
          rw [mem_rangeDown, length_toSet_eq, hc]
          exact ⟨by omega, by rw [Nat.sub_zero, Nat.mul_mod_left]⟩
        exact ⟨_, hn, ((hG1 _ hn).all P).2 ⟨hP, .inl ⟨rfl, hex⟩⟩⟩

/-! ### the other enumerators -/

theorem layerCombinations_spec {layers : List α} (hn : layers.Nodup) :
    ((layerCombinations layers).map List.toFinset).Nodup ∧
      (∀ c ∈ layerCombinations layers, c.Nodup) ∧
      ∀ P : Finset α, P ∈ (layerCombinations layers).map List.toFinset ↔ P.Nonempty ∧ P ⊆ layers.toFinset := by
  have hmem : ∀ c, c ∈ layerCombinations layers ↔ c.Sublist layers ∧ c ≠ [] := by
    intro c
    simp only [layerCombinations, List.mem_flatMap, List.mem_range'_1, mem_combinations]
    constructor
    · rintro ⟨k, ⟨h1, _⟩, h2, h3⟩
      exact ⟨h2, by rintro rfl; simp at h3; omega⟩
    · rintro ⟨h1, h2⟩
      have := List.length_pos_iff.2 h2
      have := h1.length_le
      exact ⟨c.length, ⟨by omega, by omega⟩, h1, rfl⟩
  refine ⟨?_, fun c hc => ((hmem c).1 hc).1.nodup hn, ?_⟩
  · have hnd : (layerCombinations layers).Nodup := by
      unfold layerCombinations
      rw [List.nodup_flatMap]
      refine ⟨fun k _ => nodup_combinations hn k, List.Pairwise.imp ?_ (List.nodup_range' (step := 1))⟩
      intro k k' hne
      simp only [Function.onFun, List.disjoint_left, mem_combinations]
      rintro c ⟨_, h1⟩ ⟨_, h2⟩
      omega
    refine (List.nodup_map_iff_inj_on hnd).2 ?_
    intro c hc c' hc' he
    obtain ⟨h1, _⟩ := (hmem c).1 hc
    obtain ⟨h1', _⟩ := (hmem c').1 hc'
    refine combinations_unique hn (mem_combinations.2 ⟨h1, rfl⟩) (mem_combinations.2 ⟨h1', rfl⟩) ?_
    rw [List.perm_ext_iff_of_nodup (h1.nodup hn) (h1'.nodup hn)]
    intro x
    have := congrArg (x ∈ ·) he
    simpa using this
  · intro P
    simp only [List.mem_map, hmem]
    constructor
    · rintro ⟨c, ⟨h1, h2⟩, rfl⟩
      refine ⟨?_, ?_⟩
      · rw [List.toFinset_nonempty_iff]; exact h2
      · intro x hx; rw [List.mem_toFinset] at hx ⊢; exact h1.subset hx
    · rintro ⟨h1, h2⟩
      refine ⟨layers.filter (· ∈ P), ⟨List.filter_sublist, ?_⟩, ?_⟩
      · obtain ⟨x, hx⟩ := h1
        exact List.ne_nil_of_mem (List.mem_filter.2 ⟨by simpa using h2 hx, by simpa using hx⟩)
      · ext x
        simp only [List.mem_toFinset, List.mem_filter, decide_eq_true_eq]
        exact ⟨fun h => h.2, fun h => ⟨by simpa using h2 h, h⟩⟩

theorem listOrbits_spec (auts : Dict (Nat × Nat × α) α) :
    (Dict.keys (listOrbits auts)).Nodup ∧
    ∀ n, match Dict.get (listOrbits auts) n with
      | none => ∀ i x o, ((n, i, x), o) ∉ auts
      | some l => l.Nodup ∧ l ≠ [] ∧ ∀ t, t ∈ l ↔ ∃ i x o, ((n, i, x), o) ∈ auts ∧ t = (n, i, o) := by
  suffices ∀ (rest pre : Dict (Nat × Nat × α) α) (d : Dict Nat (List (Nat × Nat × α))),
      ((Dict.keys d).Nodup ∧ ∀ n, match Dict.get d n with
        | none => ∀ i x o, ((n, i, x), o) ∉ pre
        | some l => l.Nodup ∧ l ≠ [] ∧ ∀ t, t ∈ l ↔ ∃ i x o, ((n, i, x), o) ∈ pre ∧ t = (n, i, o)) →
      ((Dict.keys (rest.foldl (fun d e =>
        let l := (Dict.get d e.1.1).getD []
        Dict.set d e.1.1 (if (e.1.1, e.1.2.1, e.2) ∈ l then l else l ++ [(e.1.1, e.1.2.1, e.2)])) d)).Nodup ∧
      ∀ n, match Dict.get (rest.foldl (fun d e =>
        let l := (Dict.get d e.1.1).getD []
        Dict.set d e.1.1 (if (e.1.1, e.1.2.1, e.2) ∈ l then l else l ++ [(e.1.1, e.1.2.1, e.2)])) d) n with
        | none => ∀ i x o, ((n, i, x), o) ∉ pre ++ rest
        | some l => l.Nodup ∧ l ≠ [] ∧ ∀ t, t ∈ l ↔ ∃ i x o, ((n, i, x), o) ∈ pre ++ rest ∧ t = (n, i, o)) by
    have := this auts [] [] ⟨by simp [Dict.keys], by simp⟩
    simpa [listOrbits] using this
  intro rest
  induction rest with
  | nil => intro pre d h; simpa using h
  | cons e rest ih =>
    rintro pre d ⟨hk, h⟩
    obtain ⟨⟨n0, i0, x0⟩, o0⟩ := e
    have := ih (pre ++ [((n0, i0, x0), o0)])
      (let l := (Dict.get d n0).getD []
       Dict.set d n0 (if (n0, i0, o0) ∈ l then l else l ++ [(n0, i0, o0)])) ?_
    · simpa [List.append_assoc] using this
    refine ⟨Dict.nodup_keys_set hk _ _, fun n => ?_⟩
    simp only [Dict.get_set]
    have hn := h n
    by_cases hnn : n0 = n
    · subst hnn
      simp only [if_true]
      cases hg : Dict.get d n0 with
      | none =>
        rw [hg] at hn
        simp only [Option.getD_none, List.not_mem_nil, if_false, List.nil_append]
        refine ⟨by simp, by simp, fun t => ?_⟩
        simp only [List.mem_singleton, List.mem_append, Prod.mk.injEq]
        constructor
        · rintro rfl; exact ⟨i0, x0, o0, .inr ⟨⟨trivial, rfl, rfl⟩, rfl⟩, rfl⟩
        · rintro ⟨i, x, o, h1 | ⟨⟨_, rfl, rfl⟩, rfl⟩, rfl⟩
          · exact absurd h1 (hn i x o)
          · rfl
      | some l =>
        rw [hg] at hn
        obtain ⟨h1, h2, h3⟩ := hn
        simp only [Option.getD_some]
        by_cases hm : (n0, i0, o0) ∈ l
        · simp only [hm, if_true]
          refine ⟨h1, h2, fun t => ?_⟩
          rw [h3]
          constructor
          · rintro ⟨i, x, o, h4, rfl⟩; exact ⟨i, x, o, by simp [h4], rfl⟩
          · rintro ⟨i, x, o, h4, rfl⟩
            simp only [List.mem_append, List.mem_singleton, Prod.mk.injEq] at h4
            rcases h4 with h4 | ⟨⟨_, rfl, rfl⟩, rfl⟩
            · exact ⟨i, x, o, h4, rfl⟩
            · exact (h3 _).1 hm
        · simp only [hm, if_false]
          refine ⟨?_, by simp, fun t => ?_⟩
          · rw [List.nodup_append]
            refine ⟨h1, by simp, ?_⟩
            rintro a ha b hb rfl
            simp only [List.mem_singleton] at hb; subst hb; exact hm ha
          · rw [List.mem_append, h3, List.mem_singleton]
            constructor
            · rintro (⟨i, x, o, h4, rfl⟩ | rfl)
              · exact ⟨i, x, o, by simp [h4], rfl⟩
              · exact ⟨i0, x0, o0, by simp, rfl⟩
            · rintro ⟨i, x, o, h4, rfl⟩
              simp only [List.mem_append, List.mem_singleton, Prod.mk.injEq] at h4
              rcases h4 with h4 | ⟨⟨_, rfl, rfl⟩, rfl⟩
              · exact .inl ⟨i, x, o, h4, rfl⟩
              · exact .inr rfl
    · simp only [hnn, if_false]
      have hne : ∀ i x o, ((n, i, x), o) ∈ pre ++ [((n0, i0, x0), o0)] ↔ ((n, i, x), o) ∈ pre := by
        intro i x o
        have : n ≠ n0 := fun e => hnn e.symm
        simp [this]
      simp only [hne]
      exact hn

end Pymnet
