import Verif.Props.Cycles
import Verif.Proofs.CycleAdj7

/-! Properties C139–C142: the cycle counts and clustering coefficients of multiplex networks computed with
supra-adjacency matrices. -/

set_option linter.unusedSectionVars false
set_option linter.unusedSimpArgs false

namespace Pymnet

open Py MPlex

namespace Spec

/-- All links of a history weigh 1. -/
def Unweighted {α W : Type} [DecidableEq α] [Zero W] [One W] (aligned : Bool) (ops : List (POp α W)) : Prop :=
  ∀ i j l, tensor aligned ops i j l = 0 ∨ tensor aligned ops i j l = 1

/-- From the ten weights around a node-layer: within a layer, on two layers and on three layers. -/
def closedWeights {K : Type} [Add K] [Zero K] : List K → K × K × K
  | [aaa, aacac, acaac, acaca, acacac, _, _, _, _, _] => (aaa, aacac + acaac + acaca, acacac)
  | _ => (0, 0, 0)

/-- The same for the cycles whose second link is replaced by any step to another node. -/
def possibleWeights {K : Type} [Add K] [Zero K] : List K → K × K × K
  | [_, _, _, _, _, afa, afcac, acfac, acfca, acfcac] => (afa, afcac + acfac + acfca, acfcac)
  | _ => (0, 0, 0)

end Spec

section

variable {α K : Type} [DecidableEq α] [LawfulIntNames α] [LinearOrder α] [DecidableEq K] [Field K]
  {w : K} {aligned : Bool} {ops : List (POp α K)} {N B : Finset α} {M : α → Finset α}

theorem checkFull_ok (hs : Spec.NoIntraSelf ops) (h : Spec.Sets aligned ops N B M) (u : NL N B)
    {a c f : Matrix (NL N B) (NL N B) K} (hA : Stays a) (hc : c = matC N B M 1) (hf : f = matF N B) :
    (afterP [.categorical 1] false 0 aligned ops).checkFull ((a * f * a) u u) ((a * f * c * a * c) u u) ((a * c * f * a * c) u u)
        ((a * c * f * c * a) u u) ((a * c * f * c * a * c) u u) = .ok () := by
  have hcyc := cycL (w := (1 : K)) one_ne_zero hs h.nodes h.layers h.inLayer
  unfold checkFull
  rw [layerCount_ok hs h, ok_bind]
  split
  · rename_i hfic
    have hM : ∀ l ∈ B, M l = N := hcyc.fic hfic
    obtain ⟨c1, c2, c3⟩ := aligned_checks hM 1 u hA hc hf
    rw [one_pow, one_mul] at c2
    rw [one_mul] at c3
    have t1 : ∀ b : Bool, b = true → assertE b = .ok () := fun b hb => by rw [hb]; rfl
    rw [t1 _ (decide_eq_true c1), ok_bind, t1 _ (decide_eq_true c2.symm), ok_bind, t1 _ (decide_eq_true c3)]
  · rfl

/-- **C139** In an undirected multiplex network with a categorical coupling of weight 1 and at least two nodes, whatever
the weights of the links, `cc_cycle_vector_adj` of a node and a layer returns the ten total weights of the closed walks
of the elementary cycles around the node-layer; none of its assertions fails. -/
theorem C139_weights (hs : Spec.NoIntraSelf ops) (h : Spec.Sets aligned ops N B M) (h2 : 2 ≤ N.card) {n l : α} (hn : n ∈ N)
    (hl : l ∈ B) :
    (afterP [.categorical 1] false 0 aligned ops).cycleVectorAdj n l =
      .ok (Spec.cycleWeights N B M (Spec.tensor aligned ops) (n, l)) := by
  let u : NL N B := ⟨(n, l), Finset.mem_product.2 ⟨hn, hl⟩⟩
  rw [show (afterP [.categorical (1 : K)] false 0 aligned ops).cycleVectorAdj n l = _ from
      cycleVector_full one_ne_zero hs h h2 u rfl rfl rfl, checkFull_ok hs h u stays_A rfl rfl, ok_bind,
    words_eq (links_of hs h) u rfl rfl rfl]
  rfl

/-- **C139** If all links weigh 1 these are the numbers of elementary cycles. -/
theorem C139_counts (hs : Spec.NoIntraSelf ops) (h : Spec.Sets aligned ops N B M) (h1 : Spec.Unweighted aligned ops)
    (h2 : 2 ≤ N.card) {n l : α} (hn : n ∈ N) (hl : l ∈ B) :
    (afterP [.categorical 1] false 0 aligned ops).cycleVectorAdj n l =
      .ok ((Spec.cycleCounts N B M (Spec.LinkedIn aligned ops) (n, l)).map fun k : ℤ => (k : K)) := by
  rw [C139_weights hs h h2 hn hl, cycleWeights_counts h1]
  rfl

/-- **C139** A node or layer that the network does not have raises `ValueError`. -/
theorem C139_absent (hw : w ≠ 0) (hs : Spec.NoIntraSelf ops) (h : Spec.Sets aligned ops N B M) {n l : α} (hn : ¬ (n ∈ N ∧ l ∈ B)) :
    (afterP [.categorical w] false 0 aligned ops).cycleVectorAdj n l = .error .valueError := by
  obtain ⟨e, he, hnd, hm, e1, e2, e3⟩ := supra_matrices hw hs h
  have hpar := after_params (cs := [Coupling.categorical w]) (by simp) false 0 aligned ops
  unfold cycleVectorAdj
  rw [e1, ok_bind, hpar.2.2.2.2]
  dsimp only
  rw [e3, ok_bind, e2, ok_bind]
  dsimp only
  have t1 : ∀ b : Bool, b = true → assertE b = .ok () := fun b hb => by rw [hb]; rfl
  rw [t1 _ (decide_eq_true rfl), ok_bind, t1 _ (decide_eq_true rfl), ok_bind, sub_tab, ok_bind, length_tab, eye_tab hnd, add_tab, ok_bind]
  have : (e.map NL.tup).idxOf? [n, l] = none := by
    rw [List.idxOf?_eq_none_iff, List.mem_map]
    rintro ⟨u, -, hu⟩
    simp only [NL.tup, List.cons.injEq, and_true] at hu
    exact hn ⟨hu.1 ▸ u.node, hu.2 ▸ u.layer⟩
  rw [this]

/-- **C139 is false of networks with one node**: `cc_cycle_vector_adj` raises `ValueError`. -/
theorem C139_false_one (hw : w ≠ 0) (hs : Spec.NoIntraSelf ops) (h : Spec.Sets aligned ops N B M) (h1 : N.card = 1) {n l : α}
    (hn : n ∈ N) (hl : l ∈ B) :
    (afterP [.categorical w] false 0 aligned ops).cycleVectorAdj n l = .error .valueError := by
  let u : NL N B := ⟨(n, l), Finset.mem_product.2 ⟨hn, hl⟩⟩
  obtain ⟨e, i, he, hnd, hm, hei, er⟩ := cycleVector_run hw hs h u rfl rfl
  have hlen : e.length ≠ 0 := by
    have := List.length_pos_of_mem (hm u)
    omega
  rw [show (afterP [.categorical w] false 0 aligned ops).cycleVectorAdj n l = _ from er, fullMatrix_small hs h (.inl (by omega)), ok_bind]
  have : Mat.closed i [tab e (matA N B (Spec.tensor aligned ops)), [], tab e (matA N B (Spec.tensor aligned ops))] = .error .valueError := by
    unfold Mat.closed Mat.prod Mat.mul
    simp only [forE, length_tab]
    rw [if_pos (by simpa using hlen)]
    rfl
  rw [this]
  rfl

/-- **C139 is false of other couplings**: in a node-aligned network whose coupling does not weigh 1 or -1, the function
raises `AssertionError` for every node-layer from which two links lead to different nodes or the same link leads twice,
i.e. whose cycles `afa` do not weigh 0. -/
theorem C139_false_coupling (hw : w ≠ 0) (hw2 : w ^ 2 ≠ 1) (hs : Spec.NoIntraSelf ops) (h : Spec.Sets true ops N B M)
    (h2 : 2 ≤ N.card) {n l : α} (hn : n ∈ N) (hl : l ∈ B) (hB : (B.card : K) - 1 ≠ 0)
    (hafa : Spec.weigh (Spec.nodeLayers N B M) [Spec.alongA (Spec.tensor true ops), Spec.alongF, Spec.alongA (Spec.tensor true ops)]
      (n, l) (n, l) ≠ 0) :
    (afterP [.categorical w] false 0 true ops).cycleVectorAdj n l = .error .assertionError := by
  let u : NL N B := ⟨(n, l), Finset.mem_product.2 ⟨hn, hl⟩⟩
  rw [show (afterP [.categorical w] false 0 true ops).cycleVectorAdj n l = _ from
      cycleVector_full hw hs h h2 u rfl rfl rfl]
  have hpar := after_params (cs := [Coupling.categorical w]) (by simp) false 0 true ops
  have hM : ∀ l ∈ B, M l = N := (cycL hw hs h.nodes h.layers h.inLayer).fic hpar.2.2.2.1
  obtain ⟨c1, c2, c3⟩ := aligned_checks hM w u (stays_A (T := Spec.tensor true ops)) rfl rfl
  have hwd := words_eq (links_of hs h) u rfl rfl rfl
  unfold Spec.cycleWeights Spec.weightWords at hwd
  simp only [List.map_cons, List.map_nil, List.cons.injEq, and_true] at hwd
  have ha := hwd.2.2.2.2.2.1
  unfold checkFull
  rw [layerCount_ok hs h, ok_bind, hpar.2.2.2.1, if_pos rfl]
  have t1 : ∀ b : Bool, b = true → assertE b = .ok () := fun b hb => by rw [hb]; rfl
  have t2 : ∀ b : Bool, b = false → assertE b = .error .assertionError := fun b hb => by rw [hb]; rfl
  rw [t1 _ (decide_eq_true c1), ok_bind, t2]
  · rfl
  · refine decide_eq_false fun hh => ?_
    rw [c2, ha] at hh
    have : (w ^ 2 - 1) * (((B.card : K) - 1) * Spec.weigh (Spec.nodeLayers N B M)
        [Spec.alongA (Spec.tensor true ops), Spec.alongF, Spec.alongA (Spec.tensor true ops)] (n, l) (n, l)) = 0 := by
      rw [sub_mul, one_mul]
      exact sub_eq_zero.2 hh.symm
    rcases mul_eq_zero.1 this with h3 | h3
    · exact hw2 (sub_eq_zero.1 h3)
    · rcases mul_eq_zero.1 h3 with h4 | h4
      · exact hB h4
      · exact hafa h4

/-- **C140** With a categorical coupling of weight 1, `gcc_aw_vector_adj` returns six lists with one entry for each pair
of a node and a layer: the total weights of the closed and of the possible cycles around it within a layer, on two and
on three layers. -/
theorem C140_lists (hs : Spec.NoIntraSelf ops) (h : Spec.Sets aligned ops N B M) (h2 : N.card ≠ 1 ∨ B = ∅) :
    ∃ nls : List (α × α), nls.Nodup ∧ (∀ u, u ∈ nls ↔ u.1 ∈ N ∧ u.2 ∈ B) ∧
      (afterP [.categorical 1] false 0 aligned ops).view.supraNodes = nls.map (fun u => [u.1, u.2]) ∧
      (afterP [.categorical 1] false 0 aligned ops).awVectorAdj = .ok
        ⟨nls.map fun u => (Spec.closedWeights (Spec.cycleWeights N B M (Spec.tensor aligned ops) u)).1,
         nls.map fun u => (Spec.possibleWeights (Spec.cycleWeights N B M (Spec.tensor aligned ops) u)).1,
         nls.map fun u => (Spec.closedWeights (Spec.cycleWeights N B M (Spec.tensor aligned ops) u)).2.1,
         nls.map fun u => (Spec.possibleWeights (Spec.cycleWeights N B M (Spec.tensor aligned ops) u)).2.1,
         nls.map fun u => (Spec.closedWeights (Spec.cycleWeights N B M (Spec.tensor aligned ops) u)).2.2,
         nls.map fun u => (Spec.possibleWeights (Spec.cycleWeights N B M (Spec.tensor aligned ops) u)).2.2⟩ := by
  obtain ⟨e, he, hnd, hm, e1⟩ := awVector_run (w := 1) one_ne_zero hs h h2 rfl rfl rfl
  refine ⟨e.map Subtype.val, hnd.map Subtype.val_injective, fun u => ?_, ?_, ?_⟩
  · rw [List.mem_map]
    constructor
    · rintro ⟨v, -, rfl⟩; exact ⟨NL.node v, NL.layer v⟩
    · intro hu; exact ⟨⟨u, Finset.mem_product.2 hu⟩, hm _, rfl⟩
  · rw [he, List.map_map]; rfl
  · rw [e1]
    simp only [List.map_map]
    have k : ∀ u : NL N B, Spec.cycleWeights N B M (Spec.tensor aligned ops) u.1 = _ := fun u => (words_eq (links_of hs h) u rfl rfl rfl).symm
    congr 2 <;>
      · refine List.map_congr_left fun u _ => ?_
        rw [Function.comp_apply, k u]
        rfl

/-- **C140** With a categorical coupling of weight 1 and links of weight 1, `gcc_aw_seplayers_adj` is the coefficient of
all cycles of the network. With `returnCVector` it returns its three parts, except with two layers. -/
theorem C140_coefficient (hs : Spec.NoIntraSelf ops) (h : Spec.Sets aligned ops N B M) (h1 : Spec.Unweighted aligned ops)
    (h2 : N.card ≠ 1 ∨ B = ∅) (w1 w2 w3 : K) :
    (afterP [.categorical 1] false 0 aligned ops).gccAwSeplayersAdj w1 w2 w3 false =
      .ok (.inl (Spec.aw w1 w2 (some w3) (Spec.cycleSums N B M (Spec.LinkedIn aligned ops) (Spec.Meant none none)))) ∧
    (afterP [.categorical 1] false 0 aligned ops).gccAwSeplayersAdj w1 w2 w3 true =
      .ok (if B.card = 2 then
          .inl (Spec.aw w1 w2 (some w3) (Spec.cycleSums N B M (Spec.LinkedIn aligned ops) (Spec.Meant none none)))
        else .inr (Spec.awParts (Spec.cycleSums N B M (Spec.LinkedIn aligned ops) (Spec.Meant none none)))) := by
  obtain ⟨a, ha⟩ : ∃ a, a = matA N B (Spec.tensor aligned ops) := ⟨_, rfl⟩
  obtain ⟨c, hc⟩ : ∃ c : Matrix (NL N B) (NL N B) K, c = matC N B M 1 := ⟨_, rfl⟩
  obtain ⟨f, hf⟩ : ∃ f : Matrix (NL N B) (NL N B) K, f = matF N B := ⟨_, rfl⟩
  obtain ⟨e, he, hnd, hm, e1⟩ := awVector_run (w := 1) one_ne_zero hs h h2 ha hc hf
  obtain ⟨x0, x1, x2, x3, x4, x5, x6, x7, x8, x9, hS, s0, s1, s2, s3, s4, s5, s6, s7, s8, s9⟩ :=
    ten_sums (links_of hs h) h1 (P := Spec.Meant none none) (fun u => by simp [Spec.Meant]) ha hc hf
  have r : ∀ x y : K, (if y ≠ 0 then x / y else 0) = x / y := by
    intro x y
    by_cases hy : y = 0
    · rw [if_neg (not_not.2 hy), hy, div_zero]
    · rw [if_pos hy]
  have r3 : B.card = 2 → (x9 : K) = 0 := by
    intro hB
    rw [← s9]
    exact Finset.sum_eq_zero fun u _ => two_zero hB (ha ▸ stays_A) (hf ▸ stays_F) (hc ▸ moves_C 1) u
  have hS' : Spec.cycleSums N B M (Spec.LinkedIn aligned ops) (Spec.Meant none none) = [x0, x1, x2, x3, x4, x5, x6, x7, x8, x9] := hS
  rw [hS']
  unfold gccAwSeplayersAdj
  rw [e1, layerCount_ok hs h]
  clear e1
  simp only [ok_bind, sumRatio, r, sum_enum hnd hm, Matrix.add_apply, Finset.sum_add_distrib, s0, s1, s2, s3, s4, s5, s6, s7, s8, s9]
  by_cases hB : B.card = 2
  · simp only [if_pos hB, Spec.aw, Spec.awParts, Spec.part, Spec.closedSums, Spec.possibleSums, Int.cast_add, r3 hB, div_zero, mul_zero,
      add_zero, pure_eq_ok, and_self, if_true]
  · simp only [if_neg hB, Spec.aw, Spec.awParts, Spec.part, Spec.closedSums, Spec.possibleSums, Int.cast_add, pure_eq_ok,
      Bool.false_eq_true, if_false, if_true, and_self]

/-- **C140 is false of networks with one node**: both functions raise `ValueError`. -/
theorem C140_false_one (hw : w ≠ 0) (hs : Spec.NoIntraSelf ops) (h : Spec.Sets aligned ops N B M) (h1 : N.card = 1) (hB : B.Nonempty)
    (w1 w2 w3 : K) (r : Bool) :
    (afterP [.categorical w] false 0 aligned ops).awVectorAdj = .error .valueError ∧
    (afterP [.categorical w] false 0 aligned ops).gccAwSeplayersAdj w1 w2 w3 r = .error .valueError := by
  have := awVector_one hw hs h h1 hB
  refine ⟨this, ?_⟩
  unfold gccAwSeplayersAdj
  rw [this]
  rfl

/-- Internal: the sums of `gcc_moreno2`. -/
theorem moreno2_sums (hs : Spec.NoIntraSelf ops) (h : Spec.Sets aligned ops N B M) (h1 : Spec.Unweighted aligned ops)
    (h2 : 2 ≤ N.card) (hB : B.Nonempty) : ∃ x0 x1 x2 x3 x4 x5 x6 x7 x8 x9 : ℤ,
      Spec.cycleSums N B M (Spec.LinkedIn aligned ops) (Spec.Meant none none) = [x0, x1, x2, x3, x4, x5, x6, x7, x8, x9] ∧
      (B.card = 2 → (x9 : K) = 0) ∧
      (afterP [.categorical 1] false 0 aligned ops).vectorMoreno2 = (do
        let c1 ← npDiv false (x0 : K) x5
        let c2 ← npDiv false (2 * x1 + 2 * x2 + x3 : K) (2 * x6 + 2 * x7 + x8)
        if (2 * x9 : K) ≠ 0 then
          let c3 ← npDiv false (2 * x4 : K) (2 * x9)
          pure (c1, c2, c3)
        else pure (c1, c2, some 0)) := by
  obtain ⟨a, ha⟩ : ∃ a, a = matA N B (Spec.tensor aligned ops) := ⟨_, rfl⟩
  obtain ⟨c, hc⟩ : ∃ c : Matrix (NL N B) (NL N B) K, c = matC N B M 1 := ⟨_, rfl⟩
  obtain ⟨f, hf⟩ : ∃ f : Matrix (NL N B) (NL N B) K, f = matF N B := ⟨_, rfl⟩
  have e1 := moreno2_run (w := 1) one_ne_zero hs h h2 hB ha hc hf
  obtain ⟨x0, x1, x2, x3, x4, x5, x6, x7, x8, x9, hS, s0, s1, s2, s3, s4, s5, s6, s7, s8, s9⟩ :=
    ten_sums (links_of hs h) h1 (P := Spec.Meant none none) (fun u => by simp [Spec.Meant]) ha hc hf
  have sa : a.transpose = a := by rw [ha]; exact matA_symm (links_of hs h)
  have sc : c.transpose = c := by rw [hc]; exact matC_symm 1
  have sf : f.transpose = f := by rw [hf]; exact matF_symm
  have b1 : ∀ u, (c * a * c * a * a) u u = (a * a * c * a * c) u u := fun u => (backwards u sa sc sf).1
  have b2 : ∀ u, (c * a * a * c * a) u u = (a * c * a * a * c) u u := fun u => (backwards u sa sc sf).2.1
  have b3 : ∀ u, (c * a * c * a * c * a) u u = (a * c * a * c * a * c) u u := fun u => (backwards u sa sc sf).2.2.1
  have b4 : ∀ u, (c * a * c * f * a) u u = (a * f * c * a * c) u u := fun u => (backwards u sa sc sf).2.2.2.1
  have b5 : ∀ u, (c * a * f * c * a) u u = (a * c * f * a * c) u u := fun u => (backwards u sa sc sf).2.2.2.2.1
  have b6 : ∀ u, (c * a * c * f * c * a) u u = (a * c * f * c * a * c) u u := fun u => (backwards u sa sc sf).2.2.2.2.2
  refine ⟨x0, x1, x2, x3, x4, x5, x6, x7, x8, x9, hS, ?_, ?_⟩
  · intro hB
    rw [← s9]
    exact Finset.sum_eq_zero fun u _ => two_zero hB (ha ▸ stays_A) (hf ▸ stays_F) (hc ▸ moves_C 1) u
  · rw [e1]
    simp only [Matrix.add_apply, Finset.sum_add_distrib, b1, b2, b3, b4, b5, b6, s0, s1, s2, s3, s4, s5, s6, s7, s8, s9]
    have q1 : (x1 + x1 + x2 + x2 + x3 : K) = 2 * x1 + 2 * x2 + x3 := by ring
    have q2 : (x6 + x6 + x7 + x7 + x8 : K) = 2 * x6 + 2 * x7 + x8 := by ring
    rw [q1, q2, ← two_mul, ← two_mul]

/-- **C141** With a categorical coupling of weight 1, links of weight 1, at least two nodes and a layer,
`gcc_vector_moreno2` returns the parts of the coefficient in which the cycles that are not their own reversal are
counted twice, and `gcc_moreno2` the coefficient, provided that there are possible cycles within a layer and on two
layers. -/
theorem C141_moreno2 (hs : Spec.NoIntraSelf ops) (h : Spec.Sets aligned ops N B M) (h1 : Spec.Unweighted aligned ops)
    (h2 : 2 ≤ N.card) (hB : B.Nonempty) (w1 w2 w3 : K)
    (p1 : ((Spec.possibleSums (Spec.bothWays (Spec.cycleSums N B M (Spec.LinkedIn aligned ops) (Spec.Meant none none)))).1 : K) ≠ 0)
    (p2 : ((Spec.possibleSums (Spec.bothWays (Spec.cycleSums N B M (Spec.LinkedIn aligned ops) (Spec.Meant none none)))).2.1 : K) ≠ 0) :
    (afterP [.categorical 1] false 0 aligned ops).vectorMoreno2 =
      .ok (some (Spec.awParts (Spec.bothWays (Spec.cycleSums N B M (Spec.LinkedIn aligned ops) (Spec.Meant none none)))).1,
        some (Spec.awParts (Spec.bothWays (Spec.cycleSums N B M (Spec.LinkedIn aligned ops) (Spec.Meant none none)))).2.1,
        some (Spec.awParts (Spec.bothWays (Spec.cycleSums N B M (Spec.LinkedIn aligned ops) (Spec.Meant none none)))).2.2) ∧
    (afterP [.categorical 1] false 0 aligned ops).gccMoreno2Adj w1 w2 w3 =
      .ok (some (Spec.aw w1 w2 (some w3) (Spec.bothWays (Spec.cycleSums N B M (Spec.LinkedIn aligned ops) (Spec.Meant none none))))) := by
  obtain ⟨x0, x1, x2, x3, x4, x5, x6, x7, x8, x9, hS, r3, e1⟩ := moreno2_sums hs h h1 h2 hB
  rw [hS] at p1 p2 ⊢
  simp only [Spec.possibleSums, Spec.bothWays, Int.cast_add, Int.cast_mul, Int.cast_ofNat] at p1 p2
  have e2 : (afterP [.categorical 1] false 0 aligned ops).vectorMoreno2 =
      .ok (some ((x0 : K) / x5), some ((2 * x1 + 2 * x2 + x3 : K) / (2 * x6 + 2 * x7 + x8)), some ((2 * x4 : K) / (2 * x9))) := by
    rw [e1]
    unfold npDiv
    rw [if_neg p1, if_neg p2, ok_bind, ok_bind]
    by_cases h9 : (2 * x9 : K) = 0
    · rw [if_neg (not_not.2 h9), h9, div_zero]; rfl
    · rw [if_pos h9, if_neg h9]; rfl
  refine ⟨?_, ?_⟩
  · rw [e2]
    simp only [Spec.awParts, Spec.part, Spec.closedSums, Spec.possibleSums, Spec.bothWays, Int.cast_add, Int.cast_mul, Int.cast_ofNat]
  · unfold gccMoreno2Adj
    rw [e2, ok_bind]
    dsimp only
    rw [layerCount_ok hs h, ok_bind]
    by_cases h2 : B.card = 2
    · rw [if_pos h2]
      simp only [npSum, Spec.aw, Spec.awParts, Spec.part, Spec.closedSums, Spec.possibleSums, Spec.bothWays, Int.cast_add, Int.cast_mul,
        Int.cast_ofNat, r3 h2, mul_zero, div_zero, add_zero, pure_eq_ok, Option.bind_eq_bind, Option.bind_some, Option.pure_def]
    · rw [if_neg h2]
      simp only [npSum, Spec.aw, Spec.awParts, Spec.part, Spec.closedSums, Spec.possibleSums, Spec.bothWays, Int.cast_add, Int.cast_mul,
        Int.cast_ofNat, add_zero, pure_eq_ok, Option.bind_eq_bind, Option.bind_some, Option.pure_def, ← add_assoc]

/-- **C141 is false without possible cycles**: if there are no possible cycles within a layer, or none on two layers,
`gcc_moreno2` is not a number, although `gcc_moreno2_seplayers` is (C80). -/
theorem C141_false_nan (hs : Spec.NoIntraSelf ops) (h : Spec.Sets aligned ops N B M) (h1 : Spec.Unweighted aligned ops)
    (h2 : 2 ≤ N.card) (hB : B.Nonempty) (w1 w2 w3 : K)
    (p : ((Spec.possibleSums (Spec.bothWays (Spec.cycleSums N B M (Spec.LinkedIn aligned ops) (Spec.Meant none none)))).1 : K) = 0 ∨
      ((Spec.possibleSums (Spec.bothWays (Spec.cycleSums N B M (Spec.LinkedIn aligned ops) (Spec.Meant none none)))).2.1 : K) = 0) :
    (afterP [.categorical 1] false 0 aligned ops).gccMoreno2Adj w1 w2 w3 = .ok none := by
  obtain ⟨x0, x1, x2, x3, x4, x5, x6, x7, x8, x9, hS, r3, e1⟩ := moreno2_sums hs h h1 h2 hB
  rw [hS] at p
  simp only [Spec.possibleSums, Spec.bothWays, Int.cast_add, Int.cast_mul, Int.cast_ofNat] at p
  have e2 : ∃ c1 c2 c3 : Option K, (afterP [.categorical 1] false 0 aligned ops).vectorMoreno2 = .ok (c1, c2, c3) ∧ (c1 = none ∨ c2 = none) := by
    have d : ∀ x y : K, npDiv false x y = .ok (if y = 0 then none else some (x / y)) := by
      intro x y
      unfold npDiv
      by_cases hy : y = 0
      · rw [if_pos hy, if_pos hy]; rfl
      · rw [if_neg hy, if_neg hy]
    rw [e1]
    simp only [d, ok_bind]
    by_cases h9 : (2 * x9 : K) = 0
    · refine ⟨_, _, _, if_neg (not_not.2 h9), ?_⟩
      exact p.imp (fun h => if_pos h) fun h => if_pos h
    · refine ⟨_, _, _, if_pos h9, ?_⟩
      exact p.imp (fun h => if_pos h) fun h => if_pos h
  obtain ⟨c1, c2, c3, e3, e4⟩ := e2
  unfold gccMoreno2Adj
  rw [e3, ok_bind]
  dsimp only
  rw [layerCount_ok hs h, ok_bind]
  rcases e4 with rfl | rfl
  · split <;> rfl
  · cases c1 <;> split <;> rfl

/-- **C142** With a categorical coupling of weight 1, whatever the weights of the links, `gcc_vector_moreno` returns the
ratios of the total weight of closed walks to that of walks with one link less that end elsewhere (`nan` where there
are none). -/
theorem C142_moreno (hs : Spec.NoIntraSelf ops) (h : Spec.Sets aligned ops N B M) (hN : N.Nonempty) (hB : B.Nonempty) :
    let X := Spec.nodeLayers N B M
    let a := Spec.alongA (Spec.tensor aligned ops)
    let c : α × α → α × α → K := Spec.alongC
    (afterP [.categorical 1] false 0 aligned ops).vectorMoreno = .ok
      (Spec.ratio (Spec.closedTotal X [[a, a, a]]) (Spec.openTotal X [[a, a]]),
       Spec.ratio (Spec.closedTotal X [[a, a, c, a, c], [c, a, c, a, a], [a, c, a, a, c], [c, a, a, c, a], [a, c, a, c, a]])
         (Spec.openTotal X [[a, a, c], [c, a, c, a], [a, c, a], [c, a, a, c], [a, c, a, c]]),
       Spec.ratio (Spec.closedTotal X [[a, c, a, c, a, c], [c, a, c, a, c, a]])
         (Spec.openTotal X [[a, c, a, c], [c, a, c, a, c]])) := by
  intro X sa sc
  obtain ⟨a, ha⟩ : ∃ a, a = matA N B (Spec.tensor aligned ops) := ⟨_, rfl⟩
  obtain ⟨c, hc⟩ : ∃ c : Matrix (NL N B) (NL N B) K, c = matC N B M 1 := ⟨_, rfl⟩
  rw [moreno_run (w := 1) one_ne_zero hs h hN hB ha hc]
  have hT := links_of hs h
  have d : ∀ x y : K, npDiv false x y = .ok (Spec.ratio x y) := by
    intro x y
    unfold npDiv Spec.ratio
    by_cases hy : y = 0
    · rw [if_pos hy, if_pos hy]; rfl
    · rw [if_neg hy, if_neg hy]
  have cl : ∀ (S : Matrix (NL N B) (NL N B) K) (ws : List (Matrix (NL N B) (NL N B) K × (α × α → α × α → K))),
      (∀ x ∈ ws, x = (a, sa) ∨ x = (c, sc)) → ws ≠ [] → S = (ws.map Prod.fst).prod →
      ∑ u, S u u = ∑ u ∈ X, Spec.weigh X (ws.map Prod.snd) u u := fun S ws hw hne hS => (total_one hT ha hc ws hw hne hS).1
  have op : ∀ (S : Matrix (NL N B) (NL N B) K) (ws : List (Matrix (NL N B) (NL N B) K × (α × α → α × α → K))),
      (∀ x ∈ ws, x = (a, sa) ∨ x = (c, sc)) → ws ≠ [] → S = (ws.map Prod.fst).prod →
      (∑ u, ∑ v, if u ≠ v then S u v else 0) = Spec.openTotal X [ws.map Prod.snd] := by
    intro S ws hw hne hS
    refine ((total_one hT ha hc ws hw hne hS).2).trans ?_
    unfold Spec.openTotal
    rw [List.map_cons, List.map_nil, List.sum_cons, List.sum_nil, add_zero]
    exact Finset.sum_congr rfl fun u _ => Finset.sum_congr rfl fun v _ => ite_iff Iff.rfl
  simp only [d, ok_bind, pure_eq_ok]
  congr 2
  · rw [cl (a * a * a) [(a, sa), (a, sa), (a, sa)] (by simp) (by simp) (by simp [mul_assoc]),
      op (a * a) [(a, sa), (a, sa)] (by simp) (by simp) (by simp)]
    simp only [Spec.closedTotal, Spec.openTotal, List.map_cons, List.map_nil, List.sum_cons, List.sum_nil, add_zero]
  congr 1
  · have p1 : ∀ (S S' : Matrix (NL N B) (NL N B) K), ∑ u, (S + S') u u = ∑ u, S u u + ∑ u, S' u u := fun S S' => by
      simp only [Matrix.add_apply, Finset.sum_add_distrib]
    have p2 : ∀ (S S' : Matrix (NL N B) (NL N B) K), (∑ u, ∑ v, if u ≠ v then (S + S') u v else 0) =
        (∑ u, ∑ v, if u ≠ v then S u v else 0) + ∑ u, ∑ v, if u ≠ v then S' u v else 0 := fun S S' => by
      rw [← Finset.sum_add_distrib]
      refine Finset.sum_congr rfl fun u _ => ?_
      rw [← Finset.sum_add_distrib]
      refine Finset.sum_congr rfl fun v _ => ?_
      by_cases huv : u = v
      · simp [huv]
      · simp only [ne_eq, huv, not_false_eq_true, if_true, Matrix.add_apply]
    rw [p1, p1, p1, p1, p2, p2, p2, p2,
      cl (a * a * c * a * c) [(a, sa), (a, sa), (c, sc), (a, sa), (c, sc)] (by simp) (by simp) (by simp [mul_assoc]),
      cl (c * a * c * a * a) [(c, sc), (a, sa), (c, sc), (a, sa), (a, sa)] (by simp) (by simp) (by simp [mul_assoc]),
      cl (a * c * a * a * c) [(a, sa), (c, sc), (a, sa), (a, sa), (c, sc)] (by simp) (by simp) (by simp [mul_assoc]),
      cl (c * a * a * c * a) [(c, sc), (a, sa), (a, sa), (c, sc), (a, sa)] (by simp) (by simp) (by simp [mul_assoc]),
      cl (a * c * a * c * a) [(a, sa), (c, sc), (a, sa), (c, sc), (a, sa)] (by simp) (by simp) (by simp [mul_assoc]),
      op (a * a * c) [(a, sa), (a, sa), (c, sc)] (by simp) (by simp) (by simp [mul_assoc]),
      op (c * a * c * a) [(c, sc), (a, sa), (c, sc), (a, sa)] (by simp) (by simp) (by simp [mul_assoc]),
      op (a * c * a) [(a, sa), (c, sc), (a, sa)] (by simp) (by simp) (by simp [mul_assoc]),
      op (c * a * a * c) [(c, sc), (a, sa), (a, sa), (c, sc)] (by simp) (by simp) (by simp [mul_assoc]),
      op (a * c * a * c) [(a, sa), (c, sc), (a, sa), (c, sc)] (by simp) (by simp) (by simp [mul_assoc])]
    simp only [Spec.closedTotal, Spec.openTotal, List.map_cons, List.map_nil, List.sum_cons, List.sum_nil, add_zero, ← add_assoc]
  · have p1 : ∀ (S S' : Matrix (NL N B) (NL N B) K), ∑ u, (S + S') u u = ∑ u, S u u + ∑ u, S' u u := fun S S' => by
      simp only [Matrix.add_apply, Finset.sum_add_distrib]
    have p2 : ∀ (S S' : Matrix (NL N B) (NL N B) K), (∑ u, ∑ v, if u ≠ v then (S + S') u v else 0) =
        (∑ u, ∑ v, if u ≠ v then S u v else 0) + ∑ u, ∑ v, if u ≠ v then S' u v else 0 := fun S S' => by
      rw [← Finset.sum_add_distrib]
      refine Finset.sum_congr rfl fun u _ => ?_
      rw [← Finset.sum_add_distrib]
      refine Finset.sum_congr rfl fun v _ => ?_
      by_cases huv : u = v
      · simp [huv]
      · simp only [ne_eq, huv, not_false_eq_true, if_true, Matrix.add_apply]
    rw [p1, p2,
      cl (a * c * a * c * a * c) [(a, sa), (c, sc), (a, sa), (c, sc), (a, sa), (c, sc)] (by simp) (by simp) (by simp [mul_assoc]),
      cl (c * a * c * a * c * a) [(c, sc), (a, sa), (c, sc), (a, sa), (c, sc), (a, sa)] (by simp) (by simp) (by simp [mul_assoc]),
      op (a * c * a * c) [(a, sa), (c, sc), (a, sa), (c, sc)] (by simp) (by simp) (by simp [mul_assoc]),
      op (c * a * c * a * c) [(c, sc), (a, sa), (c, sc), (a, sa), (c, sc)] (by simp) (by simp) (by simp [mul_assoc])]
    simp only [Spec.closedTotal, Spec.openTotal, List.map_cons, List.map_nil, List.sum_cons, List.sum_nil, add_zero]

/-- **C142** `gcc_moreno` is the weighted sum of the three ratios; it is not a number if one of them is not. -/
theorem C142_sum (p : MPlex α K) (w1 w2 w3 : K) {c1 c2 c3 : Option K} (h : p.vectorMoreno = .ok (c1, c2, c3)) :
    (∀ x1 x2 x3, c1 = some x1 → c2 = some x2 → c3 = some x3 → p.gccMorenoAdj w1 w2 w3 = .ok (some (w1 * x1 + w2 * x2 + w3 * x3))) ∧
    (c1 = none ∨ c2 = none ∨ c3 = none → p.gccMorenoAdj w1 w2 w3 = .ok none) := by
  unfold gccMorenoAdj
  rw [h, ok_bind]
  refine ⟨?_, ?_⟩
  · rintro x1 x2 x3 rfl rfl rfl
    simp only [npSum, Option.bind_eq_bind, Option.bind_some, Option.pure_def, pure_eq_ok, add_zero, ← add_assoc]
  · intro hn
    cases c1 with
    | none => rfl
    | some x1 =>
      cases c2 with
      | none => rfl
      | some x2 =>
        cases c3 with
        | none => rfl
        | some x3 => simp at hn

end

section ordered

variable {α K : Type} [DecidableEq α] [LawfulIntNames α] [LinearOrder α] [Field K] [LinearOrder K] [IsStrictOrderedRing K] [FloorRing K]
  {aligned : Bool} {ops : List (POp α K)} {N B : Finset α} {M : α → Finset α}

/-- **C139** So with links of weight 1 it agrees with `elementary_cycles`. -/
theorem C139_agrees (hs : Spec.NoIntraSelf ops) (h : Spec.Sets aligned ops N B M) (h1 : Spec.Unweighted aligned ops)
    (h2 : 2 ≤ N.card) {n l : α} (hn : n ∈ N) (hl : l ∈ B) (anet : Option (View α K)) :
    ∃ v, (afterP [.categorical 1] false 0 aligned ops).elementaryCycles (some n) (some l) anet = .ok v ∧
      (afterP [.categorical 1] false 0 aligned ops).cycleVectorAdj n l = .ok (v.toList.map fun k : ℤ => (k : K)) := by
  obtain ⟨v, e1, -, e2⟩ := C79_node_layer (w := (1 : K)) one_ne_zero hs h n hl anet
  exact ⟨v, e1, by rw [C139_counts hs h h1 h2 hn hl, e2]⟩

/-- **C140** So with links of weight 1 `gcc_aw_seplayers_adj` agrees with `gcc_aw`. -/
theorem C140_agrees (hU : Spec.Usable [.categorical (1 : K)] aligned ops) (hs : Spec.NoIntraSelf ops) (h : Spec.Sets aligned ops N B M)
    (h1 : Spec.Unweighted aligned ops) (h2 : N.card ≠ 1 ∨ B = ∅) (w1 w2 w3 : K) :
    ∃ x, (afterP [.categorical 1] false 0 aligned ops).gccAw w1 w2 (some w3) = .ok x ∧
      (afterP [.categorical 1] false 0 aligned ops).gccAwSeplayersAdj w1 w2 w3 false = .ok (.inl x) :=
  ⟨_, (C82_gcc_aw_partial one_ne_zero hU hs h (fun _ i j l _ => h1 i j l) w1 w2 (some w3)).1, (C140_coefficient hs h h1 h2 w1 w2 w3).1⟩

/-- **C141** So with links of weight 1 and possible cycles `gcc_moreno2` agrees with `gcc_moreno2_seplayers`. -/
theorem C141_agrees (hs : Spec.NoIntraSelf ops) (h : Spec.Sets aligned ops N B M)
    (h1 : Spec.Unweighted aligned ops) (h2 : 2 ≤ N.card) (hB : B.Nonempty) (w1 w2 w3 : K)
    (p1 : ((Spec.possibleSums (Spec.bothWays (Spec.cycleSums N B M (Spec.LinkedIn aligned ops) (Spec.Meant none none)))).1 : K) ≠ 0)
    (p2 : ((Spec.possibleSums (Spec.bothWays (Spec.cycleSums N B M (Spec.LinkedIn aligned ops) (Spec.Meant none none)))).2.1 : K) ≠ 0) :
    ∃ x, (afterP [.categorical 1] false 0 aligned ops).gccMoreno2 w1 w2 (some w3) = .ok x ∧
      (afterP [.categorical 1] false 0 aligned ops).gccMoreno2Adj w1 w2 w3 = .ok (some x) :=
  ⟨_, C80_moreno2 one_ne_zero hs h w1 w2 (some w3), (C141_moreno2 hs h h1 h2 hB w1 w2 w3 p1 p2).2⟩

end ordered

section concreteAdj

/-- A network without possible cycles. -/
def singleQ : List (POp Int ℚ) := [.setItem [1, 2, 10] 1]

theorem written_one {aligned : Bool} {ops : List (POp Int ℚ)} (h : ∀ op ∈ ops, ∃ a b l, op = .setItem [a, b, l] 1) :
    Spec.Unweighted aligned ops := by
  intro i j l
  unfold Spec.tensor Spec.readP
  have key : ∀ (ops : List (POp Int ℚ)) (st : List (POp Int ℚ) × ℚ), (∀ op ∈ ops, ∃ a b l, op = .setItem [a, b, l] 1) → (st.2 = 0 ∨ st.2 = 1) →
      ((ops.foldl (fun (st : List (POp Int ℚ) × ℚ) op => (st.1 ++ [op], (Spec.writtenP 1 false aligned [l] i j st.1 op).getD st.2)) st).2 = 0 ∨
       (ops.foldl (fun (st : List (POp Int ℚ) × ℚ) op => (st.1 ++ [op], (Spec.writtenP 1 false aligned [l] i j st.1 op).getD st.2)) st).2 = 1) := by
    intro ops
    induction ops with
    | nil => intro st _ hst; exact hst
    | cons op ops ih =>
      intro st ho hst
      rw [List.foldl_cons]
      refine ih _ (fun o h => ho o (by simp [h])) ?_
      obtain ⟨a, b, c, rfl⟩ := ho op (by simp)
      dsimp only
      cases hwr : Spec.writtenP 1 false aligned [l] i j st.1 (.setItem [a, b, c] (1 : ℚ)) with
      | none => exact hst
      | some x =>
        unfold Spec.writtenP at hwr
        right
        show x = 1
        simp_all
  exact key ops ([], 0) h (.inl rfl)

theorem alignedQ_unweighted (aligned : Bool) : Spec.Unweighted aligned alignedQ :=
  written_one (by simp [alignedQ])

/-- The hypotheses are met, with and without alignment. -/
example (aligned : Bool) : ∃ N B M, Spec.Sets aligned alignedQ N B M ∧ Spec.NoIntraSelf alignedQ ∧ Spec.Unweighted aligned alignedQ :=
  let ⟨N, B, M, h⟩ := exists_sets (.categorical 1) aligned alignedQ
  ⟨N, B, M, h, alignedQ_noSelf, alignedQ_unweighted aligned⟩

/-- Without weights, with weights, with nodes missing from layers, absent layer, another coupling. -/
example : (afterP [.categorical 1] false 0 true alignedQ).cycleVectorAdj 3 10 = .ok [2, 2, 1, 2, 2, 2, 4, 4, 4, 4] ∧
    (afterP [.categorical 1] false 0 false plexQ).cycleVectorAdj 3 10 = .ok [2, 1, 1, 2, 0, 2, 1, 3, 2, 0] ∧
    (afterP [.categorical 1] false 0 true (weightedQ 2)).cycleVectorAdj 1 10 = .ok [16, 16, 0, 0, 0, 8, 8, 8, 16, 8] ∧
    (afterP [.categorical 1] false 0 true alignedQ).cycleVectorAdj 3 77 = .error .valueError ∧
    (afterP [.categorical 2] false 0 true alignedQ).cycleVectorAdj 3 10 = .error .assertionError := by decide +kernel

example : (afterP [.categorical 1] false 0 true alignedQ).gccAwSeplayersAdj (1 / 3) (1 / 3) (1 / 3) false = .ok (.inl (297 / 560)) ∧
    (afterP [.categorical 1] false 0 true alignedQ).gccAwSeplayersAdj (1 / 3) (1 / 3) (1 / 3) true = .ok (.inr (3 / 5, 3 / 7, 9 / 16)) ∧
    (afterP [.categorical 1] false 0 true alignedQ).gccMoreno2Adj (1 / 3) (1 / 3) (1 / 3) = .ok (some (1547 / 2960)) ∧
    (afterP [.categorical 1] false 0 true alignedQ).vectorMoreno = .ok (some (3 / 5), some (3 / 16), some (3 / 20)) ∧
    (afterP [.categorical 1] false 0 true singleQ).vectorMoreno2 = .ok (none, none, some 0) := by decide +kernel

end concreteAdj

end Pymnet
