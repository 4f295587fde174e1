import Verif.Props.CycleAdj
import Verif.Props.Clustering2
import Verif.Model.ClusterAvg

/-! Properties C143 (lists of elementary cycles) and C144 (averages of local clustering coefficients). -/

set_option linter.unusedSectionVars false

namespace Pymnet

open Py MPlex

section cycles

variable {α K : Type} [DecidableEq α] [LawfulIntNames α] [LinearOrder α] [Field K] [LinearOrder K] [IsStrictOrderedRing K] [FloorRing K]
  {ops : List (POp α K)} {aligned : Bool} {N B : Finset α} {M : α → Finset α} {w : K}

/-- **C143** With categorical couplings `cc_aw_vector` returns six lists with one entry for each pair of a node and a layer, node by
node: the numbers of the closed and of the possible cycles around it within a layer, on two and on three layers. -/
theorem C143_lists (hw : w ≠ 0) (hs : Spec.NoIntraSelf ops) (h : Spec.Sets aligned ops N B M) :
    ∃ ns ls : List α, ns.Nodup ∧ (∀ x, x ∈ ns ↔ x ∈ N) ∧ ls.Nodup ∧ (∀ x, x ∈ ls ↔ x ∈ B) ∧
      (afterP [.categorical w] false 0 aligned ops).ccAwVector = .ok
        ⟨(ns ×ˢ ls).map fun u => (Spec.closedSums (Spec.cycleCounts N B M (Spec.LinkedIn aligned ops) u)).1,
         (ns ×ˢ ls).map fun u => (Spec.possibleSums (Spec.cycleCounts N B M (Spec.LinkedIn aligned ops) u)).1,
         (ns ×ˢ ls).map fun u => (Spec.closedSums (Spec.cycleCounts N B M (Spec.LinkedIn aligned ops) u)).2.1,
         (ns ×ˢ ls).map fun u => (Spec.possibleSums (Spec.cycleCounts N B M (Spec.LinkedIn aligned ops) u)).2.1,
         (ns ×ˢ ls).map fun u => (Spec.closedSums (Spec.cycleCounts N B M (Spec.LinkedIn aligned ops) u)).2.2,
         (ns ×ˢ ls).map fun u => (Spec.possibleSums (Spec.cycleCounts N B M (Spec.LinkedIn aligned ops) u)).2.2⟩ := by
  have hc := cycL hw hs h.nodes h.layers h.inLayer
  obtain ⟨ls, l1, l2, l3⟩ := hc.base.lay.layers
  refine ⟨_, ls, hc.base.lay.nodup, hc.base.lay.mem, l2, l3, ?_⟩
  have key : ∀ u : α × α, ∃ v, u.2 ∈ B → (afterP [.categorical w] false 0 aligned ops).elementaryCycles (some u.1) (some u.2) none = .ok v ∧
      v.toList = Spec.cycleCounts N B M (Spec.LinkedIn aligned ops) u := by
    intro u
    by_cases hu : u.2 ∈ B
    · obtain ⟨v, e1, -, e2⟩ := C79_node_layer hw hs h u.1 hu none
      exact ⟨v, fun _ => ⟨e1, e2⟩⟩
    · exact ⟨.zero, fun h => absurd h hu⟩
  choose g hg using key
  unfold ccAwVector
  rw [l1, ok_bind, mapE_ok (g := g) _ (fun u hu => (hg u ?_).1), ok_bind]
  · rw [pure_eq_ok]
    have k1 : ∀ v : Cycles, closedOf v = Spec.closedSums v.toList := fun v => rfl
    have k2 : ∀ v : Cycles, possibleOf v = Spec.possibleSums v.toList := fun v => rfl
    have hp : ∀ ns : List α, (ns.flatMap fun n => ls.map fun l => (n, l)) = ns ×ˢ ls := fun ns => rfl
    simp only [k1, k2, List.map_map, hp]
    have hm : ∀ u ∈ (afterP [.categorical w] false 0 aligned ops).view.nodes ×ˢ ls, (g u).toList = Spec.cycleCounts N B M (Spec.LinkedIn aligned ops) u := by
      intro u hu
      exact (hg u ((l3 _).1 (List.mem_product.1 hu).2)).2
    congr 2 <;> exact List.map_congr_left fun u hu => by simp only [Function.comp_apply, hm u hu]
  · simp only [List.mem_flatMap, List.mem_map] at hu
    obtain ⟨n, -, l, hl, rfl⟩ := hu
    exact (l3 l).1 hl

/-- **C143** So with a coupling of weight 1 and links of weight 1 the entries are those of `gcc_aw_vector_adj`, up to the order of
the pairs. -/
theorem C143_agrees (hs : Spec.NoIntraSelf ops) (h : Spec.Sets aligned ops N B M) (h1 : Spec.Unweighted aligned ops)
    (h2 : 2 ≤ N.card) :
    ∃ x y, (afterP [.categorical 1] false 0 aligned ops).ccAwVector = .ok x ∧
      (afterP [.categorical 1] false 0 aligned ops).awVectorAdj = .ok y ∧
      (x.nom1.map fun k : ℤ => (k : K)).Perm y.nom1 ∧ (x.den1.map fun k : ℤ => (k : K)).Perm y.den1 ∧
      (x.nom2.map fun k : ℤ => (k : K)).Perm y.nom2 ∧ (x.den2.map fun k : ℤ => (k : K)).Perm y.den2 ∧
      (x.nom3.map fun k : ℤ => (k : K)).Perm y.nom3 ∧ (x.den3.map fun k : ℤ => (k : K)).Perm y.den3 := by
  obtain ⟨ns, ls, n1, n2, l1, l2, e⟩ := C143_lists (w := (1 : K)) one_ne_zero hs h
  obtain ⟨nls, m1, m2, -, e'⟩ := C140_lists hs h (Or.inl (by omega))
  have hp : (ns ×ˢ ls).Perm nls := by
    refine (List.perm_ext_iff_of_nodup (List.Nodup.product n1 l1) m1).2 fun u => ?_
    rw [List.mem_product, m2, n2, l2]
  have k : ∀ u, (Spec.closedWeights (Spec.cycleWeights N B M (Spec.tensor aligned ops) u)) =
        (((Spec.closedSums (Spec.cycleCounts N B M (Spec.LinkedIn aligned ops) u)).1 : K),
          ((Spec.closedSums (Spec.cycleCounts N B M (Spec.LinkedIn aligned ops) u)).2.1 : K),
          ((Spec.closedSums (Spec.cycleCounts N B M (Spec.LinkedIn aligned ops) u)).2.2 : K)) ∧
      (Spec.possibleWeights (Spec.cycleWeights N B M (Spec.tensor aligned ops) u)) =
        (((Spec.possibleSums (Spec.cycleCounts N B M (Spec.LinkedIn aligned ops) u)).1 : K),
          ((Spec.possibleSums (Spec.cycleCounts N B M (Spec.LinkedIn aligned ops) u)).2.1 : K),
          ((Spec.possibleSums (Spec.cycleCounts N B M (Spec.LinkedIn aligned ops) u)).2.2 : K)) := by
    intro u
    have hc : Spec.cycleWeights N B M (Spec.tensor aligned ops) u =
        (Spec.cycleCounts N B M (Spec.LinkedIn aligned ops) u).map fun k : ℤ => (k : K) := cycleWeights_counts h1 u
    have hl : (Spec.cycleCounts N B M (Spec.LinkedIn aligned ops) u).length = 10 := rfl
    rw [hc]
    generalize Spec.cycleCounts N B M (Spec.LinkedIn aligned ops) u = c at hl
    match c, hl with
    | [x0, x1, x2, x3, x4, x5, x6, x7, x8, x9], _ =>
      simp only [List.map_cons, List.map_nil, Spec.closedWeights, Spec.possibleWeights, Spec.closedSums, Spec.possibleSums,
        Int.cast_add, and_self]
  refine ⟨_, _, e, e', ?_⟩
  simp only [k, List.map_map]
  exact ⟨hp.map _, hp.map _, hp.map _, hp.map _, hp.map _, hp.map _⟩

end cycles

/-! ### C144 -/

namespace Spec

/-- The mean of the defined values of `f` on `X`. -/
def meanDefined {α : Type} (X : Finset α) (f : α → Option ℚ) : Option ℚ :=
  let D := X.filter fun x => (f x).isSome
  if D.card = 0 then none else some ((∑ x ∈ D, (f x).getD 0) / D.card)

end Spec

theorem length_defined {α : Type} (l : List α) (g : α → Option ℚ) :
    ((l.map g).filterMap id).length = (l.filter fun x => (g x).isSome).length := by
  induction l with
  | nil => rfl
  | cons a t ih => cases hg : g a <;> simp [hg] at ih ⊢ <;> simpa using ih

theorem sum_defined {α : Type} (l : List α) (g : α → Option ℚ) :
    ((l.map g).filterMap id).sum = ((l.filter fun x => (g x).isSome).map fun x => (g x).getD 0).sum := by
  induction l with
  | nil => rfl
  | cons a t ih => cases hg : g a <;> simp [hg] at ih ⊢ <;> simpa using ih

/-- a loop whose steps can only raise one exception -/
theorem mapE_raise {β γ : Type} {f : β → Except Err γ} {P : β → Prop} {g : β → γ} {e : Err} (l : List β)
    (h1 : ∀ x ∈ l, P x → f x = .error e) (h2 : ∀ x ∈ l, ¬ P x → f x = .ok (g x)) :
    ((∃ x ∈ l, P x) → mapE f l = .error e) ∧ ((¬ ∃ x ∈ l, P x) → mapE f l = .ok (l.map g)) := by
  classical
  induction l with
  | nil => simp [mapE]
  | cons a t ih =>
    obtain ⟨i1, i2⟩ := ih (fun x hx => h1 x (List.mem_cons_of_mem _ hx)) (fun x hx => h2 x (List.mem_cons_of_mem _ hx))
    by_cases ha : P a
    · refine ⟨fun _ => by simp only [mapE, h1 a List.mem_cons_self ha], fun h => absurd ⟨a, List.mem_cons_self, ha⟩ h⟩
    · constructor
      · rintro ⟨x, hx, hp⟩
        rcases List.mem_cons.1 hx with rfl | hx
        · exact absurd hp ha
        · simp only [mapE, h2 a List.mem_cons_self ha, i1 ⟨x, hx, hp⟩]
      · intro h
        have h' : ¬ ∃ x ∈ t, P x := fun ⟨x, hx, hp⟩ => h ⟨x, List.mem_cons_of_mem _ hx, hp⟩
        simp only [mapE, h2 a List.mem_cons_self ha, i2 h', List.map_cons]

section general

variable {α W : Type} [DecidableEq α] [DecidableEq W] {m : MNet α W} {d : Nat} {z : W} {dir al : Bool} {S : Nat → α → Prop}
  {NL : List α → Prop} {R : List α → List α → W}

/-- **C144 is false in Python 3**: `gcc_from_lcc` raises `TypeError` for every network and every coefficient. -/
theorem C144_false_gcc (v : View α W) (f : α → Except Err (Option ℚ)) : v.gccFromLcc true f = .error .typeError := rfl

/-- **C144 (partial)** In Python 2 `gcc_from_lcc` is the mean of the local coefficients of the nodes where they are defined, and
`None` if there are none; it raises what a local coefficient raises. -/
theorem C144_gcc_partial (h : Spec.Looks m d z dir al S NL R) {N : Finset α} (hN : ∀ x, x ∈ N ↔ S 0 x)
    {f : α → Except Err (Option ℚ)} {g : α → Option ℚ} (hf : ∀ x ∈ N, f x = .ok (g x)) :
    m.view.gccFromLcc false f = .ok (Spec.meanDefined N g) := by
  have hs : m.view.nodes.Nodup ∧ ∀ x, x ∈ m.view.nodes ↔ x ∈ N := by
    have e : m.view.nodes = m.slices.headD [] := rfl
    have h0 : m.slices.length = m.aspects + 1 := h.inv.r.slen
    obtain ⟨s, t, hst⟩ : ∃ s t, m.slices = s :: t := by
      cases hm : m.slices with
      | nil => rw [hm] at h0; simp at h0
      | cons s t => exact ⟨s, t, rfl⟩
    rw [e, hst]
    refine ⟨h.inv.r.snodup s (by rw [hst]; exact List.mem_cons_self), fun x => ?_⟩
    rw [hN, ← h.inSlice (Nat.zero_le d) x]
    simp [MNet.inSlice, hst]
  unfold View.gccFromLcc
  rw [if_neg (by simp), mapE_ok (g := g) _ (fun x hx => hf x ((hs.2 x).1 hx)), ok_bind]
  simp only [lenOfLazy, Bool.false_eq_true, if_false, ok_bind]
  have e1 : ((m.view.nodes.map g).filterMap id).length = (N.filter fun x => (g x).isSome).card := by
    rw [length_defined, ← List.toFinset_card_of_nodup (hs.1.filter _)]
    congr 1
    ext x
    simp [hs.2]
  have e2 : ((m.view.nodes.map g).filterMap id).sum = ∑ x ∈ N.filter (fun x => (g x).isSome), (g x).getD 0 := by
    rw [sum_defined, ← List.sum_toFinset _ (hs.1.filter _)]
    congr 1
    ext x
    simp [hs.2]
  rw [e1, e2]
  unfold Spec.meanDefined
  by_cases h0 : (N.filter fun x => (g x).isSome).card = 0
  · simp [h0, pure_eq_ok]
  · simp [h0, pure_eq_ok, Nat.pos_of_ne_zero h0]

/-- **C144 (partial)** In particular for `lcc` on an undirected network without aspects. -/
theorem C144_gcc_lcc_partial (h : Spec.Looks m 0 z false al S NL R) {N : Finset α} (hN : ∀ x, x ∈ N ↔ S 0 x) :
    m.view.gccFromLcc false (fun n => m.view.lcc [n]) = .ok (Spec.meanDefined N fun n =>
      if (Spec.neighbours N (fun i j => R [i] [j] ≠ z) n).card < 2 then none
      else some ((Spec.triangles N (fun i j => R [i] [j] ≠ z) n).card / (Spec.triads N (fun i j => R [i] [j] ≠ z) n).card)) :=
  C144_gcc_partial h hN fun n _ => C39_lcc h hN n

end general

section layers

variable {α K : Type} [DecidableEq α] [LawfulIntNames α] [Field K] [LinearOrder K] [IsStrictOrderedRing K]
  {ops : List (POp α K)} {aligned : Bool} {N B : Finset α} {M : α → Finset α} {c : Coupling α K}

/-- Internal: the quotients of `cc_layers_avg`. -/
theorem layersAvg_eq (hs : Spec.NoIntraSelf ops) (h : Spec.Sets aligned ops N B M) (n : α) (py3 : Bool) :
    ∃ ls : List α, ls.Nodup ∧ (∀ x, x ∈ ls ↔ x ∈ B) ∧
      ((∃ l ∈ B, Spec.triads (M l) (fun i j => Spec.tensor aligned ops i j l ≠ 0) n = ∅) →
        (afterP [c] false 0 aligned ops).layersAvg py3 n = .error .zeroDivisionError) ∧
      ((¬ ∃ l ∈ B, Spec.triads (M l) (fun i j => Spec.tensor aligned ops i j l ≠ 0) n = ∅) →
        ∃ tot : List ℚ, tot.length = ls.length ∧
          tot.sum = (ls.map fun l => ((Spec.triangles (M l) (fun i j => Spec.tensor aligned ops i j l ≠ 0) n).card : ℚ) /
            (Spec.triads (M l) (fun i j => Spec.tensor aligned ops i j l ≠ 0) n).card).sum ∧
          (afterP [c] false 0 aligned ops).layersAvg py3 n = (do
            let k ← lenOfLazy py3 tot
            divE tot.sum k)) := by
  obtain ⟨ls, l1, l2, ts, e1, e2⟩ := C65_sequence (c := c) hs h n
  generalize hT : (fun l => Spec.triads (M l) (fun i j => Spec.tensor aligned ops i j l ≠ 0) n) = T at *
  generalize hU : (fun l => Spec.triangles (M l) (fun i j => Spec.tensor aligned ops i j l ≠ 0) n) = U at *
  have hT' : ∀ l, Spec.triads (M l) (fun i j => Spec.tensor aligned ops i j l ≠ 0) n = T l := fun l => congrFun hT l
  have hU' : ∀ l, Spec.triangles (M l) (fun i j => Spec.tensor aligned ops i j l ≠ 0) n = U l := fun l => congrFun hU l
  simp only [hT', hU'] at e1 e2 ⊢
  have hz : ∃ g : α → ℕ, (∀ l ∈ ls, 2 * g l = (U l).card) ∧ ts = ls.map g := by
    refine ⟨fun l => (U l).card / 2, ?_, ?_⟩
    · intro l hl
      have : (U l).card ∈ ts.map fun t => 2 * t := by rw [e1]; exact List.mem_map_of_mem hl
      obtain ⟨t, -, ht⟩ := List.mem_map.1 this
      change 2 * ((U l).card / 2) = (U l).card
      omega
    · have := congrArg (List.map (· / 2)) e1
      simp only [List.map_map] at this
      rw [← List.map_id ts]
      calc ts.map id = ts.map ((· / 2) ∘ fun t => 2 * t) := List.map_congr_left fun t _ => by simp
        _ = _ := this
  obtain ⟨g, g1, g2⟩ := hz
  have hzip : ts.zip (ls.map fun l => ((T l).card : ℚ) / 2) = ls.map fun l => (g l, ((T l).card : ℚ) / 2) := by
    rw [g2]
    clear e1 e2 g1 g2 l1 l2
    induction ls with
    | nil => rfl
    | cons a t ih => simp [ih]
  have key : ∀ l ∈ ls, (T l = ∅ → divE (g l : ℚ) (((T l).card : ℚ) / 2) = .error .zeroDivisionError) ∧
      (T l ≠ ∅ → divE (g l : ℚ) (((T l).card : ℚ) / 2) = .ok (((U l).card : ℚ) / (T l).card)) := by
    intro l hl
    constructor
    · intro h0; simp [divE, h0]
    · intro h0
      have hc : ((T l).card : ℚ) ≠ 0 := by
        rw [Nat.cast_ne_zero]; exact Finset.card_ne_zero.2 (Finset.nonempty_iff_ne_empty.2 h0)
      have h2 : ((T l).card : ℚ) / 2 ≠ 0 := div_ne_zero hc (by norm_num)
      rw [divE, if_neg h2, ← g1 l hl]
      congr 1
      push_cast
      field_simp
  obtain ⟨m1, m2⟩ := mapE_raise (f := fun l => divE (g l : ℚ) (((T l).card : ℚ) / 2)) (P := fun l => T l = ∅)
    (g := fun l => ((U l).card : ℚ) / (T l).card) (e := .zeroDivisionError) ls (fun l hl => (key l hl).1) (fun l hl => (key l hl).2)
  have hmap : ∀ l : List α, mapE (fun xy : ℕ × ℚ => divE (xy.1 : ℚ) xy.2) (l.map fun l => (g l, ((T l).card : ℚ) / 2)) =
      mapE (fun l => divE (g l : ℚ) (((T l).card : ℚ) / 2)) l := by
    intro l
    induction l with
    | nil => rfl
    | cons a t ih => simp only [List.map_cons, mapE, ih]
  have hex : (∃ l ∈ B, T l = ∅) ↔ ∃ l ∈ ls, T l = ∅ := by simp only [l2]
  refine ⟨ls, l1, l2, fun he => ?_, fun he => ⟨_, ?_, rfl, ?_⟩⟩
  · unfold layersAvg
    rw [e2, ok_bind]
    dsimp only
    rw [hzip, hmap, m1 (hex.1 he)]
    rfl
  · simp
  · unfold layersAvg
    rw [e2, ok_bind]
    dsimp only
    rw [hzip, hmap, m2 (fun hh => he (hex.2 hh)), ok_bind]

open Classical in
/-- **C144 (partial)** In Python 2 `cc_layers_avg` is the mean over the layers of the local clustering coefficients of the node in
them; it raises `ZeroDivisionError` if the node has fewer than two neighbours in some layer or there are no layers. -/
theorem C144_layers_partial (hs : Spec.NoIntraSelf ops) (h : Spec.Sets aligned ops N B M) (n : α) :
    (afterP [c] false 0 aligned ops).layersAvg false n =
      if B = ∅ ∨ ∃ l ∈ B, Spec.triads (M l) (fun i j => Spec.tensor aligned ops i j l ≠ 0) n = ∅ then .error .zeroDivisionError
      else .ok ((∑ l ∈ B, ((Spec.triangles (M l) (fun i j => Spec.tensor aligned ops i j l ≠ 0) n).card : ℚ) /
        (Spec.triads (M l) (fun i j => Spec.tensor aligned ops i j l ≠ 0) n).card) / B.card) := by
  obtain ⟨ls, l1, l2, h1, h2⟩ := layersAvg_eq (c := c) hs h n false
  have hcard : ls.length = B.card := by
    rw [← List.toFinset_card_of_nodup l1]; congr 1; ext x; simp [l2]
  by_cases he : ∃ l ∈ B, Spec.triads (M l) (fun i j => Spec.tensor aligned ops i j l ≠ 0) n = ∅
  · rw [if_pos (Or.inr he), h1 he]
  · obtain ⟨tot, t1, t2, t3⟩ := h2 he
    rw [t3, lenOfLazy, if_neg (by simp), ok_bind, t1, t2, hcard, divE]
    by_cases hB : B = ∅
    · rw [if_pos (by simp [hB]), if_pos (Or.inl hB)]
    · have hc : (B.card : ℚ) ≠ 0 := by
        rw [Nat.cast_ne_zero]; exact Finset.card_ne_zero.2 (Finset.nonempty_iff_ne_empty.2 hB)
      rw [if_neg hc, if_neg (by rintro (h | h); exacts [hB h, he h]), ← List.sum_toFinset _ l1]
      have : ls.toFinset = B := by ext x; simp [l2]
      rw [this]

open Classical in
/-- **C144 is false in Python 3**: `cc_layers_avg` never returns. -/
theorem C144_false_layers (hs : Spec.NoIntraSelf ops) (h : Spec.Sets aligned ops N B M) (n : α) :
    (afterP [c] false 0 aligned ops).layersAvg true n =
      if ∃ l ∈ B, Spec.triads (M l) (fun i j => Spec.tensor aligned ops i j l ≠ 0) n = ∅ then .error .zeroDivisionError
      else .error .typeError := by
  obtain ⟨ls, l1, l2, h1, h2⟩ := layersAvg_eq (c := c) hs h n true
  by_cases he : ∃ l ∈ B, Spec.triads (M l) (fun i j => Spec.tensor aligned ops i j l ≠ 0) n = ∅
  · rw [if_pos he, h1 he]
  · obtain ⟨tot, t1, t2, t3⟩ := h2 he
    rw [t3, if_neg he]
    rfl

end layers

section concreteAvg

/-- A triangle with a pendant. -/
private def kiteQ : List (Op Nat ℚ) := [.setItem [1, 2] 1, .setItem [2, 3] 1, .setItem [1, 3] 2, .setItem [1, 4] 1]

/-- A triangle in one layer, the triangle with a pendant in another. -/
private def twoQ : List (POp Int ℚ) :=
  [.setItem [1, 2, 10] 1, .setItem [2, 3, 10] 1, .setItem [1, 3, 10] 2, .setItem [1, 2, 20] 1, .setItem [2, 3, 20] 1,
   .setItem [1, 3, 20] 2, .setItem [1, 4, 20] 1]

example : (after 0 0 false true kiteQ).view.gccFromLcc false (fun n => (after 0 0 false true kiteQ).view.lcc [n]) = .ok (some (7 / 9)) ∧
    (afterP [.categorical 1] false 0 true twoQ).layersAvg false 1 = .ok (2 / 3) ∧
    (afterP [.categorical 1] false 0 true twoQ).layersAvg true 1 = .error .typeError ∧
    (afterP [.categorical 1] false 0 true twoQ).layersAvg true 4 = .error .zeroDivisionError := by decide +kernel

example : ∃ x, (afterP [.categorical 1] false 0 false plexQ).ccAwVector = .ok x ∧
    x.nom1 = [2, 0, 0, 2, 0, 0, 2, 0, 0, 0, 0, 0, 0, 0, 0] ∧ x.den2 = [4, 2, 0, 6, 6, 0, 6, 4, 0, 0, 0, 0, 0, 0, 0] :=
  ⟨_, rfl, by decide +kernel⟩

end concreteAvg

end Pymnet
