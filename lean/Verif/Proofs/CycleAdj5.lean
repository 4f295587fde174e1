import Verif.Proofs.CycleAdj4

/-! The cycle counts and coefficients computed with matrices, in terms of the weights of closed walks. -/

set_option linter.unusedSectionVars false
set_option linter.unusedSimpArgs false

namespace Pymnet

open Py MPlex

section

variable {α K : Type} [DecidableEq α] [DecidableEq K] [Field K] {N B : Finset α} {M : α → Finset α} {T : α → α → α → K}

/-- walks of steps of weight 1 -/
theorem weigh_walks {U : Type} (X : Finset U) (ws : List ((U → U → Prop) × (U → U → K)))
    (h : ∀ x ∈ ws, ∀ u v, (x.1 u v → x.2 u v = 1) ∧ (¬ x.1 u v → x.2 u v = 0)) (u v : U) :
    Spec.weigh X (ws.map Prod.snd) u v = ((Spec.walks X (ws.map Prod.fst) u v : ℤ) : K) := by
  induction ws generalizing u with
  | nil =>
    simp only [List.map_nil, Spec.weigh, Spec.walks]
    split <;> simp
  | cons x ws ih =>
    have hx := h x (by simp)
    have ih' := ih fun y hy => h y (by simp [hy])
    cases ws with
    | nil =>
      simp only [List.map_nil, List.map_cons, Spec.weigh, Spec.walks]
      split
      · rename_i hr; rw [(hx u v).1 hr]; simp
      · rename_i hr; rw [(hx u v).2 hr]; simp
    | cons y ws =>
      simp only [List.map_cons, Spec.weigh, Spec.walks, Int.cast_sum] at ih' ⊢
      refine Finset.sum_congr rfl fun t _ => ?_
      rw [ih' t]
      split
      · rename_i hr; rw [(hx u t).1 hr, one_mul]
      · rename_i hr; rw [(hx u t).2 hr, zero_mul]; simp

/-- links of weight 1 -/
theorem cycleWeights_counts (h1 : ∀ i j l, T i j l = 0 ∨ T i j l = 1) (u : α × α) :
    Spec.cycleWeights N B M T u = (Spec.cycleCounts N B M (fun i j l => T i j l ≠ 0) u).map fun n : ℤ => (n : K) := by
  have hA : ∀ u v : α × α, (Spec.stepA (fun i j l => T i j l ≠ 0) u v → Spec.alongA T u v = 1) ∧
      (¬ Spec.stepA (fun i j l => T i j l ≠ 0) u v → Spec.alongA T u v = 0) := by
    intro u v
    unfold Spec.stepA Spec.alongA
    constructor
    · rintro ⟨a, b⟩
      rw [if_pos a]
      exact (h1 _ _ _).resolve_left b
    · intro h
      split
      · rename_i a
        by_contra hb
        exact h ⟨a, hb⟩
      · rfl
  have hC : ∀ u v : α × α, (Spec.stepC u v → Spec.alongC (K := K) u v = 1) ∧ (¬ Spec.stepC u v → Spec.alongC (K := K) u v = 0) :=
    fun u v => ⟨fun h => if_pos h, fun h => if_neg h⟩
  have hF : ∀ u v : α × α, (Spec.stepF u v → Spec.alongF (K := K) u v = 1) ∧ (¬ Spec.stepF u v → Spec.alongF (K := K) u v = 0) :=
    fun u v => ⟨fun h => if_pos h, fun h => if_neg h⟩
  have key : ∀ ws : List ((α × α → α × α → Prop) × (α × α → α × α → K)),
      (∀ x ∈ ws, x ∈ [(Spec.stepA (fun i j l => T i j l ≠ 0), Spec.alongA T), (Spec.stepC, Spec.alongC), (Spec.stepF, Spec.alongF)]) →
      Spec.weigh (Spec.nodeLayers N B M) (ws.map Prod.snd) u u = ((Spec.walks (Spec.nodeLayers N B M) (ws.map Prod.fst) u u : ℤ) : K) := by
    intro ws hws
    refine weigh_walks _ ws (fun x hx => ?_) u u
    have := hws x hx
    simp only [List.mem_cons, List.not_mem_nil, or_false] at this
    rcases this with rfl | rfl | rfl
    exacts [hA, hC, hF]
  unfold Spec.cycleWeights Spec.cycleCounts Spec.weightWords Spec.cycleWords
  simp only [List.map_cons, List.map_nil]
  let A : (α × α → α × α → Prop) × (α × α → α × α → K) := (Spec.stepA (fun i j l => T i j l ≠ 0), Spec.alongA T)
  let C : (α × α → α × α → Prop) × (α × α → α × α → K) := (Spec.stepC, Spec.alongC)
  let F : (α × α → α × α → Prop) × (α × α → α × α → K) := (Spec.stepF, Spec.alongF)
  refine List.cons_eq_cons.2 ⟨key [A, A, A] (by simp [A]), ?_⟩
  refine List.cons_eq_cons.2 ⟨key [A, A, C, A, C] (by simp [A, C]), ?_⟩
  refine List.cons_eq_cons.2 ⟨key [A, C, A, A, C] (by simp [A, C]), ?_⟩
  refine List.cons_eq_cons.2 ⟨key [A, C, A, C, A] (by simp [A, C]), ?_⟩
  refine List.cons_eq_cons.2 ⟨key [A, C, A, C, A, C] (by simp [A, C]), ?_⟩
  refine List.cons_eq_cons.2 ⟨key [A, F, A] (by simp [A, F]), ?_⟩
  refine List.cons_eq_cons.2 ⟨key [A, F, C, A, C] (by simp [A, C, F]), ?_⟩
  refine List.cons_eq_cons.2 ⟨key [A, C, F, A, C] (by simp [A, C, F]), ?_⟩
  refine List.cons_eq_cons.2 ⟨key [A, C, F, C, A] (by simp [A, C, F]), ?_⟩
  refine List.cons_eq_cons.2 ⟨key [A, C, F, C, A, C] (by simp [A, C, F]), rfl⟩

/-- the position of a node-layer -/
theorem idx_tab {e : List (NL N B)} (he : e.Nodup) (hm : ∀ u, u ∈ e) (u : NL N B) :
    ∃ i, (e.map NL.tup).idxOf? u.tup = some i ∧ e[i]? = some u := by
  cases hi : (e.map NL.tup).idxOf? u.tup with
  | none => exact absurd (List.mem_map_of_mem (hm u)) (List.idxOf?_eq_none_iff.1 hi)
  | some i =>
    refine ⟨i, rfl, ?_⟩
    unfold List.idxOf? at hi
    obtain ⟨h1, h2, -⟩ := List.findIdx?_eq_some_iff_getElem.1 hi
    rw [List.getElem_map] at h2
    have h3 : i < e.length := by simpa using h1
    rw [List.getElem?_eq_getElem h3]
    exact congrArg some (NL.tup_inj (by simpa using h2))

/-- with two layers, two moves lead back -/
theorem Moves.two {X Y : Matrix (NL N B) (NL N B) K} (hX : Moves X) (hY : Moves Y) (h2 : B.card = 2) : Stays (X * Y) := by
  intro u v huv
  rw [Matrix.mul_apply]
  refine Finset.sum_eq_zero fun t _ => ?_
  by_cases h : u.1.2 = t.1.2
  · rw [hX u t h, zero_mul]
  · by_cases h' : t.1.2 = v.1.2
    · rw [hY t v h', mul_zero]
    · have : ({u.1.2, t.1.2, v.1.2} : Finset α) ⊆ B := by
        intro x hx
        simp only [Finset.mem_insert, Finset.mem_singleton] at hx
        rcases hx with rfl | rfl | rfl
        exacts [u.layer, t.layer, v.layer]
      have := Finset.card_le_card this
      rw [Finset.card_eq_three.2 ⟨_, _, _, h, huv, h', rfl⟩] at this
      omega

theorem two_zero (h2 : B.card = 2) {a c f : Matrix (NL N B) (NL N B) K} (hA : Stays a) (hF : Stays f) (hC : Moves c) (u : NL N B) :
    (a * c * f * c * a * c) u u = 0 := by
  have h1 : Stays (c * f * c) := (hC.mul hF).two hC h2
  have h3 : Moves (a * (c * f * c) * a * c) := ((hA.mul h1).mul hA).moves hC
  have := h3 u u rfl
  simpa only [mul_assoc] using this

/-- the words backwards -/
theorem backwards (u : NL N B) {a c f : Matrix (NL N B) (NL N B) K} (ha : a.transpose = a) (hc : c.transpose = c) (hf : f.transpose = f) :
    (c * a * c * a * a) u u = (a * a * c * a * c) u u ∧ (c * a * a * c * a) u u = (a * c * a * a * c) u u ∧
    (c * a * c * a * c * a) u u = (a * c * a * c * a * c) u u ∧
    (c * a * c * f * a) u u = (a * f * c * a * c) u u ∧ (c * a * f * c * a) u u = (a * c * f * a * c) u u ∧
    (c * a * c * f * c * a) u u = (a * c * f * c * a * c) u u := by
  refine ⟨?_, ?_, ?_, ?_, ?_, ?_⟩
  all_goals
    refine (diag_transpose _ u).symm.trans ?_
    simp only [Matrix.transpose_mul, ha, hc, hf, mul_assoc]

end

section net

variable {α K : Type} [DecidableEq α] [LawfulIntNames α] [LinearOrder α] [DecidableEq K] [Field K]
  {w : K} {aligned : Bool} {ops : List (POp α K)} {N B : Finset α} {M : α → Finset α}

theorem layerCount_ok (hs : Spec.NoIntraSelf ops) (h : Spec.Sets aligned ops N B M) :
    (afterP [.categorical w] false 0 aligned ops).layerCount = .ok B.card := by
  obtain ⟨s, t, hst, s1, t1, s2, t2⟩ := slices_two (w := w) hs h
  unfold layerCount
  have : (afterP [.categorical w] false 0 aligned ops).slices = [s, t] := hst
  rw [this]
  have e : t.toFinset = B := by ext x; simp [t2]
  rw [← e, List.toFinset_card_of_nodup t1]
  rfl

theorem matrices_ok (hw : w ≠ 0) (hs : Spec.NoIntraSelf ops) (h : Spec.Sets aligned ops N B M) :
    ∃ e : List (NL N B), (afterP [.categorical w] false 0 aligned ops).view.supraNodes = e.map NL.tup ∧ e.Nodup ∧ (∀ u, u ∈ e) ∧
      (afterP [.categorical w] false 0 aligned ops).matricesAC =
        .ok (tab e (matA N B (Spec.tensor aligned ops)), tab e (matC N B M w)) := by
  obtain ⟨e, he, hnd, hm, e1, e2, -⟩ := supra_matrices hw hs h
  refine ⟨e, he, hnd, hm, ?_⟩
  unfold matricesAC
  rw [e1, ok_bind, e2, ok_bind]
  dsimp only
  rw [sub_tab, ok_bind, add_sub_cancel_left]
  rfl

/-- the run of `cc_cycle_vector_adj` up to the products with `f` -/
theorem cycleVector_run (hw : w ≠ 0) (hs : Spec.NoIntraSelf ops) (h : Spec.Sets aligned ops N B M) (u : NL N B)
    {a c : Matrix (NL N B) (NL N B) K} (ha : a = matA N B (Spec.tensor aligned ops)) (hc : c = matC N B M w) :
    ∃ (e : List (NL N B)) (i : Nat), (afterP [.categorical w] false 0 aligned ops).view.supraNodes = e.map NL.tup ∧ e.Nodup ∧ (∀ u, u ∈ e) ∧
      e[i]? = some u ∧
      (afterP [.categorical w] false 0 aligned ops).cycleVectorAdj u.1.1 u.1.2 = (do
        let f ← (afterP [.categorical w] false 0 aligned ops).fullMatrix
        let afa ← Mat.closed i [tab e a, f, tab e a]
        let afcac ← Mat.closed i [tab e a, f, tab e c, tab e a, tab e c]
        let acfac ← Mat.closed i [tab e a, tab e c, f, tab e a, tab e c]
        let acfca ← Mat.closed i [tab e a, tab e c, f, tab e c, tab e a]
        let acfcac ← Mat.closed i [tab e a, tab e c, f, tab e c, tab e a, tab e c]
        (afterP [.categorical w] false 0 aligned ops).checkFull afa afcac acfac acfca acfcac
        pure [(a * a * a) u u, (a * a * c * a * c) u u, (a * c * a * a * c) u u, (a * c * a * c * a) u u,
          (a * c * a * c * a * c) u u, afa, afcac, acfac, acfca, acfcac]) := by
  obtain ⟨e, he, hnd, hm, e1, e2, e3⟩ := supra_matrices hw hs h
  obtain ⟨i, hi, hei⟩ := idx_tab hnd hm u
  have hpar := after_params (cs := [Coupling.categorical w]) (by simp) false 0 aligned ops
  have hT := links_of hs h
  have sa : a.transpose = a := by rw [ha]; exact matA_symm hT
  have sc : c.transpose = c := by rw [hc]; exact matC_symm w
  have st : Stays a := by rw [ha]; exact stays_A
  have mc : Moves c := by rw [hc]; exact moves_C w
  obtain ⟨b1, b2, b3, -⟩ := backwards (f := a) u sa sc sa
  have b4 := ach3 u st mc
  rw [← ha, ← hc] at e1
  rw [← ha] at e2 e3
  refine ⟨e, i, he, hnd, hm, hei, ?_⟩
  unfold cycleVectorAdj
  rw [e1, ok_bind, hpar.2.2.2.2]
  dsimp only
  rw [e3, ok_bind, e2, ok_bind]
  dsimp only
  have t1 : ∀ b : Bool, b = true → assertE b = .ok () := fun b hb => by rw [hb]; rfl
  rw [t1 _ (decide_eq_true rfl), ok_bind, t1 _ (decide_eq_true rfl), ok_bind, sub_tab, ok_bind, add_sub_cancel_left, length_tab,
    eye_tab hnd, add_tab, ok_bind]
  have hi' : List.idxOf? [u.1.1, u.1.2] (e.map NL.tup) = some i := hi
  rw [hi']
  dsimp only
  unfold cycleProducts
  have k : ∀ (A : Matrix (NL N B) (NL N B) K) (As : List (Matrix (NL N B) (NL N B) K)) , 
      Mat.closed i (tab e A :: As.map (tab e)) = .ok ((As.foldl (· * ·) A) u u) := fun A As => closed_tab hnd hm hei A As
  rw [show Mat.closed i [tab e a, tab e a, tab e a] = .ok ((a * a * a) u u) from k a [a, a], ok_bind,
    show Mat.closed i [tab e a, tab e a, tab e c, tab e a, tab e c] = .ok ((a * a * c * a * c) u u) from k a [a, c, a, c], ok_bind,
    show Mat.closed i [tab e a, tab e c, tab e a, tab e a, tab e c] = .ok ((a * c * a * a * c) u u) from k a [c, a, a, c], ok_bind,
    show Mat.closed i [tab e a, tab e c, tab e a, tab e c, tab e a] = .ok ((a * c * a * c * a) u u) from k a [c, a, c, a], ok_bind,
    show Mat.closed i [tab e a, tab e c, tab e a, tab e c, tab e a, tab e c] = .ok ((a * c * a * c * a * c) u u) from k a [c, a, c, a, c], ok_bind,
    show Mat.closed i [tab e c, tab e a, tab e c, tab e a, tab e a] = .ok ((c * a * c * a * a) u u) from k c [a, c, a, a], ok_bind,
    show Mat.closed i [tab e c, tab e a, tab e a, tab e c, tab e a] = .ok ((c * a * a * c * a) u u) from k c [a, a, c, a], ok_bind,
    show Mat.closed i [tab e c, tab e a, tab e c, tab e a, tab e c, tab e a] = .ok ((c * a * c * a * c * a) u u) from k c [a, c, a, c, a], ok_bind]
  rw [t1 _ (decide_eq_true b1.symm), ok_bind, t1 _ (decide_eq_true b2.symm), ok_bind, t1 _ (decide_eq_true b3.symm), ok_bind,
    show Mat.closed i [tab e a, tab e (c + 1), tab e a, tab e (c + 1), tab e a, tab e (c + 1)] = .ok ((a * (c + 1) * a * (c + 1) * a * (c + 1)) u u) from
      k a [c + 1, a, c + 1, a, c + 1], ok_bind,
    t1 _ (decide_eq_true b4.symm), ok_bind]

/-- the run of `cc_cycle_vector_adj` with at least two nodes -/
theorem cycleVector_full (hw : w ≠ 0) (hs : Spec.NoIntraSelf ops) (h : Spec.Sets aligned ops N B M) (h2 : 2 ≤ N.card) (u : NL N B)
    {a c f : Matrix (NL N B) (NL N B) K} (ha : a = matA N B (Spec.tensor aligned ops)) (hc : c = matC N B M w) (hf : f = matF N B) :
    (afterP [.categorical w] false 0 aligned ops).cycleVectorAdj u.1.1 u.1.2 = (do
      (afterP [.categorical w] false 0 aligned ops).checkFull ((a * f * a) u u) ((a * f * c * a * c) u u) ((a * c * f * a * c) u u)
        ((a * c * f * c * a) u u) ((a * c * f * c * a * c) u u)
      pure [(a * a * a) u u, (a * a * c * a * c) u u, (a * c * a * a * c) u u, (a * c * a * c * a) u u, (a * c * a * c * a * c) u u,
        (a * f * a) u u, (a * f * c * a * c) u u, (a * c * f * a * c) u u, (a * c * f * c * a) u u, (a * c * f * c * a * c) u u]) := by
  obtain ⟨e, i, he, hnd, hm, hei, er⟩ := cycleVector_run hw hs h u ha hc
  rw [er, fullMatrix_tab hs h h2 ⟨_, u.layer⟩ he, ← hf, ok_bind]
  have k : ∀ (A : Matrix (NL N B) (NL N B) K) (As : List (Matrix (NL N B) (NL N B) K)) , 
      Mat.closed i (tab e A :: As.map (tab e)) = .ok ((As.foldl (· * ·) A) u u) := fun A As => closed_tab hnd hm hei A As
  rw [show Mat.closed i [tab e a, tab e f, tab e a] = .ok ((a * f * a) u u) from k a [f, a], ok_bind,
    show Mat.closed i [tab e a, tab e f, tab e c, tab e a, tab e c] = .ok ((a * f * c * a * c) u u) from k a [f, c, a, c], ok_bind,
    show Mat.closed i [tab e a, tab e c, tab e f, tab e a, tab e c] = .ok ((a * c * f * a * c) u u) from k a [c, f, a, c], ok_bind,
    show Mat.closed i [tab e a, tab e c, tab e f, tab e c, tab e a] = .ok ((a * c * f * c * a) u u) from k a [c, f, c, a], ok_bind,
    show Mat.closed i [tab e a, tab e c, tab e f, tab e c, tab e a, tab e c] = .ok ((a * c * f * c * a * c) u u) from k a [c, f, c, a, c], ok_bind]

end net

end Pymnet
