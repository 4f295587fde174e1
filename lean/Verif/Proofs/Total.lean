import Verif.Proofs.Neigh

/-! The incrementally maintained total degree of a directed network. -/

set_option linter.unusedSectionVars false
set_option linter.unusedSimpArgs false

namespace Pymnet

open Py

variable {α W : Type} [DecidableEq α] [DecidableEq W]

namespace MNet

/-- in- or out-neighbours -/
def nbrs (m : MNet α W) (x : List α) : Set (List α) :=
  {y | (m.lk x y).isSome = true ∨ (m.lk y x).isSome = true}

theorem nbrs_finite {m : MNet α W} (h : m.LInv) (x : List α) : (m.nbrs x).Finite := by
  have : m.nbrs x = ((m.iterTotal x none).toFinset : Set (List α)) := by
    ext y; simp [nbrs, mem_iterTotal h, dimsOk]
  rw [this]; exact Finset.finite_toSet _

theorem nbrs_del {m m' : MNet α W} {u v : List α}
    (hlk : ∀ a b, m'.lk a b = if a = u ∧ b = v then none else m.lk a b) (x : List α) :
    m'.nbrs x = if x = u ∧ (u = v ∨ m.lk v u = none) then m.nbrs x \ {v}
      else if x = v ∧ m.lk v u = none then m.nbrs x \ {u} else m.nbrs x := by
  ext y
  unfold nbrs
  by_cases hxu : x = u
  · subst hxu
    by_cases hyv : y = v
    · subst hyv
      by_cases hself : x = y
      · subst hself; simp [hlk]
      · have hs' : ¬ y = x := fun e => hself e.symm
        cases hl : m.lk y x <;> simp [hlk, hl, hself, hs']
    · by_cases hself : x = v
      · subst hself
        have : ¬ y = x := hyv
        simp [hlk, hyv]
      · cases hl : m.lk v x <;> simp [hlk, hl, hself, hyv]
  · by_cases hxv : x = v
    · subst hxv
      by_cases hyu : y = u
      · subst hyu
        cases hl : m.lk x y <;> simp [hlk, hl, hxu]
      · cases hl : m.lk x u <;> simp [hlk, hl, hxu, hyu]
    · simp [hlk, hxu, hxv]

theorem nbrs_put {m m' : MNet α W} {u v : List α} {w : W}
    (hlk : ∀ a b, m'.lk a b = if a = u ∧ b = v then some w else m.lk a b) (x : List α) :
    m'.nbrs x = if x = u then insert v (m.nbrs x)
      else if x = v then insert u (m.nbrs x) else m.nbrs x := by
  ext y
  unfold nbrs
  by_cases hxu : x = u
  · subst hxu
    by_cases hyv : y = v
    · subst hyv; simp [hlk]
    · by_cases hself : x = v
      · subst hself; simp [hlk, hyv]
      · simp [hlk, hself, hyv]
  · by_cases hxv : x = v
    · subst hxv
      by_cases hyu : y = u
      · subst hyu; simp [hlk, hxu]
      · simp [hlk, hxu, hyu]
    · simp [hlk, hxu, hxv]

open Classical in
/-- change of the counter relative to the true count in one write -/
theorem setItem_total {m : MNet α W} (h : m.Inv) (hd : m.directed = true) {item u v : List α}
    (ha : Spec.Addresses m.aspects item u v) (w : W) (x : List α) :
    (m.setItem item w).1.total x - ((m.setItem item w).1.nbrs x).ncard =
      m.total x - (m.nbrs x).ncard +
      if w = m.noEdge ∧ u ≠ v ∧ x = v ∧ (m.lk u v).isSome = true ∧ m.lk v u = none then 1 else 0 := by
  obtain ⟨-, hinv, -, -, -, -, hlk, htot, -⟩ := setItem_spec h ha w
  rw [htot hd]
  have hfin := nbrs_finite h.l x
  have hlk' : ∀ a b, (m.setItem item w).1.lk a b =
      if a = u ∧ b = v then (if w = m.noEdge then none else some w) else m.lk a b := by
    intro a b; rw [hlk]; simp [Same, hd]
  by_cases hw : w = m.noEdge
  · simp only [hw, if_true, true_and] at hlk' ⊢
    cases huv : m.lk u v with
    | none =>
      have : (m.setItem item m.noEdge).1.nbrs x = m.nbrs x := by
        have e : ∀ a b, (m.setItem item m.noEdge).1.lk a b = m.lk a b := by
          intro a b; rw [hlk']; split
          · rename_i hc; rw [hc.1, hc.2, huv]
          · rfl
        simp [nbrs, e]
      rw [this]; simp
    | some w0 =>
      rw [nbrs_del hlk']
      by_cases hxu : x = u
      · subst hxu
        have hv : v ∈ m.nbrs x := by simp [nbrs, huv]
        have hpos : 0 < (m.nbrs x).ncard := (Set.ncard_pos hfin).2 ⟨v, hv⟩
        by_cases hc : x = v ∨ m.lk v x = none
        · have hif : (if x = x ∧ (x = v ∨ m.lk v x = none) then m.nbrs x \ {v} else
              if x = v ∧ m.lk v x = none then m.nbrs x \ {x} else m.nbrs x) = m.nbrs x \ {v} :=
            if_pos ⟨rfl, hc⟩
          rw [hif, Set.ncard_sdiff_singleton_of_mem hv]
          have hnot : ¬ (x ≠ v ∧ x = v ∧ True ∧ m.lk v x = none) := by
            rintro ⟨h1, h2, -⟩; exact h1 h2
          simp only [Option.isSome_some, hc, and_self, if_true]
          rw [if_neg hnot]
          omega
        · have hself : ¬ x = v := fun e => hc (Or.inl e)
          have hn : ¬ m.lk v x = none := fun e => hc (Or.inr e)
          simp [hself, hn]
      · by_cases hxv : x = v
        · subst hxv
          have hu : u ∈ m.nbrs x := by simp [nbrs, huv]
          have hpos : 0 < (m.nbrs x).ncard := (Set.ncard_pos hfin).2 ⟨u, hu⟩
          have hne : ¬ u = x := fun e => hxu e.symm
          by_cases hc : m.lk x u = none
          · simp only [hxu, false_and, if_false, hc, and_self, if_true, and_false, Ne, hne,
              not_false_eq_true, Option.isSome_some, true_and]
            rw [Set.ncard_sdiff_singleton_of_mem hu]; omega
          · simp [hxu, hc]
        · simp [hxu, hxv]
  · simp only [hw, if_false, false_and] at hlk' ⊢
    rw [nbrs_put hlk']
    have mem1 : v ∈ m.nbrs u ↔ ¬ (m.lk u v = none ∧ m.lk v u = none) := by
      unfold nbrs; cases h1 : m.lk u v <;> cases h2 : m.lk v u <;> simp [h1, h2]
    have mem2 : u ∈ m.nbrs v ↔ ¬ (m.lk u v = none ∧ m.lk v u = none) := by
      unfold nbrs; cases h1 : m.lk u v <;> cases h2 : m.lk v u <;> simp [h1, h2]
    by_cases hc : m.lk u v = none ∧ m.lk v u = none
    · simp only [hc, true_and]
      by_cases hxu : x = u
      · subst hxu
        rw [if_pos rfl, Set.ncard_insert_of_notMem (by rw [mem1]; simp [hc]) hfin]
        simp
      · by_cases hxv : x = v
        · subst hxv
          rw [if_neg hxu, if_pos rfl, Set.ncard_insert_of_notMem (by rw [mem2]; simp [hc]) hfin]
          simp
        · simp [hxu, hxv]
    · have : ¬ (m.lk u v = none ∧ m.lk v u = none ∧ (x = u ∨ x = v)) := fun e => hc ⟨e.1, e.2.1⟩
      rw [if_neg this]
      by_cases hxu : x = u
      · subst hxu
        rw [if_pos rfl, Set.insert_eq_of_mem (mem1.2 hc)]; simp
      · by_cases hxv : x = v
        · subst hxv
          rw [if_neg hxu, if_pos rfl, Set.insert_eq_of_mem (mem2.2 hc)]; simp
        · simp [hxu, hxv]

theorem run_total (aspects : Nat) (noEdge : W) (fic : Bool) (ops : List (Op α W)) (x : List α) :
    ((init aspects noEdge true fic).run ops).total x =
      (((init aspects noEdge true fic).run ops).nbrs x).ncard +
      ({k | Spec.DeletesOneWay aspects noEdge ops x k}.ncard : Int) := by
  classical
  induction ops using List.reverseRecOn with
  | nil => simp [run, init, total, nbrs, lk, get2, Spec.DeletesOneWay]
  | append_singleton ops op ih =>
    have hinv := run_inv (init_inv (α := α) aspects noEdge true fic) ops
    obtain ⟨p1, p2, p3, -⟩ := run_params (init_inv (α := α) aspects noEdge true fic) ops
    have hreads := run_reads aspects noEdge true fic ops
    rw [run_snoc]
    set m := (init aspects noEdge true fic).run ops with hm
    have hd : m.directed = true := by rw [p2]; rfl
    have hne : m.noEdge = noEdge := by rw [p3]; rfl
    have has : m.aspects = aspects := by rw [p1]; rfl
    -- the last call
    let last : Prop := ∃ u, u ≠ x ∧ Spec.written aspects true u x op = some noEdge ∧
      (m.lk u x).isSome = true ∧ m.lk x u = none
    have hset : {k | Spec.DeletesOneWay aspects noEdge (ops ++ [op]) x k} =
        {k | Spec.DeletesOneWay aspects noEdge ops x k} ∪ {k | k = ops.length ∧ last} := by
      ext k
      simp only [Set.mem_ofPred_eq, Set.mem_union]
      rcases Nat.lt_trichotomy k ops.length with hk | hk | hk
      · have e1 : (ops ++ [op])[k]? = ops[k]? := by rw [List.getElem?_append_left hk]
        have e2 : (ops ++ [op]).take k = ops.take k := by rw [List.take_append_of_le_length (by omega)]
        have e3 : ¬ k = ops.length := by omega
        simp [Spec.DeletesOneWay, e1, e2, e3]
      · subst hk
        have e1 : (ops ++ [op])[ops.length]? = some op := by simp
        have e2 : (ops ++ [op]).take ops.length = ops := by simp
        have e3 : ops[ops.length]? = none := by simp
        have e4 : ∀ u, Spec.read aspects true noEdge ops u x ≠ noEdge ↔ (m.lk u x).isSome = true := by
          intro u; rw [← reads_ne_noEdge hinv.l, hne, hreads]
        have e5 : ∀ u, Spec.read aspects true noEdge ops x u = noEdge ↔ m.lk x u = none := by
          intro u; rw [← reads_eq_noEdge hinv.l, hne, hreads]
        simp only [Spec.DeletesOneWay, e1, e2, e3, e4, e5, last]
        simp
      · have e1 : (ops ++ [op])[k]? = none := by simp; omega
        have e2 : ops[k]? = none := by simp; omega
        have e3 : ¬ k = ops.length := by omega
        simp [Spec.DeletesOneWay, e1, e2, e3]
    have hfin : {k | Spec.DeletesOneWay aspects noEdge ops x k}.Finite := by
      apply Set.Finite.subset (Finset.finite_toSet (Finset.range ops.length))
      rintro k ⟨u, op', -, h2, -⟩
      simpa using (List.getElem?_eq_some_iff.1 h2).1
    have hcard : ({k | Spec.DeletesOneWay aspects noEdge (ops ++ [op]) x k}.ncard : Int) =
        {k | Spec.DeletesOneWay aspects noEdge ops x k}.ncard + if last then 1 else 0 := by
      rw [hset]
      by_cases hl : last
      · have hnot : ops.length ∉ {k | Spec.DeletesOneWay aspects noEdge ops x k} := by
          rintro ⟨u, op', -, h2, -⟩; simp at h2
        have : {k | Spec.DeletesOneWay aspects noEdge ops x k} ∪ {k | k = ops.length ∧ last} =
            insert ops.length {k | Spec.DeletesOneWay aspects noEdge ops x k} := by
          ext k; simp [hl, or_comm]
        rw [this, Set.ncard_insert_of_notMem hnot hfin]; simp [hl]
      · have : {k | k = ops.length ∧ last} = ∅ := by ext k; simp [hl]
        rw [this, Set.union_empty]; simp [hl]
    rw [hcard]
    have noWrite : ∀ m' : MNet α W, m'.net = m.net → m'.totalDegree = m.totalDegree →
        (∀ u, Spec.written aspects true u x op ≠ some noEdge) →
        m'.total x = (m'.nbrs x).ncard + ({k | Spec.DeletesOneWay aspects noEdge ops x k}.ncard +
          if last then (1 : Int) else 0) := by
      intro m' h1 h2 h3
      have hl : ¬ last := by rintro ⟨u, -, h4, -⟩; exact h3 u h4
      have e1 : m'.total x = m.total x := by simp [total, h2]
      have e2 : m'.nbrs x = m.nbrs x := by simp [nbrs, lk, h1]
      rw [e1, e2, ih]; simp [hl]
    cases op with
    | addNode n l =>
      obtain ⟨-, -, h3, -, h5, -, h7⟩ := (addNode_grows hinv.r n l).frame.fields
      exact noWrite _ h5 h7 (by simp [Spec.written])
    | addLayer l a =>
      obtain ⟨-, -, h3, -, h5, -, h7⟩ := (addLayer_grows hinv.r l a).frame.fields
      exact noWrite _ h5 h7 (by simp [Spec.written])
    | setItem i w =>
      by_cases hl : i.length = 2 * (m.aspects + 1) ∨ i.length = m.aspects + 2
      · obtain ⟨u, v, ha⟩ := exists_addresses hl
        have key := setItem_total hinv hd ha w x
        have hlast : (w = m.noEdge ∧ u ≠ v ∧ x = v ∧ (m.lk u v).isSome = true ∧ m.lk v u = none) ↔ last := by
          simp only [last, Spec.written, Bool.true_eq_false, false_and, or_false, hne]
          constructor
          · rintro ⟨rfl, h1, rfl, h2, h3⟩
            exact ⟨u, h1, by rw [if_pos (by rw [← has]; exact ha)], h2, h3⟩
          · rintro ⟨u', h1, h2, h3, h4⟩
            split at h2
            · rename_i ha'
              rw [← has] at ha'
              obtain ⟨rfl, rfl⟩ := addresses_unique ha ha'
              cases h2
              exact ⟨rfl, h1, rfl, h3, h4⟩
            · cases h2
        have hite : (if w = m.noEdge ∧ u ≠ v ∧ x = v ∧ (m.lk u v).isSome = true ∧ m.lk v u = none
            then (1 : Int) else 0) = if last then 1 else 0 := by
          by_cases hq : last
          · rw [if_pos hq, if_pos (hlast.2 hq)]
          · rw [if_neg hq, if_neg (fun e => hq (hlast.1 e))]
        rw [hite] at key
        change (m.setItem i w).1.total x = ((m.setItem i w).1.nbrs x).ncard + _
        omega
      · change (m.setItem i w).1.total x = ((m.setItem i w).1.nbrs x).ncard + _
        rw [setItem_arity m hl]
        refine noWrite m rfl rfl (fun u hu => ?_)
        simp only [Spec.written] at hu
        split at hu
        · rename_i hq
          rcases hq with hq | hq
          · exact hl (by rw [has]; exact addresses_length hq)
          · simp at hq
        · cases hu

end MNet

end Pymnet
