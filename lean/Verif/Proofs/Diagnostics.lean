import Verif.Spec.Diagnostics
import Verif.Proofs.Edges
import Verif.Proofs.Looks
import Mathlib.Tactic.Ring
import Mathlib.Tactic.Linarith
import Mathlib.Tactic.FieldSimp
import Mathlib.Data.Finset.Prod
import Mathlib.Data.Set.Card
import Mathlib.Algebra.BigOperators.Ring.Finset
import Mathlib.Algebra.Order.Field.Rat

/-! Degree distributions and density. -/

set_option linter.unusedSectionVars false
set_option linter.unusedSimpArgs false

namespace Pymnet

open Py

variable {α W : Type} [DecidableEq α] [DecidableEq W]

namespace View

variable {v : View α W} {R : List α → List α → W}

/-- the ordered pairs of linked node-layers -/
def linkedPairs (v : View α W) (R : List α → List α → W) (nls : List (List α)) : Finset (List α × List α) :=
  (nls.toFinset ×ˢ nls.toFinset).filter fun p => R p.1 p.2 ≠ v.noEdge

theorem Sound.ordered (h : v.Sound R) {nls : List (List α)} (hn : v.nodeLayers = .ok nls) :
    ∃ n : Nat, v.edgesLen = .ok (n : Int) ∧ (∃ es, v.edges = .ok es ∧ es.length = n) ∧
      (v.directed = true → (linkedPairs v R nls).card = n) ∧
      (v.directed = false → (linkedPairs v R nls).card + (nls.filter fun a => R a a ≠ v.noEdge).length = 2 * n) := by
  obtain ⟨es, e1, e2⟩ := h.edgesLen
  refine ⟨es.length, e2, ⟨es, e1, rfl⟩, ?_⟩
  obtain ⟨ps, h1, h2, h3, h4, h5⟩ := h.edges
  rw [e1] at h1; cases h1
  obtain ⟨l, n1, n2, n3, n4⟩ := h.nls
  rw [hn] at n1; cases n1
  rw [List.length_map]
  have hm : ∀ a b, (a, b) ∈ linkedPairs v R nls ↔ a ∈ nls ∧ b ∈ nls ∧ R a b ≠ v.noEdge := by
    intro a b; simp [linkedPairs, and_assoc]
  constructor
  · intro hd
    have : linkedPairs v R nls = ps.toFinset := by
      ext ⟨a, b⟩
      rw [hm, List.mem_toFinset]
      constructor
      · rintro ⟨ha, hb, hR⟩; exact h4 hd a (n3 a ha) b (n3 b hb) hR
      · intro hp
        obtain ⟨p1, p2, p3⟩ := h3 _ hp
        have := n4 a p1 b p2 p3
        exact ⟨this.1, this.2, p3⟩
    rw [this, List.toFinset_card_of_nodup h2]
  · intro hd
    obtain ⟨c1, c2⟩ := h5 hd
    have hs := handshake (ps := ps) (os := (linkedPairs v R nls).toList)
      (ds := (nls.filter fun a => R a a ≠ v.noEdge).map fun a => (a, a)) h2 (Finset.nodup_toList _)
      ((n2.filter _).map (fun x y e => by simpa using e)) c2 ?_ ?_
    · rw [List.length_map, Finset.length_toList] at hs; exact hs
    · intro a b
      rw [Finset.mem_toList, hm]
      constructor
      · rintro ⟨ha, hb, hR⟩; exact c1 a (n3 a ha) b (n3 b hb) hR
      · rintro (hp | hp)
        · obtain ⟨p1, p2, p3⟩ := h3 _ hp
          have := n4 a p1 b p2 p3
          exact ⟨this.1, this.2, p3⟩
        · obtain ⟨p1, p2, p3⟩ := h3 _ hp
          have := n4 b p1 a p2 p3
          exact ⟨this.2, this.1, by rw [h.sym hd a p2 b p1]; exact p3⟩
    · intro a b
      simp only [List.mem_map, List.mem_filter, decide_eq_true_eq, Prod.mk.injEq]
      constructor
      · rintro ⟨a', ⟨ha, hR⟩, rfl, rfl⟩
        have := c1 _ (n3 _ ha) _ (n3 _ ha) hR
        exact ⟨rfl, by tauto⟩
      · rintro ⟨rfl, hp⟩
        obtain ⟨p1, p2, p3⟩ := h3 _ hp
        exact ⟨a, ⟨(n4 a p1 a p2 p3).1, p3⟩, rfl, rfl⟩

theorem itemDeg_eq {nl : List α} (hl : nl.length = v.aspects + 1) : v.itemDeg nl = v.deg nl none := by
  have hv : View.vals? (nl.map Idx.val) = some nl := by
    clear hl
    induction nl with
    | nil => rfl
    | cons a t ih => simp [View.vals?, ih]
  unfold View.itemDeg View.getItem
  simp only [List.length_map, hl, if_true, hv]

theorem count_loop {f : List α → Int} (l : List (List α)) (hf : ∀ nl ∈ l, v.itemDeg nl = .ok (f nl)) :
    ∃ D, forE v.countDeg l [] = .ok D ∧ (D.map Prod.fst).Nodup ∧
      (∀ k n, Dict.get D k = some n ↔ n = l.countP (fun nl => f nl = k) ∧ 0 < n) ∧
      (D.map Prod.snd).sum = l.length ∧ (D.map fun p => p.1 * (p.2 : Int)).sum = (l.map f).sum := by
  have := forE_ok (f := v.countDeg) (P := fun pre D => (D.map Prod.fst).Nodup ∧
      (∀ k n, Dict.get D k = some n ↔ n = pre.countP (fun nl => f nl = k) ∧ 0 < n) ∧
      (D.map Prod.snd).sum = pre.length ∧ (D.map fun p => p.1 * (p.2 : Int)).sum = (pre.map f).sum) l (s := [])
    ⟨by simp, by intro k n; simp, by simp, by simp⟩ ?_
  · exact this
  · intro pre b post D hl ⟨i1, i2, i3, i4⟩
    have hb := hf b (by rw [hl]; simp)
    have hsum : ∀ (D : Dict Int Nat) (k : Int), (D.map Prod.fst).Nodup →
        ((Dict.set D k ((Dict.get D k).getD 0 + 1)).map Prod.fst).Nodup ∧
        (∀ x, x ∈ (Dict.set D k ((Dict.get D k).getD 0 + 1)).map Prod.fst ↔ x = k ∨ x ∈ D.map Prod.fst) ∧
        ((Dict.set D k ((Dict.get D k).getD 0 + 1)).map Prod.snd).sum = (D.map Prod.snd).sum + 1 ∧
        ((Dict.set D k ((Dict.get D k).getD 0 + 1)).map fun p => p.1 * (p.2 : Int)).sum =
          (D.map fun p => p.1 * (p.2 : Int)).sum + k := by
      intro D k
      induction D with
      | nil => intro _; simp [Dict.set, Dict.get]
      | cons p t ih =>
        obtain ⟨k', n'⟩ := p
        intro hnd
        simp only [List.map_cons, List.nodup_cons] at hnd
        by_cases hk : k' = k
        · subst hk
          simp only [Dict.set, Dict.get, if_true, Option.getD_some, List.map_cons, List.nodup_cons, List.sum_cons]
          refine ⟨hnd, fun x => by simp, by omega, by push_cast; ring⟩
        · obtain ⟨j1, j2, j3, j4⟩ := ih hnd.2
          simp only [Dict.set, Dict.get, hk, if_false, List.map_cons, List.nodup_cons, List.sum_cons, j3, j4]
          refine ⟨⟨fun hc => ?_, j1⟩, fun x => ?_, by omega, by ring⟩
          · rcases (j2 k').1 hc with h | h
            · exact hk h
            · exact hnd.1 h
          · simp only [List.mem_cons, j2]; tauto
    obtain ⟨j1, j2, j3, j4⟩ := hsum D (f b) i1
    refine ⟨Dict.set D (f b) ((Dict.get D (f b)).getD 0 + 1), by simp only [View.countDeg, hb], j1, fun k n => ?_, ?_, ?_⟩
    · rw [Dict.get_set]
      simp only [List.countP_append, List.countP_cons, List.countP_nil]
      have hval : (Dict.get D k).getD 0 = pre.countP fun nl => f nl = k := by
        cases hg : Dict.get D k with
        | some m => simpa using ((i2 k m).1 hg).1
        | none =>
          have := (i2 k (pre.countP fun nl => f nl = k)).not.1 (by rw [hg]; simp)
          simp only [Option.getD_none]
          simp only [true_and, not_lt, Nat.le_zero_eq] at this
          exact this.symm
      by_cases hk : f b = k
      · subst hk
        simp only [if_true, hval, Option.some.injEq]
        simp
        omega
      · simp only [hk, if_false, decide_eq_true_eq, Nat.add_zero]
        rw [i2]
    · rw [j3, i3]; simp
    · rw [j4, i4]; simp

theorem note_loop {f : List α → Int} (l : List (List α)) (hf : ∀ nl ∈ l, v.itemDeg nl = .ok (f nl)) :
    ∃ D, forE v.noteDeg l [] = .ok D ∧ ∀ nl k, Dict.get D nl = some k ↔ nl ∈ l ∧ k = f nl := by
  refine forE_ok (f := v.noteDeg) (P := fun pre D => ∀ nl k, Dict.get D nl = some k ↔ nl ∈ pre ∧ k = f nl) l
    (by simp) ?_
  intro pre b post D hl hD
  have hb := hf b (by rw [hl]; simp)
  refine ⟨Dict.set D b (f b), by simp only [View.noteDeg, hb], fun nl k => ?_⟩
  rw [Dict.get_set]
  by_cases h : b = nl
  · subst h; simp [eq_comm]
  · simp only [h, if_false, hD, List.mem_append, List.mem_singleton, Ne.symm h, or_false]

/-- what `degs` iterates over -/
theorem Sound.degsIter (h : v.Sound R) (h0 : v.aspects = 0 → v.nodeLayers = .ok (product v.slices))
    {nls : List (List α)} (hn : v.nodeLayers = .ok nls) :
    ∃ l, v.degsIter = .ok l ∧ l.Nodup ∧ ∀ nl, nl ∈ l ↔ nl ∈ nls := by
  obtain ⟨l, n1, n2, n3, n4⟩ := h.nls
  rw [hn] at n1; cases n1
  unfold View.degsIter
  split
  · rename_i ha
    have hs := h.slen
    rw [ha] at hs
    obtain ⟨s, hs⟩ : ∃ s, v.slices = [s] := by
      match hh : v.slices, hs with
      | [s], _ => exact ⟨s, rfl⟩
    have hp := h0 ha
    rw [hn] at hp; cases hp
    refine ⟨_, rfl, ?_, fun nl => ?_⟩
    · refine (h.snodup _ ?_).map (fun x y e => by simpa using e)
      rw [hs]; simp
    · rw [hs]; simp [product, eq_comm]
  · exact ⟨nls, hn, n2, fun _ => Iff.rfl⟩

theorem Sound.sum_deg (h : v.Sound R) (hd : v.directed = false) {nls : List (List α)} (hn : v.nodeLayers = .ok nls)
    (f : List α → Int) (hf : ∀ nl ∈ nls, v.deg nl none = .ok (f nl)) :
    (∀ nl ∈ nls, f nl = {b | b ∈ nls ∧ R nl b ≠ v.noEdge}.ncard) ∧ (nls.map f).sum = (linkedPairs v R nls).card := by
  obtain ⟨l, n1, n2, n3, n4⟩ := h.nls
  rw [hn] at n1; cases n1
  have hnb : ∀ nl ∈ nls, f nl = ((v.neigh nl).length : Int) ∧ ∀ b, b ∈ v.neigh nl ↔ b ∈ nls ∧ R nl b ≠ v.noEdge := by
    intro nl hnl
    obtain ⟨s1, s2, s3⟩ := h.neigh_spec (n3 nl hnl)
    have := h.degU hd _ hn nl hnl _ s1
    rw [hf nl hnl] at this
    refine ⟨by injection this, fun b => ?_⟩
    rw [s3]
    constructor
    · rintro ⟨hb, hR⟩
      have hR' : R nl b ≠ v.noEdge := hR.elim id fun hR => by rw [h.sym hd _ (n3 nl hnl) b hb]; exact hR
      exact ⟨(n4 nl (n3 nl hnl) b hb hR').2, hR'⟩
    · rintro ⟨hb, hR⟩; exact ⟨n3 b hb, Or.inl hR⟩
  refine ⟨fun nl hnl => ?_, ?_⟩
  · rw [(hnb nl hnl).1, MNet.ncard_of_list (h.neigh_spec (n3 nl hnl)).2.1 (hnb nl hnl).2]
  · have : (nls.map f).sum = (nls.map fun a => ((v.neigh a).length : Int)).sum := by
      congr 1; exact List.map_congr_left fun nl hnl => (hnb nl hnl).1
    rw [this, sum_length_eq]
    congr 1
    have hnd := nodup_flatMap_pairs (f := v.neigh) n2 (fun a ha => (h.neigh_spec (n3 a ha)).2.1)
    rw [← List.toFinset_card_of_nodup hnd]
    congr 1
    ext ⟨a, b⟩
    simp only [List.mem_toFinset, List.mem_flatMap, List.mem_map, Prod.mk.injEq, linkedPairs, Finset.mem_filter,
      Finset.mem_product]
    constructor
    · rintro ⟨a', ha, b', hb, rfl, rfl⟩
      have := ((hnb a' ha).2 b').1 hb
      exact ⟨⟨ha, this.1⟩, this.2⟩
    · rintro ⟨⟨ha, hb⟩, hR⟩
      exact ⟨a, ha, b, ((hnb a ha).2 b).2 ⟨hb, hR⟩, rfl, rfl⟩

/-- the density of a network without self-links -/
theorem Sound.density (h : v.Sound R) (hf : v.fic = true) {nls : List (List α)} (hn : v.nodeLayers = .ok nls)
    (hp : nls = product v.slices) (hs : ∀ a ∈ nls, R a a = v.noEdge) (h2 : 2 ≤ nls.length) :
    v.density = .ok (((linkedPairs v R nls).card : ℚ) / (nls.length * (nls.length - 1))) := by
  obtain ⟨n, e1, -, e2, e3⟩ := h.ordered hn
  have hself : nls.filter (fun a => R a a ≠ v.noEdge) = [] := by
    rw [List.filter_eq_nil_iff]; intro a ha; simp [hs a ha]
  obtain ⟨s0, st, hsl⟩ : ∃ s0 st, v.slices = s0 :: st := by
    have := h.slen
    match hh : v.slices with
    | s0 :: st => exact ⟨s0, st, rfl⟩
    | [] => rw [hh] at this; simp at this
  have hlen : ((v.slices.headD []).length : ℚ) * ((v.slices.drop 1).map fun s => ((s.length : Nat) : ℚ)).prod = nls.length := by
    rw [hp, length_product, hsl]
    simp only [List.headD_cons, List.drop_succ_cons, List.drop_zero, List.map_cons, List.prod_cons, Nat.cast_mul,
      Nat.cast_list_prod, List.map_map]
    rfl
  have hne : (v.slices.headD []).length ≠ 0 := by
    intro h0
    have : (nls.length : ℚ) = 0 := by rw [← hlen, h0]; simp
    have : nls.length = 0 := by exact_mod_cast this
    omega
  have hpos : (0 : ℚ) < nls.length * (nls.length - 1) := by
    have : (2 : ℚ) ≤ nls.length := by exact_mod_cast h2
    nlinarith
  unfold View.density
  rw [if_neg hne, e1]
  simp only [hf, Bool.true_eq_false, if_false]
  cases hd : v.directed with
  | true =>
    have hpe : v.possibleEdges = nls.length * (nls.length - 1) := by
      unfold View.possibleEdges; simp only [hlen, hd, if_true]
    rw [hpe, if_neg hpos.ne', e2 hd]; simp
  | false =>
    have hpe : v.possibleEdges = nls.length * (nls.length - 1) / 2 := by
      unfold View.possibleEdges; simp only [hlen, hd, Bool.false_eq_true, if_false]
    rw [hpe, if_neg (by linarith)]
    have := e3 hd
    rw [hself] at this
    simp only [List.length_nil, Nat.add_zero] at this
    rw [this]
    congr 1
    have := hpos.ne'
    push_cast
    field_simp

end View

end Pymnet
