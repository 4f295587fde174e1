import Verif.Proofs.CycleAdj
import Verif.Proofs.Full
import Verif.Props.Clustering2
import Verif.Spec.CycleWeights

/-! The supra-adjacency matrices of one-aspect multiplex networks with categorical couplings. -/

set_option linter.unusedSectionVars false
set_option linter.unusedSimpArgs false

namespace Pymnet

open Py MPlex

section

variable {α K : Type} [DecidableEq α] [LawfulIntNames α] [DecidableEq K] [Field K]
  {w : K} {aligned : Bool} {ops : List (POp α K)} {N B : Finset α} {M : α → Finset α}

open Classical in
/-- what is read between two node-layers when the coupling is replaced by one of weight `v` -/
theorem num2_links (hw : w ≠ 0) (hs : Spec.NoIntraSelf ops) (h : Spec.Sets aligned ops N B M) (v : K) {l l' : α}
    (hl : l ∈ B) (hl' : l' ∈ B) (i j : α) :
    ({ afterP [.categorical w] false 0 aligned ops with couplings := [.categorical v] } : MPlex α K).view.num2 [i, l] [j, l'] =
      .ok (if l = l' then Spec.tensor aligned ops i j l else if i = j ∧ i ∈ M l ∧ i ∈ M l' then v else 0) := by
  have hC := cycL hw hs h.nodes h.layers h.inLayer
  have hP := hC.base
  have hcs : [Coupling.categorical w] ≠ ([] : List (Coupling α K)) := by simp
  have hpar := after_params hcs false 0 aligned ops
  have hI : ∀ i j, ∀ l ∈ B, (afterP [.categorical w] false 0 aligned ops).getLink [i, j, l, l] =
      .ok (Spec.tensor aligned ops i j l) := by
    intro i j l hl
    by_cases hij : i = j
    · subst hij
      refine (getLink_self (p := afterP [.categorical w] false 0 aligned ops) [i, l]).trans ?_
      rw [hP.ne]
      exact congrArg _ (hP.self i l).symm
    · refine after_intra hcs false 0 aligned ops (i := i) (j := j) (s := [l]) hij ?_
      refine ⟨[l], rfl, rfl, fun k x hx => ?_⟩
      cases k with
      | zero => simp at hx; subst hx; exact (h.layers _).1 hl
      | succ k => simp at hx
  set p := afterP [.categorical w] false 0 aligned ops with hpd
  obtain ⟨h1, h2, h3, h4, h5⟩ := hpar
  refine View.num2_eq (by change 2 = p.aspects + 1; rw [h1]; rfl) (by change 2 = p.aspects + 1; rw [h1]; rfl) ?_
  change ({ p with couplings := [.categorical v] } : MPlex α K).getLink [i, j, l, l'] = _
  obtain ⟨q, hq⟩ : ∃ q : MPlex α K, q = { p with couplings := [.categorical v] } := ⟨_, rfl⟩
  rw [← hq]
  have q1 : q.fic = p.fic := by rw [hq]
  have q2 : ∀ k, q.child? k = p.child? k := by rw [hq]; exact fun k => rfl
  have q3 : q.slices = p.slices := by rw [hq]
  have q4 : q.noEdge = p.noEdge := by rw [hq]
  have q5 : q.couplings = [.categorical v] := by rw [hq]
  clear hq
  have hkids : ∀ l ∈ B, ∃ c, p.child? (.el l) = some c ∧ ∀ x, x ∈ c.slices.headD [] ↔ x ∈ M l := fun l hl => by
    obtain ⟨c, hc, hm, -⟩ := hP.kids l hl; exact ⟨c, hc, fun x => hm.mem x⟩
  by_cases hll : l = l'
  · subst hll
    rw [if_pos rfl, ← hI i j l hl]
    by_cases hij : i = j
    · subst hij
      have e : interAspects [i, i, l, l] 0 = [] := by simp [interAspects]
      unfold getLink
      rw [e]
      exact congrArg _ q4
    · have e : interAspects [i, j, l, l] 0 = [0] := by simp [interAspects, hij]
      unfold getLink
      rw [e]
      simp only [q2, q4]
  · rw [if_neg hll]
    by_cases hij : i = j
    · subst hij
      obtain ⟨c, hc, hkc⟩ := hkids l hl
      obtain ⟨c', hc', hkc'⟩ := hkids l' hl'
      have e : interAspects [i, i, l, l'] 0 = [1] := by simp [interAspects, hll]
      unfold getLink
      rw [e]
      simp only [getInter, q3, q4, q5, q1]
      have hn : i ∈ p.slices.headD [] ↔ i ∈ N := hP.lay.mem i
      by_cases hiN : i ∈ N
      · rw [if_neg (by rw [hn]; simpa using hiN)]
        by_cases hf : p.fic = true
        · have ha : i ∈ M l := by rw [hC.fic hf l hl]; exact hiN
          have hb : i ∈ M l' := by rw [hC.fic hf l' hl']; exact hiN
          simp [ha, hb, hf, couplingRead]
        · have hf' : p.fic = false := by simpa using hf
          simp only [hf', Bool.false_eq_true, if_false, onBoth, evens, odds, LKey.ofList, q2, hc, hc', hkc, hkc']
          by_cases ha : i ∈ M l
          · rw [if_pos ha]
            by_cases hb : i ∈ M l'
            · simp [ha, hb, couplingRead]
            · simp [ha, hb, hP.ne]
          · rw [if_neg ha]
            simp [ha, hP.ne]
      · rw [if_pos (by rw [hn]; exact hiN), if_neg (fun h => hiN (hP.sub l hl h.2.1)), hP.ne]
    · have e : interAspects [i, j, l, l'] 0 = [0, 1] := by simp [interAspects, hij, hll]
      unfold getLink
      rw [e, if_neg (fun h => hij h.1)]
      exact congrArg _ (q4.trans hP.ne)

theorem with_couplings {p : MPlex α K} {cs : List (Coupling α K)} (h : p.couplings = cs) :
    ({ p with couplings := cs } : MPlex α K) = p := by
  subst h; rfl

theorem slices_two (hs : Spec.NoIntraSelf ops) (h : Spec.Sets aligned ops N B M) :
    ∃ s t, (afterP [.categorical w] false 0 aligned ops).slices = [s, t] ∧ s.Nodup ∧ t.Nodup ∧ (∀ x, x ∈ s ↔ x ∈ N) ∧
      ∀ x, x ∈ t ↔ x ∈ B := by
  have hcs : [Coupling.categorical w] ≠ ([] : List (Coupling α K)) := by simp
  have hP := (plexL (c := .categorical w) hs h.nodes h.layers h.inLayer)
  have hp := after_pinv hcs false 0 aligned ops
  have hpar := after_params hcs false 0 aligned ops
  set p := afterP [.categorical w] false 0 aligned ops with hpd
  have hlen := hp.core.slen
  rw [hpar.1] at hlen
  obtain ⟨ls, l1, l2, l3⟩ := hP.lay.layers
  match hsl : p.slices, hlen with
  | [s, t], _ =>
    refine ⟨s, t, rfl, hp.core.snodup s (by rw [hsl]; simp), hp.core.snodup t (by rw [hsl]; simp), fun x => ?_, fun x => ?_⟩
    · rw [← hP.lay.mem x]
      change _ ↔ x ∈ p.slices.headD []
      rw [hsl]; rfl
    · rw [← l3 x]
      unfold View.layers1 at l1
      rw [show p.view.slices = p.slices from rfl, hsl] at l1
      cases l1; rfl

end

section full

variable {α K : Type} [DecidableEq α] [LawfulIntNames α] [DecidableEq K] [Field K]

open Classical in
theorem fullNetwork_ok {nodes layers : List α} (h2 : ∀ a ∈ nodes, ∃ b ∈ nodes, a ≠ b) :
    ∃ p, (fullNetwork nodes layers : Except Err (MPlex α K)) = .ok p ∧
      BuiltP p (.categorical 1) true (fun x => layers ≠ [] ∧ x ∈ nodes) (fun x => nodes ≠ [] ∧ x ∈ layers) (fun _ _ => True)
        (fun s a b => if s ∈ layers ∧ a ≠ b ∧ a ∈ nodes ∧ b ∈ nodes then 1 else 0) := by
  unfold fullNetwork
  have e : (fun (p : MPlex α K) l => forE (fun p a => forE (fun p b =>
      if a ≠ b then (p.setItem [a, b, l, l] 1).toExcept else .ok p) nodes p) nodes p) =
      fun p l => forE (fun p (ab : α × α) => if ab.1 ≠ ab.2 then (p.setItem [ab.1, ab.2, l, l] 1).toExcept
        else .ok p) (nodes.flatMap fun a => nodes.map (Prod.mk a)) p := by
    funext p l
    rw [forE_nest]
  rw [e, forE_nest (g := fun (p : MPlex α K) l (ab : α × α) =>
    if ab.1 ≠ ab.2 then (p.setItem [ab.1, ab.2, l, l] 1).toExcept else .ok p)]
  set l := layers.flatMap fun l => (nodes.flatMap fun a => nodes.map (Prod.mk a)).map (Prod.mk l) with hl
  have ml : ∀ y, y ∈ l ↔ y.1 ∈ layers ∧ y.2.1 ∈ nodes ∧ y.2.2 ∈ nodes := by
    rintro ⟨s, a, b⟩; simp [hl]
  obtain ⟨p, h1, h2'⟩ := (BuiltP.init (W := K) (.categorical 1) true).writes l (fun y => y.2.1 ≠ y.2.2) (fun y => y.2.1) (fun y => y.2.2)
    (fun y => y.1) (fun y _ hy h => hy h)
    (g := fun p y => if y.2.1 ≠ y.2.2 then (p.setItem [y.2.1, y.2.2, y.1, y.1] 1).toExcept else .ok p)
    (fun m y _ hy => ⟨_, addresses_one4, if_pos hy⟩) (fun m y _ hy => if_neg hy)
  refine ⟨p, h1, ?_⟩
  refine BuiltP.anyNL (h2'.congr (fun x => ?_) (fun x => ?_) (fun _ _ => Iff.rfl) (fun s a b => ?_))
  · constructor
    · rintro (h | ⟨y, hm, -, h⟩)
      · cases h
      obtain ⟨m1, m2, m3⟩ := (ml _).1 hm
      refine ⟨List.ne_nil_of_mem m1, ?_⟩
      rcases h with rfl | rfl
      · exact m2
      · exact m3
    · rintro ⟨hne, hx⟩
      obtain ⟨s, hs⟩ := List.exists_mem_of_ne_nil _ hne
      obtain ⟨b, hb, hab⟩ := h2 x hx
      exact .inr ⟨(s, x, b), (ml _).2 ⟨hs, hx, hb⟩, hab, .inl rfl⟩
  · constructor
    · rintro (h | ⟨y, hm, -, h⟩)
      · cases h
      obtain ⟨m1, m2, m3⟩ := (ml _).1 hm
      exact ⟨List.ne_nil_of_mem m2, h ▸ m1⟩
    · rintro ⟨hne, hx⟩
      obtain ⟨a, ha⟩ := List.exists_mem_of_ne_nil _ hne
      obtain ⟨b, hb, hab⟩ := h2 a ha
      exact .inr ⟨(x, a, b), (ml _).2 ⟨hx, ha, hb⟩, hab, rfl⟩
  · refine ite_iff ⟨?_, ?_⟩
    · rintro ⟨y, hm, hne, rfl, ⟨rfl, rfl⟩ | ⟨rfl, rfl⟩⟩
      · exact ⟨((ml _).1 hm).1, hne, ((ml _).1 hm).2⟩
      · exact ⟨((ml _).1 hm).1, fun h => hne h.symm, ((ml _).1 hm).2.2, ((ml _).1 hm).2.1⟩
    · rintro ⟨hs, hne, ha, hb⟩
      exact ⟨(s, a, b), (ml _).2 ⟨hs, ha, hb⟩, hne, rfl, .inl ⟨rfl, rfl⟩⟩

/-- the matrix of all links within layers -/
noncomputable def matF (N B : Finset α) : Matrix (NL N B) (NL N B) K := fun u v => Spec.alongF u.1 v.1

variable [LinearOrder α]

theorem pySorted_ext {β : Type} [LinearOrder β] {s t : List β} (hs : s.Nodup) (ht : t.Nodup) (h : ∀ x, x ∈ s ↔ x ∈ t) :
    pySorted s = pySorted t := by
  refine List.Perm.eq_of_pairwise (le := (· ≤ ·)) (fun a b _ _ => le_antisymm) (pySorted_sorted s) (pySorted_sorted t) ?_
  exact (pySorted_perm s).trans (((List.perm_ext_iff_of_nodup hs ht).2 h).trans (pySorted_perm t).symm)

theorem supraNodes_ext {v v' : View α K} {s t s' t' : List α} (h : v.slices = [s, t]) (h' : v'.slices = [s', t'])
    (h1 : s.Nodup) (h2 : t.Nodup) (h3 : s'.Nodup) (h4 : t'.Nodup) (h5 : ∀ x, x ∈ s ↔ x ∈ s') (h6 : ∀ x, x ∈ t ↔ x ∈ t') :
    v.supraNodes = v'.supraNodes := by
  unfold View.supraNodes
  rw [h, h']
  simp only [List.reverse_cons, List.reverse_nil, List.nil_append, List.cons_append, List.map_cons, List.map_nil,
    pySorted_ext h1 h3 h5, pySorted_ext h2 h4 h6]

variable {w : K} {aligned : Bool} {ops : List (POp α K)} {N B : Finset α} {M : α → Finset α}

open Classical in
theorem fullMatrix_tab (hs : Spec.NoIntraSelf ops) (h : Spec.Sets aligned ops N B M) (h2 : 2 ≤ N.card)
    (hB : B.Nonempty) {e : List (NL N B)} (he : (afterP [.categorical w] false 0 aligned ops).view.supraNodes = e.map NL.tup) :
    (afterP [.categorical w] false 0 aligned ops).fullMatrix = .ok (tab e (matF N B)) := by
  obtain ⟨s, t, hst, s1, t1, s2, t2⟩ := slices_two (w := w) hs h
  have hN : ∀ a ∈ N, ∃ b ∈ N, a ≠ b := by
    intro a ha
    obtain ⟨b, hb, hab⟩ := Finset.exists_mem_ne (by omega : 1 < N.card) a
    exact ⟨b, hb, hab.symm⟩
  obtain ⟨fn, f1, ops', f0, f2, f3, f4, f5, f6⟩ := fullNetwork_ok (K := K) (nodes := s) (layers := t) (fun a ha => by
    obtain ⟨b, hb, hab⟩ := hN a ((s2 a).1 ha)
    exact ⟨b, (s2 b).2 hb, hab⟩)
  obtain ⟨l0, hl0⟩ := hB
  have hNe : N.Nonempty := Finset.card_pos.1 (by omega)
  obtain ⟨n0, hn0⟩ := hNe
  have hsne : s ≠ [] := List.ne_nil_of_mem ((s2 _).2 hn0)
  have htne : t ≠ [] := List.ne_nil_of_mem ((t2 _).2 hl0)
  have hS : Spec.Sets true ops' N B (fun _ => N) := by
    refine ⟨fun x => ?_, fun x => ?_, fun l hl x => ?_⟩
    · rw [f3 x, ← s2 x]; simp [htne]
    · rw [← hasLayer_one, f4 x, ← t2 x]; simp [hsne]
    · constructor
      · intro hx
        refine ⟨x, [l], rfl, rfl, .inl ⟨rfl, (f3 x).2 ⟨htne, (s2 x).2 hx⟩, (f4 l).2 ⟨hsne, (t2 l).2 hl⟩⟩⟩
      · rintro ⟨n, s', e', -, h' | h'⟩
        · cases e'
          exact (s2 _).1 ((f3 _).1 h'.2.1).2
        · cases h'.1
  subst f0
  obtain ⟨s', t', hst', s1', t1', s2', t2'⟩ := slices_two (w := (1 : K)) f2 hS
  have hnodes := supraNodes_ext (v := (afterP [Coupling.categorical w] false 0 aligned ops).view)
    (v' := (afterP [Coupling.categorical (1 : K)] false 0 true ops').view) hst hst' s1 t1 s1' t1'
    (fun x => (s2 x).trans (s2' x).symm) (fun x => (t2 x).trans (t2' x).symm)
  unfold fullMatrix
  simp only [hst, List.getElem?_cons_zero, List.getElem?_cons_succ, f1, ok_bind]
  have hpar := after_params (cs := [Coupling.categorical (1 : K)]) (by simp) false 0 true ops'
  rw [supra_tab (v := (afterP [Coupling.categorical (1 : K)] false 0 true ops').view) hpar.1 (hnodes.symm.trans he) false (matF N B)]
  · rfl
  · intro u v huv
    rcases huv with huv | huv
    · cases huv
    have hn := num2_links (w := (1 : K)) one_ne_zero f2 hS 1 u.layer v.layer u.1.1 v.1.1
    rw [if_pos huv] at hn
    rw [with_couplings hpar.2.2.2.2] at hn
    refine hn.trans ?_
    unfold Spec.tensor
    rw [f6]
    congr 1
    unfold matF Spec.alongF Spec.stepF
    refine ite_iff ?_
    rw [t2, s2, s2]
    exact ⟨fun h => ⟨huv, h.2.1⟩, fun h => ⟨u.layer, h.2, u.node, v.node⟩⟩
  · intro u v _ huv
    unfold matF Spec.alongF Spec.stepF
    rw [if_neg fun h => huv h.1]

theorem forE_skip {σ β : Type} {f : σ → β → Except Err σ} (l : List β) (s : σ) (h : ∀ b ∈ l, f s b = .ok s) : forE f l s = .ok s := by
  induction l with
  | nil => rfl
  | cons b l ih => simp only [forE, h b (by simp), ih fun x hx => h x (by simp [hx])]

theorem fullMatrix_small (hs : Spec.NoIntraSelf ops) (h : Spec.Sets aligned ops N B M) (h2 : N.card ≤ 1 ∨ B = ∅) :
    (afterP [.categorical w] false 0 aligned ops).fullMatrix = .ok [] := by
  obtain ⟨s, t, hst, s1, t1, s2, t2⟩ := slices_two (w := w) hs h
  have e : (fullNetwork s t : Except Err (MPlex α K)) = .ok (MPlex.init [.categorical 1] false 0 true) := by
    unfold fullNetwork
    refine forE_skip t _ fun l hl => ?_
    refine forE_skip s _ fun a ha => ?_
    refine forE_skip s _ fun b hb => ?_
    rw [if_neg]
    rcases h2 with h2 | h2
    · exact not_not.2 (Finset.card_le_one.1 h2 a ((s2 a).1 ha) b ((s2 b).1 hb))
    · have := (t2 l).1 hl
      rw [h2] at this; simp at this
  unfold fullMatrix
  simp only [hst, List.getElem?_cons_zero, List.getElem?_cons_succ, e, ok_bind]
  have : (MPlex.init [Coupling.categorical (1 : K)] false 0 true : MPlex α K).view.supraNodes = [] := by
    unfold View.supraNodes
    change (pySorted (product (([[], []] : List (List α)).reverse.map pySorted))).map _ = _
    rfl
  unfold View.supra
  rw [this]
  rfl

end full

end Pymnet
