import Verif.Proofs.SubnetP
import Verif.Proofs.Checks

/-! `subnet` of a multiplex network: the whole function. -/

set_option linter.unusedSectionVars false
set_option linter.unusedSimpArgs false

namespace Pymnet

open Py MPlex

variable {α W : Type} [DecidableEq α] [DecidableEq W] [Zero W]

variable {p : MPlex α W} {cs : List (Coupling α W)} {dir al : Bool} {z : W} {ns : Prop} {S : α → Prop}
  {LY : Nat → α → Prop} {NL : α → List α → Prop} {R : List α → α → α → W}

namespace BuiltX

theorem mem_slices (h : BuiltX p cs dir z al ns S LY NL R) (hcs : cs ≠ []) {a : Nat} (ha : a ≤ cs.length) (x : α) :
    x ∈ p.slices.getD a [] ↔ if a = 0 then S x else LY a x := by
  have hpar := h.params hcs
  have hp := h.pinv hcs
  obtain ⟨ops, rfl, -, h2, h3, -, -⟩ := h
  obtain ⟨s0, s1, -⟩ := after_spec hcs dir z al ops
  have : x ∈ (afterP cs dir z al ops).slices.getD a [] ↔ (afterP cs dir z al ops).inSlice a x := by
    unfold inSlice
    cases hk : (afterP cs dir z al ops).slices[a]? <;> simp [List.getD, hk]
  rw [this]
  split
  · rename_i h0; subst h0; rw [s0, h2]
  · rw [s1 a x (by omega), h3 a x (by omega) ha]

theorem nodeLayers (h : BuiltX p cs dir z false ns S LY NL R) (hcs : cs ≠ []) :
    ∃ l, p.nodeLayers = .ok l ∧ l.Nodup ∧ (∀ u, u ∈ l ↔ ∃ n s, u = n :: s ∧ s.length = cs.length ∧ NL n s) := by
  obtain ⟨ops, rfl, -, h2, h3, h4, -⟩ := h
  obtain ⟨l, e1, e2, e3⟩ := after_nodeLayers hcs dir z false ops
  refine ⟨l, e1, e2, fun u => (e3 u).trans ?_⟩
  unfold Spec.HasNodeLayer
  constructor
  · rintro ⟨n, s, rfl, hl, ⟨h, -⟩ | ⟨-, h⟩⟩
    · cases h
    · exact ⟨n, s, rfl, hl, (h4 rfl n s hl).1 h⟩
  · rintro ⟨n, s, rfl, hl, h⟩
    exact ⟨n, s, rfl, hl, .inr ⟨rfl, (h4 rfl n s hl).2 h⟩⟩

/-- nodes on layers are nodes, layers with nodes are layers -/
theorem onLayer (h : BuiltX p cs dir z false ns S LY NL R) (hcs : cs ≠ []) {n : α} {s : List α} (hl : s.length = cs.length)
    (hn : NL n s) : S n ∧ LYs cs.length LY s := by
  have hp := h.pinv hcs
  have hpar := h.params hcs
  obtain ⟨l, e1, -, e3⟩ := h.nodeLayers hcs
  obtain ⟨l', f1, -, f3, -⟩ := mem_nodeLayers hp.core
  rw [e1] at f1; cases f1
  have hm := f3 _ ((e3 (n :: s)).2 ⟨n, s, rfl, hl, hn⟩)
  rw [mem_product_get] at hm
  have key : ∀ a x, (n :: s)[a]? = some x → if a = 0 then S x else LY a x := by
    intro a x hx
    obtain ⟨t, ht, hxt⟩ := hm.2 a x hx
    have ha : a ≤ cs.length := by
      have := (List.getElem?_eq_some_iff.1 hx).1
      simp only [List.length_cons] at this; omega
    exact (h.mem_slices hcs ha x).1 (by simp [List.getD, ht, hxt])
  exact ⟨by simpa using key 0 n rfl, hl, fun k x hx => by simpa using key (k + 1) x (by simpa using hx)⟩

/-- the loop adding the layers -/
theorem subnetLayers {q : MPlex α W} (hq : BuiltX q cs dir z al ns S LY NL R) (hcs : cs ≠ []) (p : MPlex α W)
    (ss : List (List α)) (a : Nat) (hl : a + ss.length ≤ cs.length + 1) :
    ∃ q', subnetLayersP p ss a q = .ok q' ∧
      BuiltX q' cs dir z al ns (fun x => S x ∨ (a = 0 ∧ p.fic = true ∧ (∃ s, ss[0]? = some s ∧ x ∈ s) ∧ x ∈ p.slices.getD 0 []))
        (fun k x => LY k x ∨ (a ≤ k ∧ (∃ s, ss[k - a]? = some s ∧ x ∈ s) ∧ x ∈ p.slices.getD k [])) NL R := by
  induction ss generalizing a q S LY with
  | nil => exact ⟨q, rfl, hq.congr (by simp) (by simp) (by simp) (by simp)⟩
  | cons s ss ih =>
    simp only [List.length_cons] at hl
    have step : ∃ m1, (if p.fic = true ∨ a ≠ 0 then
        forE (fun (m : MPlex α W) x => if x ∈ p.slices.getD a [] then (m.addLayer x a).toExcept else .ok m) s q
        else .ok q) = .ok m1 ∧ BuiltX m1 cs dir z al ns
          (fun x => S x ∨ (a = 0 ∧ p.fic = true ∧ x ∈ s ∧ x ∈ p.slices.getD a []))
          (fun k x => LY k x ∨ (k = a ∧ x ∈ s ∧ x ∈ p.slices.getD a [])) NL R := by
      by_cases hc : p.fic = true ∨ a ≠ 0
      · rw [if_pos hc]
        obtain ⟨m1, e1, h1⟩ := forE_ok
          (f := fun (m : MPlex α W) x => if x ∈ p.slices.getD a [] then (m.addLayer x a).toExcept else .ok m)
          (P := fun pre m => BuiltX m cs dir z al ns
            (fun x => S x ∨ (a = 0 ∧ p.fic = true ∧ x ∈ pre ∧ x ∈ p.slices.getD a []))
            (fun k x => LY k x ∨ (k = a ∧ x ∈ pre ∧ x ∈ p.slices.getD a [])) NL R) s (s := q)
          (hq.congr (by simp) (by simp) (by simp) (by simp)) (by
            intro pre x post m _ hm
            by_cases hx : x ∈ p.slices.getD a []
            · rw [if_pos hx]
              by_cases ha : a = 0
              · subst ha
                obtain ⟨m', e, hm'⟩ := hm.addLayer0 hcs x
                have hf : p.fic = true := by simpa using hc
                refine ⟨m', e, hm'.congr (fun y => ?_) (fun k y k1 k2 => ?_) (fun _ _ _ _ => Iff.rfl) (fun _ _ _ _ => rfl)⟩
                · rw [or_assoc]
                  refine or_congr_right ⟨?_, ?_⟩
                  · rintro (⟨h0, h1, h2, h3⟩ | rfl)
                    · exact ⟨h0, h1, by simp [h2], h3⟩
                    · exact ⟨rfl, hf, by simp, hx⟩
                  · rintro ⟨h0, h1, h2, h3⟩
                    simp only [List.mem_append, List.mem_singleton] at h2
                    rcases h2 with h2 | h2
                    · exact .inl ⟨h0, h1, h2, h3⟩
                    · exact .inr h2
                · refine or_congr_right (iff_of_false ?_ ?_)
                  · rintro ⟨h, -⟩; omega
                  · rintro ⟨h, -⟩; omega
              · obtain ⟨m', e, hm'⟩ := hm.addLayer hcs (b := a) (by omega) (by omega) x
                refine ⟨m', e, hm'.congr (fun y => ?_) (fun k y k1 k2 => ?_) (fun _ _ _ _ => Iff.rfl) (fun _ _ _ _ => rfl)⟩
                · simp [ha]
                · rw [or_assoc]
                  refine or_congr_right ⟨?_, ?_⟩
                  · rintro (⟨h0, h2, h3⟩ | ⟨rfl, rfl⟩)
                    · exact ⟨h0, by simp [h2], h3⟩
                    · exact ⟨rfl, by simp, hx⟩
                  · rintro ⟨h0, h2, h3⟩
                    simp only [List.mem_append, List.mem_singleton] at h2
                    rcases h2 with h2 | h2
                    · exact .inl ⟨h0, h2, h3⟩
                    · exact .inr ⟨h0, h2⟩
            · rw [if_neg hx]
              have hmm : ∀ y, (y ∈ pre ++ [x] ∧ y ∈ p.slices.getD a []) ↔ (y ∈ pre ∧ y ∈ p.slices.getD a []) := by
                intro y
                simp only [List.mem_append, List.mem_singleton]
                exact ⟨fun ⟨h1, h2⟩ => h1.elim (fun h1 => ⟨h1, h2⟩) fun e => absurd (e ▸ h2) hx, fun h => ⟨.inl h.1, h.2⟩⟩
              exact ⟨m, rfl, hm.congr (fun y => by rw [hmm]) (fun k y _ _ => by rw [hmm]) (fun _ _ _ _ => Iff.rfl)
                (fun _ _ _ _ => rfl)⟩)
        exact ⟨m1, e1, h1⟩
      · rw [if_neg hc]
        rw [not_or, not_not] at hc
        refine ⟨q, rfl, hq.congr (fun x => ?_) (fun k x k1 k2 => ?_) (fun _ _ _ _ => Iff.rfl) (fun _ _ _ _ => rfl)⟩
        · refine (or_iff_left ?_).symm
          rintro ⟨-, h, -⟩; exact hc.1 h
        · refine (or_iff_left ?_).symm
          rintro ⟨h, -⟩; omega
    obtain ⟨m1, e1, h1⟩ := step
    obtain ⟨m2, e2, h2⟩ := ih h1 (a + 1) (by omega)
    refine ⟨m2, ?_, h2.congr (fun x => ?_) (fun k x k1 k2 => ?_) (fun _ _ _ _ => Iff.rfl) (fun _ _ _ _ => rfl)⟩
    · unfold subnetLayersP
      by_cases hc : p.fic = true ∨ a ≠ 0
      · rw [if_pos hc] at e1 ⊢
        simp only [e1]; exact e2
      · rw [if_neg hc] at e1 ⊢
        cases e1; exact e2
    · rw [or_assoc]
      refine or_congr_right ⟨?_, ?_⟩
      · rintro (⟨rfl, h1, h2, h3⟩ | ⟨h, -⟩)
        · exact ⟨rfl, h1, ⟨s, rfl, h2⟩, h3⟩
        · omega
      · rintro ⟨rfl, h1, ⟨s', h2, h3⟩, h4⟩
        simp at h2; subst h2
        exact .inl ⟨rfl, h1, h3, h4⟩
    · rw [or_assoc]
      refine or_congr_right ?_
      rcases Nat.lt_trichotomy k a with hk | hk | hk
      · constructor
        · rintro (⟨h1, -⟩ | ⟨h1, -⟩) <;> omega
        · rintro ⟨h1, -⟩; omega
      · subst hk
        constructor
        · rintro (⟨-, h2, h3⟩ | ⟨h1, -⟩)
          · exact ⟨le_refl _, ⟨s, by simp, h2⟩, h3⟩
          · omega
        · rintro ⟨-, ⟨s', h2, h3⟩, h4⟩
          simp at h2; subst h2
          exact Or.inl ⟨rfl, h3, h4⟩
      · obtain ⟨j, rfl⟩ : ∃ j, k = a + 1 + j := ⟨k - a - 1, by omega⟩
        have e1 : a + 1 + j - (a + 1) = j := by omega
        have e2 : a + 1 + j - a = j + 1 := by omega
        rw [e1, e2]
        have e3 : a + 1 + j ≠ a := by omega
        simp only [e3, false_and, false_or, List.getElem?_cons_succ]
        refine and_congr_left fun _ => ?_
        constructor <;> intro _ <;> omega

/-- the loop adding the node-layers -/
theorem addNodeLs {q : MPlex α W} (hq : BuiltX q cs dir z false ns S LY NL R) (hcs : cs ≠ []) (l : List (List α))
    (hl : ∀ u ∈ l, u.length = cs.length + 1) :
    ∃ q', forE addNodeLayerP l q = .ok q' ∧ BuiltX q' cs dir z false ns (fun x => S x ∨ ∃ u ∈ l, u[0]? = some x)
      (fun a x => LY a x ∨ ∃ u ∈ l, u[a]? = some x) (fun n t => NL n t ∨ n :: t ∈ l) R := by
  have := forE_ok (f := addNodeLayerP) (P := fun pre q' => BuiltX q' cs dir z false ns (fun x => S x ∨ ∃ u ∈ pre, u[0]? = some x)
      (fun a x => LY a x ∨ ∃ u ∈ pre, u[a]? = some x) (fun n t => NL n t ∨ n :: t ∈ pre) R) l (s := q)
    (hq.congr (by simp) (by simp) (by simp) (by simp)) ?_
  · exact this
  intro pre u post q1 hpre h1
  have hu := hl u (by rw [hpre]; simp)
  match u, hu with
  | n :: s, hu =>
    obtain ⟨q2, e, h2⟩ := h1.addNodeL hcs n (s := s) (by simpa using hu)
    refine ⟨q2, e, h2.congr (fun x => ?_) (fun a x a1 a2 => ?_) (fun _ m t _ => ?_) (fun _ _ _ _ => rfl)⟩
    · simp only [List.mem_append, List.mem_singleton, or_and_right, exists_or, exists_eq_left, or_assoc]
      simp [eq_comm]
    · obtain ⟨b, rfl⟩ : ∃ b, a = b + 1 := ⟨a - 1, by omega⟩
      simp only [List.mem_append, List.mem_singleton, or_and_right, exists_or, exists_eq_left, or_assoc]
      simp
    · simp only [List.mem_append, List.mem_singleton, List.cons.injEq, or_assoc]

end BuiltX

/-- The names selected at index `a`. -/
def inSel (sets : List (List α)) (a : Nat) (x : α) : Prop := ∃ t, sets[a]? = some t ∧ x ∈ t

theorem inSel_product {sets : List (List α)} {n : α} {s : List α} (hl : s.length + 1 = sets.length) :
    n :: s ∈ product sets ↔ inSel sets 0 n ∧ ∀ (k : Nat) x, s[k]? = some x → inSel sets (k + 1) x := by
  rw [mem_product_get]
  constructor
  · rintro ⟨-, h⟩
    exact ⟨h 0 n rfl, fun k x hx => h (k + 1) x (by simpa using hx)⟩
  · rintro ⟨h1, h2⟩
    refine ⟨by simpa using hl, fun i x hx => ?_⟩
    cases i with
    | zero => cases hx; exact h1
    | succ i => exact h2 i x (by simpa using hx)

theorem mem_product_drop {sets : List (List α)} {s : List α} : s ∈ product (sets.drop 1) ↔
    s.length = sets.length - 1 ∧ ∀ (k : Nat) x, s[k]? = some x → inSel sets (k + 1) x := by
  rw [mem_product_get]
  simp only [List.length_drop, List.getElem?_drop, inSel, Nat.add_comm 1]

/-- the loop over the layers, up to the first layer that does not exist -/
theorem subnetLoop {q : MPlex α W} (hp : BuiltX p cs dir z al ns S LY NL R) (hcs : cs ≠ [])
    (hself : ns → ∀ s i, LYs cs.length LY s → R s i i = 0) {S' : α → Prop} {LY' : Nat → α → Prop} {NL' : α → List α → Prop}
    (hq : BuiltX q cs dir z al ns S' LY' NL' (fun _ _ _ => 0)) (nodes : List α) (ls : List (List α)) (hnd : ls.Nodup)
    (hS : ∀ x ∈ nodes, (al = true → S x) → (al = false → ∃ s ∈ ls, NL x s) → S' x)
    (hN : al = false → ∀ n s, n ∈ nodes → s ∈ ls → NL n s → NL' n s)
    (hLY : ∀ s ∈ ls, LYs cs.length LY s → LYs cs.length LY' s) (hl : ∀ s ∈ ls, LYs cs.length LY s) :
    ∃ q', forE (subnetLayerA p nodes) ls q = .ok q' ∧ BuiltX q' cs dir z al ns S' LY' NL'
      (fun t a b => if t ∈ ls ∧ a ∈ nodes ∧ b ∈ nodes then R t a b else 0) := by
  refine forE_ok (f := subnetLayerA p nodes) (P := fun pre q' => BuiltX q' cs dir z al ns S' LY' NL'
      (fun t a b => if t ∈ pre ∧ a ∈ nodes ∧ b ∈ nodes then R t a b else 0)) ls (s := q)
    (hq.congr (by simp) (by simp) (by simp) (by simp)) ?_
  intro pre s post q1 hpre h1
  have hs : s ∈ ls := by rw [hpre]; simp
  have hns : s ∉ pre := by
    rw [hpre, List.nodup_append] at hnd
    intro h
    exact hnd.2.2 s h s (by simp) rfl
  have hls := hl s hs
  obtain ⟨c, c1, c2, c3, c4, c5, -, c7, c8⟩ := hp.child hcs hls
  obtain ⟨c', c1', -⟩ := h1.child hcs (hLY s hs hls)
  obtain ⟨q2, e, h2⟩ := subnetA_spec h1 hcs (hLY s hs hls) c2 c3 c4 c5
    (fun hn i => by rw [c8]; exact hself hn s i hls) nodes (fun a b => by simp [hns])
  refine ⟨q2, ?_, h2.congr (fun x => or_iff_left_of_imp ?_) (fun _ _ _ _ => Iff.rfl) (fun ha n t _ => or_iff_left_of_imp ?_)
    (fun t a b _ => ?_)⟩
  · unfold subnetLayerA
    simp only [c1, c1']
    exact e
  · rintro ⟨x1, x2⟩
    rw [c7] at x2
    refine hS x x1 (fun ha => by rw [ha] at x2; exact x2) (fun ha => ⟨s, hs, by rw [ha] at x2; simpa using x2⟩)
  · rintro ⟨rfl, x1, x2⟩
    rw [c7, ha] at x2
    exact hN ha n t x1 hs (by simpa using x2)
  · by_cases ht : t = s
    · subst ht
      simp only [true_and, List.mem_append, List.mem_singleton, or_true, c8, hns, false_and, if_false]
    · simp only [ht, false_and, if_false, List.mem_append, List.mem_singleton, or_false]

theorem sets_nodup {sl : List (List α)} (h : ∀ s ∈ sl, s.Nodup) (sel : List (Option (List α))) :
    ∀ s ∈ selSets sl sel, s.Nodup := by
  intro s hs
  obtain ⟨q, hq, rfl⟩ := List.mem_map.1 hs
  have := List.of_mem_zip hq
  split
  · exact h _ this.1
  · exact nodup_toSet

/-- What `subnet` does before it copies links. -/
theorem subnet_base (hp : BuiltX p cs dir z al ns S LY NL R) (hcs : cs ≠ []) (hnet : ∀ c ∈ cs, c.isNet = false)
    {sel : List (Option (List α))} (hsel : sel.length = cs.length + 1) (ns' : Prop) (nolinks : Bool) :
    ∃ m, p.subnet sel nolinks = (if nolinks then .ok m else
        forE (subnetLayerA p ((selSets p.slices sel).headD [])) (product ((selSets p.slices sel).drop 1)) m) ∧
      BuiltX m cs dir z al ns'
        (fun x => if al then S x ∧ inSel (selSets p.slices sel) 0 x
          else ∃ s, s.length = cs.length ∧ NL x s ∧ x :: s ∈ product (selSets p.slices sel))
        (fun a x => LY a x ∧ inSel (selSets p.slices sel) a x)
        (fun n s => NL n s ∧ n :: s ∈ product (selSets p.slices sel)) (fun _ _ _ => 0) := by
  have hpar := hp.params hcs
  have hpi := hp.pinv hcs
  set sets := selSets p.slices sel with hsets
  have hslen : sets.length = cs.length + 1 := by
    rw [hsets, length_selSets (by rw [hsel, hpi.core.slen, hpar.1]), hpi.core.slen, hpar.1]
  have hempty : p.emptyCopy = .ok (MPlex.init cs dir z al) := by
    unfold emptyCopy
    rw [hpar.2.2.2.2, hpar.2.1, hpar.2.2.1, hpar.2.2.2.1, if_neg]
    simp only [List.any_eq_true, not_exists, not_and, Bool.not_eq_true]
    exact hnet
  obtain ⟨m1, e1, h1⟩ := (BuiltX.init cs dir z al ns').subnetLayers hcs p sets 0 (by omega)
  have hsub : p.subnet sel nolinks =
      match (if p.fic then .ok [] else p.nodeLayers) with
        | .error e => .error e
        | .ok nls =>
          match forE addNodeLayerP (nls.filter fun nl => inSets sets nl) m1 with
          | .error e => .error e
          | .ok m =>
            if nolinks then .ok m else forE (subnetLayerA p (sets.headD [])) (product (sets.drop 1)) m := by
    unfold MPlex.subnet
    rw [if_neg (by rw [hpar.1]; simp [hsel])]
    simp only [hempty, ← hsets, e1]
    rfl
  rw [hsub]
  cases al with
  | true =>
    refine ⟨m1, ?_, h1.congr (fun x => ?_) (fun a x a1 a2 => ?_) (fun h => (nomatch h)) (fun _ _ _ _ => rfl)⟩
    · rw [hpar.2.2.2.1]; rfl
    · simp only [false_or, true_and, hpar.2.2.2.1, if_true, hp.mem_slices hcs (Nat.zero_le _), inSel]
      exact and_comm
    · rw [hp.mem_slices hcs a2, if_neg (by omega)]
      simp [inSel, and_comm]
  | false =>
    obtain ⟨l, l1, l2, l3⟩ := hp.nodeLayers hcs
    have hflt : ∀ u, u ∈ l.filter (fun nl => inSets sets nl) ↔
        ∃ n s, u = n :: s ∧ s.length = cs.length ∧ NL n s ∧ u ∈ product sets := by
      intro u
      rw [List.mem_filter, l3]
      constructor
      · rintro ⟨⟨n, s, rfl, h1, h2⟩, h3⟩
        exact ⟨n, s, rfl, h1, h2, (inSets_iff (by simp [hslen, h1])).1 h3⟩
      · rintro ⟨n, s, rfl, h1, h2, h3⟩
        exact ⟨⟨n, s, rfl, h1, h2⟩, (inSets_iff (by simp [hslen, h1])).2 h3⟩
    obtain ⟨m2, e2, h2⟩ := h1.addNodeLs hcs (l.filter fun nl => inSets sets nl) (fun u hu => by
      obtain ⟨n, s, rfl, h, -⟩ := (hflt u).1 hu
      simp [h])
    refine ⟨m2, ?_, h2.congr (fun x => ?_) (fun a x a1 a2 => ?_) (fun _ n s hs => ?_) (fun _ _ _ _ => rfl)⟩
    · rw [hpar.2.2.2.1, l1]
      rw [if_neg (by simp)]
      simp only [e2]
    · have hf : ¬ p.fic = true := by rw [hpar.2.2.2.1]; simp
      simp only [hf, false_and, and_false, or_false, false_or, hflt, Bool.false_eq_true, if_false]
      constructor
      · rintro ⟨u, ⟨n, s, rfl, h1, h2, h3⟩, hx⟩
        cases hx
        exact ⟨s, h1, h2, h3⟩
      · rintro ⟨s, h1, h2, h3⟩
        exact ⟨x :: s, ⟨x, s, rfl, h1, h2, h3⟩, rfl⟩
    · rw [hp.mem_slices hcs a2, if_neg (by omega)]
      simp only [Nat.zero_le, true_and, false_or, Nat.sub_zero, hflt]
      constructor
      · rintro (⟨h1, h2⟩ | ⟨u, ⟨n, s, rfl, h1, h2, h3⟩, hx⟩)
        · exact ⟨h2, h1⟩
        · obtain ⟨b, rfl⟩ : ∃ b, a = b + 1 := ⟨a - 1, by omega⟩
          exact ⟨(hp.onLayer hcs h1 h2).2.2 b x (by simpa using hx),
            ((inSel_product (by omega)).1 h3).2 b x (by simpa using hx)⟩
      · rintro ⟨h1, h2⟩
        exact .inl ⟨h2, h1⟩
    · rw [false_or, hflt]
      constructor
      · rintro ⟨n', s', e, h1, h2, h3⟩
        cases e; exact ⟨h2, h3⟩
      · rintro ⟨h1, h2⟩
        exact ⟨n, s, rfl, hs, h1, h2⟩

theorem forE_keyError {σ β : Type} {f : σ → β → Except Err σ} {l : List β} {good : β → Prop}
    {s : σ} (hgood : ∀ pre post, l = pre ++ post → (∀ b ∈ pre, good b) → ∃ s', forE f pre s = .ok s') {e : Err}
    (hbad : ∀ b ∈ l, ¬ good b → ∀ s, f s b = .error e) (hex : ∃ b ∈ l, ¬ good b) : forE f l s = .error e := by
  classical
  have : ∃ pre b post, l = pre ++ b :: post ∧ (∀ x ∈ pre, good x) ∧ ¬ good b := by
    obtain ⟨b, hb, hnb⟩ := hex
    clear hgood hbad
    induction l with
    | nil => simp at hb
    | cons y l ih =>
      by_cases hy : good y
      · have hb' : b ∈ l := by
          rcases List.mem_cons.1 hb with rfl | h
          · exact absurd hy hnb
          · exact h
        obtain ⟨pre, b', post, h1, h2, h3⟩ := ih hb'
        exact ⟨y :: pre, b', post, by simp [h1], by simpa [hy] using h2, h3⟩
      · exact ⟨[], y, l, rfl, by simp, hy⟩
  obtain ⟨pre, b, post, h1, h2, h3⟩ := this
  obtain ⟨s', hs'⟩ := hgood pre (b :: post) h1 h2
  rw [h1, forE_append, hs']
  simp only [forE, hbad b (by rw [h1]; simp) h3]

end Pymnet
