import Verif.Proofs.Transforms
import Mathlib.Algebra.BigOperators.Group.Finset.Basic
import Mathlib.Algebra.BigOperators.Group.Finset.Sigma
import Mathlib.Tactic.Abel

/-! `aggregate` on a sound dispatch table. -/

set_option linter.unusedSectionVars false
set_option linter.unusedSimpArgs false

namespace Pymnet

open Py

variable {α W : Type} [DecidableEq α] [DecidableEq W]

theorem interleave_even {a b : List α} (h : a.length = b.length) (i : Nat) : (interleave a b)[2 * i]? = a[i]? := by
  induction a generalizing b i with
  | nil => cases b <;> simp [interleave]
  | cons x a ih =>
    cases b with
    | nil => simp at h
    | cons y b =>
      cases i with
      | zero => simp [interleave]
      | succ i =>
        have : 2 * (i + 1) = 2 * i + 1 + 1 := by omega
        rw [this]; simp only [interleave, List.getElem?_cons_succ]
        exact ih (by simpa using h) i

theorem interleave_odd {a b : List α} (h : a.length = b.length) (i : Nat) : (interleave a b)[2 * i + 1]? = b[i]? := by
  induction a generalizing b i with
  | nil => cases b <;> simp_all [interleave]
  | cons x a ih =>
    cases b with
    | nil => simp at h
    | cons y b =>
      cases i with
      | zero => simp [interleave]
      | succ i =>
        have : 2 * (i + 1) + 1 = 2 * i + 1 + 1 + 1 := by omega
        rw [this]; simp only [interleave, List.getElem?_cons_succ]
        exact ih (by simpa using h) i

theorem range_double (n : Nat) : List.range (2 * n) = (List.range n).flatMap fun i => [2 * i, 2 * i + 1] := by
  induction n with
  | zero => rfl
  | succ n ih =>
    have : 2 * (n + 1) = 2 * n + 1 + 1 := by omega
    rw [this, List.range_succ, List.range_succ, List.range_succ, List.flatMap_append, ih]
    simp

theorem kept_aux (asp : List Nat) {a b : List α} (h : a.length = b.length) (l : List Nat) (hl : ∀ i ∈ l, i < a.length) :
    (((l.flatMap fun i => [2 * i, 2 * i + 1]).filter fun x => x / 2 ∉ asp).filterMap fun i => (interleave a b)[i]?) =
      interleave ((l.filter fun i => i ∉ asp).filterMap fun i => a[i]?)
        ((l.filter fun i => i ∉ asp).filterMap fun i => b[i]?) := by
  induction l with
  | nil => rfl
  | cons i l ih =>
    have hi := hl i (by simp)
    have hi' : i < b.length := by omega
    have ih := ih (fun j hj => hl j (by simp [hj]))
    have e1 : 2 * i / 2 = i := by omega
    have e2 : (2 * i + 1) / 2 = i := by omega
    have ea : a[i]? = some a[i] := List.getElem?_eq_getElem hi
    have eb : b[i]? = some b[i] := List.getElem?_eq_getElem hi'
    rw [List.flatMap_cons, List.filter_append, List.filterMap_append, ih]
    by_cases hc : i ∈ asp
    · simp [List.filter_cons, e1, e2, hc]
    · rw [List.filter_cons_of_pos (by simp [e1, hc]), List.filter_cons_of_pos (by simp [e2, hc]),
        List.filter_cons_of_pos (by simp [hc])]
      simp only [List.filter_nil, List.filterMap_cons, List.filterMap_nil, interleave_even h, interleave_odd h, ea, eb,
        interleave, List.cons_append, List.nil_append]

theorem keptIndices_interleave {k : Nat} (asp : List Nat) {a b : List α} (ha : a.length = k + 1) (hb : b.length = k + 1) :
    keptIndices k asp (interleave a b) = interleave (Spec.reduce asp a) (Spec.reduce asp b) := by
  unfold keptIndices Spec.reduce
  rw [range_double, kept_aux asp (by omega) _ (fun i hi => by rw [ha]; exact List.mem_range.1 hi), ha, hb]

theorem length_filterMap_getElem (l : List Nat) (a : List α) (h : ∀ i ∈ l, i < a.length) :
    (l.filterMap fun i => a[i]?).length = l.length := by
  induction l with
  | nil => rfl
  | cons i l ih =>
    rw [List.filterMap_cons, List.getElem?_eq_getElem (h i (by simp))]
    simp [ih (fun j hj => h j (by simp [hj]))]

theorem length_reduce {k : Nat} {asp : List Nat} (hn : asp.Nodup) (hr : ∀ d ∈ asp, d ≤ k) {a : List α}
    (ha : a.length = k + 1) : (Spec.reduce asp a).length = k + 1 - asp.length := by
  unfold Spec.reduce
  rw [length_filterMap_getElem _ _ (fun i hi => List.mem_range.1 (List.mem_filter.1 hi).1), ha]
  have h1 : ((List.range (k + 1)).filter fun i => i ∈ asp).length = asp.length := by
    apply List.Perm.length_eq
    rw [List.perm_ext_iff_of_nodup (List.nodup_range.filter _) hn]
    intro i
    simp only [List.mem_filter, List.mem_range, decide_eq_true_eq]
    exact ⟨fun h => h.2, fun h => ⟨by have := hr i h; omega, h⟩⟩
  have h2 := List.length_eq_length_filter_add (l := List.range (k + 1)) (fun i => decide (i ∈ asp))
  rw [List.length_range, h1] at h2
  have : (fun i => !decide (i ∈ asp)) = fun i => decide (i ∉ asp) := by funext i; simp
  rw [this] at h2
  omega

theorem reduce_cons {asp : List Nat} (h0 : 0 ∉ asp) (n : α) (l : List α) : Spec.reduce asp (n :: l) =
    n :: ((List.range' 1 l.length).filter fun x => x ∉ asp).filterMap fun a => (n :: l)[a]? := by
  unfold Spec.reduce
  have : List.range (n :: l).length = 0 :: List.range' 1 l.length := by
    rw [List.length_cons, List.range_eq_range', List.range'_succ]
  rw [this, List.filter_cons_of_pos (by simp [h0]), List.filterMap_cons]
  simp

theorem Built.readItem {m : MNet α W} {d : Nat} {z : W} {dir al : Bool}
    {S : Nat → α → Prop} {NL : List α → Prop} {R : List α → List α → W} (h : Built m d z dir al S NL R)
    {item u v : List α} (ha : Spec.Addresses d item u v) : m.view.readItem item = .ok (.weight (R u v)) := by
  have hl := MNet.getLink_interleave m (u := u) (v := v)
    (by rw [ha.1, ha.2.1]) (by rintro rfl; simp [Spec.Addresses] at ha)
  rw [h.rd] at hl
  exact View.getItem_addresses (v := m.view)
    (by change Spec.Addresses m.aspects _ _ _; rw [h.params.1]; exact ha) hl

theorem exists_mem_snoc {β : Type} {l : List β} {p : β} {P : β → Prop} :
    (∃ q ∈ l ++ [p], P q) ↔ (∃ q ∈ l, P q) ∨ P p := by
  simp [or_and_right, exists_or]

/-- the pair `p` contributes to the link `a → b` of the result -/
def Contributes (asp : List Nat) (selfEdges dir : Bool) (a b : List α) (p : List α × List α) : Prop :=
  (selfEdges = true ∨ Spec.reduce asp p.1 ≠ Spec.reduce asp p.2) ∧
    ((a = Spec.reduce asp p.1 ∧ b = Spec.reduce asp p.2) ∨
      (dir = false ∧ a = Spec.reduce asp p.2 ∧ b = Spec.reduce asp p.1))

instance (asp : List Nat) (selfEdges dir : Bool) (a b : List α) : DecidablePred (Contributes asp selfEdges dir a b) :=
  fun p => by unfold Contributes; infer_instance

/-- sum of the contributions -/
def contrib [AddCommMonoid W] (asp : List Nat) (selfEdges dir : Bool) (R : List α → List α → W)
    (ps : List (List α × List α)) (a b : List α) : W :=
  (ps.map fun p => if Contributes asp selfEdges dir a b p then R p.1 p.2 else 0).sum

theorem contrib_symm [AddCommMonoid W] (asp : List Nat) (selfEdges : Bool) (R : List α → List α → W)
    (ps : List (List α × List α)) (a b : List α) :
    contrib asp selfEdges false R ps a b = contrib asp selfEdges false R ps b a := by
  unfold contrib
  congr 1
  apply List.map_congr_left
  intro p _
  have : Contributes asp selfEdges false a b p ↔ Contributes asp selfEdges false b a p := by
    unfold Contributes
    refine and_congr_right fun _ => ?_
    simp only [true_and]
    constructor
    · rintro (⟨h1, h2⟩ | ⟨h1, h2⟩)
      · exact Or.inr ⟨h2, h1⟩
      · exact Or.inl ⟨h2, h1⟩
    · rintro (⟨h1, h2⟩ | ⟨h1, h2⟩)
      · exact Or.inr ⟨h2, h1⟩
      · exact Or.inl ⟨h2, h1⟩
  by_cases hc : Contributes asp selfEdges false a b p
  · rw [if_pos hc, if_pos (this.1 hc)]
  · rw [if_neg hc, if_neg (fun h => hc (this.2 h))]

theorem contrib_sum [AddCommMonoid W] (asp : List Nat) (selfEdges dir : Bool) (R : List α → List α → W)
    (ps : List (List α × List α)) (a b : List α) : contrib asp selfEdges dir R ps a b =
      ((ps.filter fun p => Contributes asp selfEdges dir a b p).map fun p => R p.1 p.2).sum := by
  unfold contrib
  induction ps with
  | nil => rfl
  | cons p ps ih =>
    by_cases hc : Contributes asp selfEdges dir a b p
    · rw [List.map_cons, List.sum_cons, if_pos hc, List.filter_cons_of_pos (by simpa using hc), List.map_cons, List.sum_cons, ih]
    · rw [List.map_cons, List.sum_cons, if_neg hc, List.filter_cons_of_neg (by simpa using hc), ih, zero_add]

/-- The loop over the edges. -/
theorem aggregate_edges [AddCommMonoid W] {v : View α W} {R : List α → List α → W} (h : v.Sound R) (hz : v.noEdge = 0)
    {asp : List Nat} (hn : asp.Nodup) (hr : ∀ d ∈ asp, 1 ≤ d ∧ d ≤ v.aspects) (selfEdges : Bool)
    (hself : selfEdges = true → v.directed = false → ∀ l : List W, l ≠ [] →
      (∀ w ∈ l, w ≠ 0 ∧ ∃ a ∈ product v.slices, ∃ b ∈ product v.slices, w = R a b) → l.sum ≠ 0)
    {ps : List (List α × List α)}
    (hps : ∀ p ∈ ps, p.1 ∈ product v.slices ∧ p.2 ∈ product v.slices ∧ R p.1 p.2 ≠ v.noEdge)
    {m : MNet α W} {al : Bool} {S : Nat → α → Prop} {NL : List α → Prop}
    (h0 : Built m (v.aspects - asp.length) 0 v.directed al S NL (fun _ _ => 0)) :
    ∃ m', forE (aggregateEdge v.aspects asp selfEdges) (ps.map (View.tuple R)) m = .ok m' ∧
      Built m' (v.aspects - asp.length) 0 v.directed al
        (fun k x => S k x ∨ ∃ p ∈ ps, (selfEdges = true ∨ Spec.reduce asp p.1 ≠ Spec.reduce asp p.2) ∧
          ((Spec.reduce asp p.1)[k]? = some x ∨ (Spec.reduce asp p.2)[k]? = some x))
        (fun nl => NL nl ∨ ∃ p ∈ ps, (selfEdges = true ∨ Spec.reduce asp p.1 ≠ Spec.reduce asp p.2) ∧
          (nl = Spec.reduce asp p.1 ∨ nl = Spec.reduce asp p.2))
        (contrib asp selfEdges v.directed R ps) := by
  have hle : asp.length ≤ v.aspects := by
    have h1 := List.Subperm.length_le (List.subperm_of_subset hn (l₂ := List.range' 1 v.aspects) (by
      intro d hd; rw [List.mem_range']; have := hr d hd; exact ⟨d - 1, by omega, by omega⟩))
    simpa using h1
  have hlen : ∀ a, a ∈ product v.slices → (Spec.reduce asp a).length = v.aspects - asp.length + 1 := by
    intro a ha
    rw [length_reduce hn (fun d hd => (hr d hd).2) (h.length_of_mem ha)]; omega
  have key : ∀ post pre : List (List α × List α), ps = pre ++ post → ∀ m : MNet α W,
      Built m (v.aspects - asp.length) 0 v.directed al
        (fun k x => S k x ∨ ∃ p ∈ pre, (selfEdges = true ∨ Spec.reduce asp p.1 ≠ Spec.reduce asp p.2) ∧
          ((Spec.reduce asp p.1)[k]? = some x ∨ (Spec.reduce asp p.2)[k]? = some x))
        (fun nl => NL nl ∨ ∃ p ∈ pre, (selfEdges = true ∨ Spec.reduce asp p.1 ≠ Spec.reduce asp p.2) ∧
          (nl = Spec.reduce asp p.1 ∨ nl = Spec.reduce asp p.2))
        (contrib asp selfEdges v.directed R pre) →
      ∃ m', forE (aggregateEdge v.aspects asp selfEdges) (post.map (View.tuple R)) m = .ok m' ∧
      Built m' (v.aspects - asp.length) 0 v.directed al
        (fun k x => S k x ∨ ∃ p ∈ ps, (selfEdges = true ∨ Spec.reduce asp p.1 ≠ Spec.reduce asp p.2) ∧
          ((Spec.reduce asp p.1)[k]? = some x ∨ (Spec.reduce asp p.2)[k]? = some x))
        (fun nl => NL nl ∨ ∃ p ∈ ps, (selfEdges = true ∨ Spec.reduce asp p.1 ≠ Spec.reduce asp p.2) ∧
          (nl = Spec.reduce asp p.1 ∨ nl = Spec.reduce asp p.2))
        (contrib asp selfEdges v.directed R ps) := by
    intro post
    induction post with
    | nil => intro pre e m hm; simp at e; subst e; exact ⟨m, rfl, hm⟩
    | cons p post ih =>
      intro pre e m hm
      have hp := hps p (by rw [e]; simp)
      have l1 := hlen _ hp.1
      have l2 := hlen _ hp.2.1
      have ek : keptIndices v.aspects asp (interleave p.1 p.2) =
          interleave (Spec.reduce asp p.1) (Spec.reduce asp p.2) :=
        keptIndices_interleave asp (h.length_of_mem hp.1) (h.length_of_mem hp.2.1)
      have hll : (Spec.reduce asp p.1).length = (Spec.reduce asp p.2).length := by omega
      have hadr : Spec.Addresses (v.aspects - asp.length) (interleave (Spec.reduce asp p.1) (Spec.reduce asp p.2))
          (Spec.reduce asp p.1) (Spec.reduce asp p.2) := ⟨l1, l2, Or.inl (interleave_eq_link _ _)⟩
      have step : ∃ m1, aggregateEdge v.aspects asp selfEdges m (View.tuple R p) = .ok m1 ∧
        Built m1 (v.aspects - asp.length) 0 v.directed al
        (fun k x => S k x ∨ ∃ q ∈ pre ++ [p], (selfEdges = true ∨ Spec.reduce asp q.1 ≠ Spec.reduce asp q.2) ∧
          ((Spec.reduce asp q.1)[k]? = some x ∨ (Spec.reduce asp q.2)[k]? = some x))
        (fun nl => NL nl ∨ ∃ q ∈ pre ++ [p], (selfEdges = true ∨ Spec.reduce asp q.1 ≠ Spec.reduce asp q.2) ∧
          (nl = Spec.reduce asp q.1 ∨ nl = Spec.reduce asp q.2))
        (contrib asp selfEdges v.directed R (pre ++ [p])) := by
        unfold aggregateEdge
        simp only [View.tuple, ek, evens_interleave hll, odds_interleave hll]
        by_cases hc : selfEdges = true ∨ Spec.reduce asp p.1 ≠ Spec.reduce asp p.2
        · rw [if_pos hc, hm.readItem hadr]
          simp only [Item.num]
          obtain ⟨m1, e1, h1⟩ := hm.setItem hadr (contrib asp selfEdges v.directed R pre (Spec.reduce asp p.1)
            (Spec.reduce asp p.2) + R p.1 p.2) (by
              intro hd hu hw
              exfalso
              have hs : selfEdges = true := by
                rcases hc with hc | hc
                · exact hc
                · exact absurd hu hc
              rw [contrib_sum] at hw
              refine hself hs hd ((pre.filter fun q => Contributes asp selfEdges v.directed (Spec.reduce asp p.1)
                (Spec.reduce asp p.2) q).map (fun p => R p.1 p.2) ++ [R p.1 p.2]) (by simp) ?_
                (by rw [List.sum_append, List.sum_singleton]; exact hw)
              intro w hw
              simp only [List.mem_append, List.mem_map, List.mem_filter, List.mem_singleton] at hw
              rcases hw with ⟨q, ⟨hq, -⟩, rfl⟩ | rfl
              · have := hps q (by rw [e]; simp [hq])
                rw [hz] at this
                exact ⟨this.2.2, q.1, this.1, q.2, this.2.1, rfl⟩
              · rw [hz] at hp
                exact ⟨hp.2.2, p.1, hp.1, p.2, hp.2.1, rfl⟩)
          refine ⟨m1, e1, h1.congr (fun k x => ?_) (fun nl => ?_) (fun a b => ?_)⟩
          · rw [exists_mem_snoc, or_assoc, and_iff_right hc]
          · rw [exists_mem_snoc, or_assoc, and_iff_right hc]
          · have hC : Contributes asp selfEdges v.directed a b p ↔
                ((a = Spec.reduce asp p.1 ∧ b = Spec.reduce asp p.2) ∨
                (v.directed = false ∧ a = Spec.reduce asp p.2 ∧ b = Spec.reduce asp p.1)) := by
              unfold Contributes; exact and_iff_right hc
            have expand : contrib asp selfEdges v.directed R (pre ++ [p]) a b =
                contrib asp selfEdges v.directed R pre a b + if Contributes asp selfEdges v.directed a b p then R p.1 p.2 else 0 := by
              simp [contrib]
            rw [expand]
            by_cases hab : (a = Spec.reduce asp p.1 ∧ b = Spec.reduce asp p.2) ∨
                (v.directed = false ∧ a = Spec.reduce asp p.2 ∧ b = Spec.reduce asp p.1)
            · rw [if_pos hab, if_pos (hC.2 hab)]
              rcases hab with ⟨rfl, rfl⟩ | ⟨hd, rfl, rfl⟩
              · rfl
              · rw [hd, contrib_symm]
            · rw [if_neg hab, if_neg (fun h => hab (hC.1 h)), add_zero]
        · rw [if_neg hc]
          refine ⟨m, rfl, hm.congr (fun k x => ?_) (fun nl => ?_) (fun a b => ?_)⟩
          · rw [exists_mem_snoc, ← or_assoc]
            exact (or_iff_left fun h => hc h.1).symm
          · rw [exists_mem_snoc, ← or_assoc]
            exact (or_iff_left fun h => hc h.1).symm
          · have hC : ¬ Contributes asp selfEdges v.directed a b p := fun h => hc h.1
            simp [contrib, hC]
      obtain ⟨m1, e1, h1⟩ := step
      obtain ⟨m2, e2, h2⟩ := ih (pre ++ [p]) (by simp [e]) m1 h1
      refine ⟨m2, ?_, h2⟩
      rw [List.map_cons]
      simp only [forE, e1]
      exact e2
  exact key ps [] rfl m (h0.congr (by simp) (by simp) (by simp [contrib]))

/-! ### Sums over pairs -/

theorem contrib_distinct [AddCommMonoid W] {v : View α W} {R : List α → List α → W} (h : v.Sound R) (hz : v.noEdge = 0)
    {ps : List (List α × List α)} (hps : v.edges = .ok (ps.map (View.tuple R))) (hn : ps.Nodup)
    (p3 : ∀ p ∈ ps, p.1 ∈ product v.slices ∧ p.2 ∈ product v.slices ∧ R p.1 p.2 ≠ v.noEdge)
    (p4 : v.directed = true → ∀ a ∈ product v.slices, ∀ b ∈ product v.slices, R a b ≠ v.noEdge → (a, b) ∈ ps)
    (p5 : v.directed = false →
      (∀ a ∈ product v.slices, ∀ b ∈ product v.slices, R a b ≠ v.noEdge → (a, b) ∈ ps ∨ (b, a) ∈ ps) ∧
      ∀ a b, a ≠ b → (a, b) ∈ ps → (b, a) ∉ ps)
    (asp : List Nat) (selfEdges : Bool) {u w : List α} (huw : u ≠ w) :
    contrib asp selfEdges v.directed R ps u w =
      ∑ a ∈ (product v.slices).toFinset with Spec.reduce asp a = u,
        ∑ b ∈ (product v.slices).toFinset with Spec.reduce asp b = w, R a b := by
  rw [hz] at p3 p4 p5
  set Q := (product v.slices).toFinset with hQ
  let g : List α × List α → W := fun p => if Spec.reduce asp p.1 = u ∧ Spec.reduce asp p.2 = w then R p.1 p.2 else 0
  have rhs : (∑ a ∈ Q with Spec.reduce asp a = u, ∑ b ∈ Q with Spec.reduce asp b = w, R a b) = ∑ p ∈ Q ×ˢ Q, g p := by
    rw [Finset.sum_product, Finset.sum_filter]
    refine Finset.sum_congr rfl fun a _ => ?_
    by_cases ha : Spec.reduce asp a = u
    · simp only [ha, if_true, true_and, g]
      rw [Finset.sum_filter]
    · simp [ha, g]
  rw [rhs]
  have lhs : contrib asp selfEdges v.directed R ps u w =
      ∑ p ∈ ps.toFinset, (if Contributes asp selfEdges v.directed u w p then R p.1 p.2 else 0) := by
    rw [List.sum_toFinset _ hn]; rfl
  rw [lhs]
  have mem : ∀ p ∈ ps.toFinset, p ∈ Q ×ˢ Q := by
    intro p hp
    have := p3 p (List.mem_toFinset.1 hp)
    simp [Q, this.1, this.2.1]
  cases hd : v.directed with
  | true =>
    have e1 : ∀ p ∈ ps.toFinset, (if Contributes asp selfEdges true u w p then R p.1 p.2 else 0) = g p := by
      intro p _
      have : Contributes asp selfEdges true u w p ↔ Spec.reduce asp p.1 = u ∧ Spec.reduce asp p.2 = w := by
        unfold Contributes
        constructor
        · rintro ⟨-, ⟨rfl, rfl⟩ | ⟨h1, -⟩⟩
          · exact ⟨rfl, rfl⟩
          · cases h1
        · rintro ⟨rfl, rfl⟩; exact ⟨Or.inr huw, Or.inl ⟨rfl, rfl⟩⟩
      simp only [g, this]
    rw [Finset.sum_congr rfl e1]
    refine Finset.sum_subset mem ?_
    intro p hp hnp
    try simp only [g]
    split
    · by_contra hne
      simp [Q] at hp
      exact hnp (List.mem_toFinset.2 (p4 hd p.1 hp.1 p.2 hp.2 hne))
    · rfl
  | false =>
    obtain ⟨q1, q2⟩ := p5 hd
    have e1 : ∀ p ∈ ps.toFinset, (if Contributes asp selfEdges false u w p then R p.1 p.2 else 0) = g p + g p.swap := by
      intro p hp
      have hp' := p3 p (List.mem_toFinset.1 hp)
      have hsym := h.sym hd _ hp'.1 _ hp'.2.1
      have : Contributes asp selfEdges false u w p ↔ (Spec.reduce asp p.1 = u ∧ Spec.reduce asp p.2 = w) ∨
          (Spec.reduce asp p.2 = u ∧ Spec.reduce asp p.1 = w) := by
        unfold Contributes
        constructor
        · rintro ⟨-, ⟨rfl, rfl⟩ | ⟨-, rfl, rfl⟩⟩
          · exact Or.inl ⟨rfl, rfl⟩
          · exact Or.inr ⟨rfl, rfl⟩
        · rintro (⟨rfl, rfl⟩ | ⟨rfl, rfl⟩)
          · exact ⟨Or.inr huw, Or.inl ⟨rfl, rfl⟩⟩
          · exact ⟨Or.inr huw.symm, Or.inr ⟨rfl, rfl, rfl⟩⟩
      simp only [g, Prod.fst_swap, Prod.snd_swap]
      by_cases c1 : Spec.reduce asp p.1 = u ∧ Spec.reduce asp p.2 = w
      · have c2 : ¬ (Spec.reduce asp p.2 = u ∧ Spec.reduce asp p.1 = w) := by
          rintro ⟨h1, -⟩; exact huw (h1.symm.trans c1.2)
        rw [if_pos (this.2 (Or.inl c1)), if_pos c1, if_neg c2, add_zero]
      · by_cases c2 : Spec.reduce asp p.2 = u ∧ Spec.reduce asp p.1 = w
        · rw [if_pos (this.2 (Or.inr c2)), if_neg c1, if_pos c2, zero_add, hsym]
        · rw [if_neg (fun hc => (this.1 hc).elim c1 c2), if_neg c1, if_neg c2, add_zero]
    rw [Finset.sum_congr rfl e1, Finset.sum_add_distrib]
    have e2 : ∑ p ∈ ps.toFinset, g p.swap = ∑ p ∈ ps.toFinset.image Prod.swap, g p := by
      rw [Finset.sum_image (fun a _ b _ e => Prod.swap_injective e)]
    rw [e2, ← Finset.sum_union_inter]
    have e3 : ∑ p ∈ ps.toFinset ∩ ps.toFinset.image Prod.swap, g p = 0 := by
      refine Finset.sum_eq_zero fun p hp => ?_
      simp only [Finset.mem_inter, List.mem_toFinset, Finset.mem_image] at hp
      obtain ⟨hp1, q, hq, rfl⟩ := hp
      simp only [g]
      split
      · rename_i hc
        by_cases hqq : q.1 = q.2
        · rw [Prod.fst_swap, Prod.snd_swap, hqq] at hc
          exact absurd (hc.1.symm.trans hc.2) huw
        · exact absurd hp1 (q2 q.1 q.2 hqq hq)
      · rfl
    rw [e3, add_zero]
    refine Finset.sum_subset ?_ ?_
    · intro p hp
      simp only [Finset.mem_union, List.mem_toFinset, Finset.mem_image] at hp
      rcases hp with hp | ⟨q, hq, rfl⟩
      · exact mem p (List.mem_toFinset.2 hp)
      · have := mem q (List.mem_toFinset.2 hq)
        simp only [Finset.mem_product] at this ⊢
        exact ⟨this.2, this.1⟩
    · intro p hp hnp
      simp only [g]
      split
      · by_contra hne
        simp [Q] at hp
        apply hnp
        simp only [Finset.mem_union, List.mem_toFinset, Finset.mem_image]
        rcases q1 p.1 hp.1 p.2 hp.2 hne with h1 | h1
        · exact Or.inl h1
        · exact Or.inr ⟨(p.2, p.1), h1, rfl⟩
      · rfl

/-- Self-links of the result. -/
theorem contrib_self [AddCommMonoid W] {v : View α W} {R : List α → List α → W} (h : v.Sound R) (hz : v.noEdge = 0)
    {ps : List (List α × List α)} (hn : ps.Nodup)
    (p3 : ∀ p ∈ ps, p.1 ∈ product v.slices ∧ p.2 ∈ product v.slices ∧ R p.1 p.2 ≠ v.noEdge)
    (p4 : v.directed = true → ∀ a ∈ product v.slices, ∀ b ∈ product v.slices, R a b ≠ v.noEdge → (a, b) ∈ ps)
    (p5 : v.directed = false →
      (∀ a ∈ product v.slices, ∀ b ∈ product v.slices, R a b ≠ v.noEdge → (a, b) ∈ ps ∨ (b, a) ∈ ps) ∧
      ∀ a b, a ≠ b → (a, b) ∈ ps → (b, a) ∉ ps)
    (asp : List Nat) (u : List α) :
    (v.directed = true → contrib asp true v.directed R ps u u =
      ∑ a ∈ (product v.slices).toFinset with Spec.reduce asp a = u,
        ∑ b ∈ (product v.slices).toFinset with Spec.reduce asp b = u, R a b) ∧
    (v.directed = false → contrib asp true v.directed R ps u u + contrib asp true v.directed R ps u u =
      (∑ a ∈ (product v.slices).toFinset with Spec.reduce asp a = u,
        ∑ b ∈ (product v.slices).toFinset with Spec.reduce asp b = u, R a b) +
      ∑ a ∈ (product v.slices).toFinset with Spec.reduce asp a = u, R a a) := by
  rw [hz] at p3 p4 p5
  set Q := (product v.slices).toFinset with hQ
  let g : List α × List α → W := fun p => if Spec.reduce asp p.1 = u ∧ Spec.reduce asp p.2 = u then R p.1 p.2 else 0
  have rhs : (∑ a ∈ Q with Spec.reduce asp a = u, ∑ b ∈ Q with Spec.reduce asp b = u, R a b) = ∑ p ∈ Q ×ˢ Q, g p := by
    rw [Finset.sum_product, Finset.sum_filter]
    refine Finset.sum_congr rfl fun a _ => ?_
    by_cases ha : Spec.reduce asp a = u
    · simp only [ha, if_true, true_and, g]
      rw [Finset.sum_filter]
    · simp [ha, g]
  rw [rhs]
  have lhs : contrib asp true v.directed R ps u u = ∑ p ∈ ps.toFinset, g p := by
    rw [List.sum_toFinset _ hn]
    unfold contrib
    congr 1
    apply List.map_congr_left
    intro p _
    have : Contributes asp true v.directed u u p ↔ Spec.reduce asp p.1 = u ∧ Spec.reduce asp p.2 = u := by
      unfold Contributes
      constructor
      · rintro ⟨-, ⟨h1, h2⟩ | ⟨-, h1, h2⟩⟩
        · exact ⟨h1.symm, h2.symm⟩
        · exact ⟨h2.symm, h1.symm⟩
      · rintro ⟨h1, h2⟩; exact ⟨Or.inl rfl, Or.inl ⟨h1.symm, h2.symm⟩⟩
    simp only [g, this]
  rw [lhs]
  have mem : ∀ p ∈ ps.toFinset, p ∈ Q ×ˢ Q := by
    intro p hp
    have := p3 p (List.mem_toFinset.1 hp)
    simp [Q, this.1, this.2.1]
  constructor
  · intro hd
    refine Finset.sum_subset mem ?_
    intro p hp hnp
    simp only [g]
    split
    · by_contra hne
      simp [Q] at hp
      exact hnp (List.mem_toFinset.2 (p4 hd p.1 hp.1 p.2 hp.2 hne))
    · rfl
  · intro hd
    obtain ⟨q1, q2⟩ := p5 hd
    have e2 : ∑ p ∈ ps.toFinset, g p = ∑ p ∈ ps.toFinset.image Prod.swap, g p := by
      rw [Finset.sum_image (fun a _ b _ e => Prod.swap_injective e)]
      refine Finset.sum_congr rfl fun p hp => ?_
      have hp' := p3 p (List.mem_toFinset.1 hp)
      simp only [g, Prod.fst_swap, Prod.snd_swap]
      rw [h.sym hd _ hp'.1 _ hp'.2.1]
      simp only [and_comm]
    conv_lhs => rw [e2]
    rw [add_comm]
    conv_lhs => rw [← e2]
    nth_rewrite 2 [e2]
    rw [← Finset.sum_union_inter]
    congr 1
    · refine Finset.sum_subset ?_ ?_
      · intro p hp
        simp only [Finset.mem_union, List.mem_toFinset, Finset.mem_image] at hp
        rcases hp with hp | ⟨q, hq, rfl⟩
        · exact mem p (List.mem_toFinset.2 hp)
        · have := mem q (List.mem_toFinset.2 hq)
          simp only [Finset.mem_product] at this ⊢
          exact ⟨this.2, this.1⟩
      · intro p hp hnp
        simp only [g]
        split
        · by_contra hne
          simp [Q] at hp
          apply hnp
          simp only [Finset.mem_union, List.mem_toFinset, Finset.mem_image]
          rcases q1 p.1 hp.1 p.2 hp.2 hne with h1 | h1
          · exact Or.inl h1
          · exact Or.inr ⟨(p.2, p.1), h1, rfl⟩
        · rfl
    · have e5 : ∑ a ∈ Q with Spec.reduce asp a = u, R a a = ∑ p ∈ Q.image (fun a => (a, a)), g p := by
        rw [Finset.sum_image (fun a _ b _ e => (Prod.mk.inj e).1), Finset.sum_filter]
        simp only [g, and_self]
      rw [e5]
      refine Finset.sum_subset ?_ ?_
      · intro p hp
        simp only [Finset.mem_inter, List.mem_toFinset, Finset.mem_image] at hp ⊢
        obtain ⟨hp1, q, hq, rfl⟩ := hp
        by_cases hqq : q.1 = q.2
        · refine ⟨q.1, ?_, ?_⟩
          · simp [Q, (p3 q hq).1]
          · exact Prod.ext hqq rfl
        · exact absurd hp1 (q2 q.1 q.2 hqq hq)
      · intro p hp hnp
        simp only [Finset.mem_image] at hp
        obtain ⟨a, ha, rfl⟩ := hp
        simp only [g]
        split
        · by_contra hne
          apply hnp
          have ha' : a ∈ product v.slices := by simpa [Q] using ha
          have hin : (a, a) ∈ ps := by
            rcases q1 a ha' a ha' hne with h1 | h1 <;> exact h1
          simp only [Finset.mem_inter, List.mem_toFinset, Finset.mem_image]
          exact ⟨hin, (a, a), hin, rfl⟩
        · rfl


/-- A link of the source that is kept by `aggregate`. -/
def Kept (asp : List Nat) (selfEdges : Bool) (P : List (List α)) (z : W) (R : List α → List α → W) (a b : List α) : Prop :=
  a ∈ P ∧ b ∈ P ∧ R a b ≠ z ∧ (selfEdges = true ∨ Spec.reduce asp a ≠ Spec.reduce asp b)

theorem aggregate_spec [AddCommMonoid W] {v : View α W} {R : List α → List α → W} (h : v.Sound R) (hz : v.noEdge = 0)
    (hf0 : v.fic = false → 1 ≤ v.aspects)
    {asp : List Nat} (hn : asp.Nodup) (hr : ∀ d ∈ asp, 1 ≤ d ∧ d ≤ v.aspects) (selfEdges : Bool)
    (hself : selfEdges = true → v.directed = false → ∀ l : List W, l ≠ [] →
      (∀ w ∈ l, w ≠ 0 ∧ ∃ a ∈ product v.slices, ∃ b ∈ product v.slices, w = R a b) → l.sum ≠ 0) :
    ∃ m' R', v.aggregate asp selfEdges = .ok m' ∧
      Built m' (v.aspects - asp.length) 0 v.directed v.fic
        (fun k x => (k = 0 ∧ v.inS 0 x) ∨
          (∃ a b, Kept asp selfEdges (product v.slices) 0 R a b ∧
            ((Spec.reduce asp a)[k]? = some x ∨ (Spec.reduce asp b)[k]? = some x)) ∨
          (v.fic = false ∧ ∃ nl, v.isNL nl ∧ (Spec.reduce asp nl)[k]? = some x))
        (fun u => ∃ nl, v.isNL nl ∧ u = Spec.reduce asp nl) R' ∧
      (∀ u w, u ≠ w → R' u w = ∑ a ∈ (product v.slices).toFinset with Spec.reduce asp a = u,
        ∑ b ∈ (product v.slices).toFinset with Spec.reduce asp b = w, R a b) ∧
      (∀ u, selfEdges = false → R' u u = 0) ∧
      (∀ u, selfEdges = true → v.directed = true → R' u u =
        ∑ a ∈ (product v.slices).toFinset with Spec.reduce asp a = u,
          ∑ b ∈ (product v.slices).toFinset with Spec.reduce asp b = u, R a b) ∧
      (∀ u, selfEdges = true → v.directed = false → R' u u + R' u u =
        (∑ a ∈ (product v.slices).toFinset with Spec.reduce asp a = u,
          ∑ b ∈ (product v.slices).toFinset with Spec.reduce asp b = u, R a b) +
        ∑ a ∈ (product v.slices).toFinset with Spec.reduce asp a = u, R a a) := by
  have hle : asp.length ≤ v.aspects := by
    have h1 := List.Subperm.length_le (List.subperm_of_subset hn (l₂ := List.range' 1 v.aspects) (by
      intro d hd; rw [List.mem_range']; have := hr d hd; exact ⟨d - 1, by omega, by omega⟩))
    simpa using h1
  have h0n : 0 ∉ asp := fun h0 => by have := hr 0 h0; omega
  obtain ⟨ps, p1, p2, p3, p4, p5⟩ := h.edges
  obtain ⟨nls, n1, n2, n3, n4⟩ := h.nls
  obtain ⟨m1, e1, h1⟩ := (Built.init (α := α) (v.aspects - asp.length) (0 : W) v.directed v.fic).addNodes
    (fun x : α => x) (v.slices.headD [])
  obtain ⟨m2, e2, h2⟩ := aggregate_edges h hz hn hr selfEdges hself p3 h1
  have isNL_iff : ∀ nl, v.isNL nl ↔ nl ∈ nls := by
    intro nl
    constructor
    · rintro ⟨l, hl, hm⟩; rw [n1] at hl; cases hl; exact hm
    · intro hm; exact ⟨nls, n1, hm⟩
  have hS0 : ∀ x, v.inS 0 x ↔ x ∈ v.slices.headD [] := by
    intro x
    have := h.slen
    unfold View.inS
    cases hs : v.slices with
    | nil => rw [hs] at this; simp at this
    | cons a t => simp
  have kept_iff : ∀ (P : List α → List α → Prop), (∀ a b, P a b → P b a) →
      ((∃ p ∈ ps, (selfEdges = true ∨ Spec.reduce asp p.1 ≠ Spec.reduce asp p.2) ∧ P p.1 p.2) ↔
      ∃ a b, Kept asp selfEdges (product v.slices) 0 R a b ∧ P a b) := by
    intro P hP
    constructor
    · rintro ⟨p, hp, hc, hx⟩
      have := p3 p hp
      rw [hz] at this
      exact ⟨p.1, p.2, ⟨this.1, this.2.1, this.2.2, hc⟩, hx⟩
    · rintro ⟨a, b, ⟨ha, hb, hR, hc⟩, hx⟩
      rw [← hz] at hR
      cases hd : v.directed with
      | true => exact ⟨(a, b), p4 hd a ha b hb hR, hc, hx⟩
      | false =>
        rcases (p5 hd).1 a ha b hb hR with hin | hin
        · exact ⟨(a, b), hin, hc, hx⟩
        · exact ⟨(b, a), hin, hc.imp_right Ne.symm, hP _ _ hx⟩
  have kept_nl : ∀ a b, Kept asp selfEdges (product v.slices) 0 R a b → v.isNL a ∧ v.isNL b := by
    rintro a b ⟨ha, hb, hR, -⟩
    rw [← hz] at hR
    rw [isNL_iff, isNL_iff]
    exact n4 a ha b hb hR
  have h2' := h2.congr (S' := fun k x => (k = 0 ∧ v.inS 0 x) ∨
          (∃ a b, Kept asp selfEdges (product v.slices) 0 R a b ∧
            ((Spec.reduce asp a)[k]? = some x ∨ (Spec.reduce asp b)[k]? = some x)))
      (NL' := fun nl => ∃ a b, Kept asp selfEdges (product v.slices) 0 R a b ∧
          (nl = Spec.reduce asp a ∨ nl = Spec.reduce asp b)) (R' := contrib asp selfEdges v.directed R ps)
    (fun k x => by
      rw [← kept_iff _ (fun a b => Or.symm), false_or, hS0]
      simp)
    (fun nl => by
      rw [false_or]
      exact kept_iff (fun a b => nl = Spec.reduce asp a ∨ nl = Spec.reduce asp b) (fun a b => Or.symm)) (fun _ _ => rfl)
  have done3 : ∃ m', v.aggregate asp selfEdges = .ok m' ∧
      Built m' (v.aspects - asp.length) 0 v.directed v.fic
        (fun k x => (k = 0 ∧ v.inS 0 x) ∨
          (∃ a b, Kept asp selfEdges (product v.slices) 0 R a b ∧
            ((Spec.reduce asp a)[k]? = some x ∨ (Spec.reduce asp b)[k]? = some x)) ∨
          (v.fic = false ∧ ∃ nl, v.isNL nl ∧ (Spec.reduce asp nl)[k]? = some x))
        (fun u => ∃ nl, v.isNL nl ∧ u = Spec.reduce asp nl) (contrib asp selfEdges v.directed R ps) := by
    have red0 : ∀ nl, nl ∈ nls → ∀ x, (Spec.reduce asp nl)[0]? = some x → v.inS 0 x := by
      intro nl hnl x hx
      have hp := n3 nl hnl
      have hl := h.length_of_mem hp
      match nl, hl with
      | n :: t, _ =>
        rw [reduce_cons h0n] at hx
        simp at hx; subst hx
        exact ((h.mem_product _).1 hp).2 0 n (by simp)
    have common : v.aggregate asp selfEdges = if v.fic = false ∧ 0 < m2.aspects then
            forE (aggregateNodeLayer v.aspects asp) nls m2 else .ok m2 := by
      unfold View.aggregate
      rw [if_neg (by omega), if_neg (by
        rw [not_not]; intro d hd; have := hr d hd; omega)]
      rw [hz]
      simp only [e1, p1, e2, n1]
    rw [common, h2.params.1]
    by_cases hc : v.fic = false ∧ 0 < v.aspects - asp.length
    · rw [if_pos hc]
      obtain ⟨m3, e3, h3⟩ := h2'.addNodeLs hc.2 hc.1 (Spec.reduce asp) nls
        (fun y hy => by
          rw [length_reduce hn (fun d hd => (hr d hd).2) (h.length_of_mem (n3 y hy))]; omega)
        (g := aggregateNodeLayer v.aspects asp)
        (by
          intro m y n t hy he
          have hl := h.length_of_mem (n3 y hy)
          match y, hl with
          | x :: l, hl =>
            rw [reduce_cons h0n] at he
            have hl' : l.length = v.aspects := by simpa using hl
            rw [hl'] at he
            injection he with he1 he2
            subst he1
            rw [← he2]
            rfl)
      refine ⟨m3, e3, h3.congr (fun k x => ?_) (fun u => ?_) (fun _ _ => rfl)⟩
      · simp only [isNL_iff, hc.1, true_and, or_assoc]
      · simp only [isNL_iff]
        constructor
        · rintro (⟨a, b, hk, hu⟩ | hu)
          · have := kept_nl a b hk
            rw [isNL_iff, isNL_iff] at this
            rcases hu with hu | hu
            · exact ⟨a, this.1, hu⟩
            · exact ⟨b, this.2, hu⟩
          · exact hu
        · exact Or.inr
    · rw [if_neg hc]
      refine ⟨m2, rfl, ?_⟩
      have h2S := h2'.congr (S' := fun k x => (k = 0 ∧ v.inS 0 x) ∨
          (∃ a b, Kept asp selfEdges (product v.slices) 0 R a b ∧
            ((Spec.reduce asp a)[k]? = some x ∨ (Spec.reduce asp b)[k]? = some x)) ∨
          (v.fic = false ∧ ∃ nl, v.isNL nl ∧ (Spec.reduce asp nl)[k]? = some x))
        (NL' := fun nl => ∃ a b, Kept asp selfEdges (product v.slices) 0 R a b ∧
          (nl = Spec.reduce asp a ∨ nl = Spec.reduce asp b)) (fun k x => by
            rw [← or_assoc]
            refine (or_iff_left_of_imp ?_).symm
            rintro ⟨hff, nl, hnl, hx⟩
            have hl := length_reduce hn (fun d hd => (hr d hd).2) (h.length_of_mem (n3 nl ((isNL_iff nl).1 hnl)))
            have hlt := (List.getElem?_eq_some_iff.1 hx).1
            have hd0 : v.aspects - asp.length = 0 := by
              by_contra h0; exact hc ⟨hff, by omega⟩
            have hk0 : k = 0 := by omega
            subst hk0
            exact Or.inl ⟨rfl, red0 nl ((isNL_iff nl).1 hnl) x hx⟩) (fun _ => Iff.rfl) (fun _ _ => rfl)
      refine ⟨h2S.reach, h2S.sl, fun hd1 hd2 => ?_, h2S.rd⟩
      exact absurd ⟨hd2, hd1⟩ hc
  obtain ⟨m', e', h'⟩ := done3
  refine ⟨m', _, e', h', ?_, ?_, ?_, ?_⟩
  · intro u w huw
    exact contrib_distinct h hz p1 p2 p3 p4 p5 asp selfEdges huw
  · intro u hs
    unfold contrib
    apply List.sum_eq_zero
    intro x hx
    obtain ⟨p, hp, rfl⟩ := List.mem_map.1 hx
    rw [if_neg]
    rintro ⟨hc, hab⟩
    rw [hs] at hc
    simp at hc
    rcases hab with ⟨h1, h2⟩ | ⟨-, h1, h2⟩
    · exact hc (h1.symm.trans h2)
    · exact hc (h2.symm.trans h1)
  · intro u hs hd
    rw [hs]
    exact (contrib_self h hz p2 p3 p4 p5 asp u).1 hd
  · intro u hs hd
    rw [hs]
    exact (contrib_self h hz p2 p3 p4 p5 asp u).2 hd

end Pymnet
