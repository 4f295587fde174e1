import Verif.Model.AggregateInto
import Verif.Props.Transforms2

/-! `aggregate` into a network given by the caller. -/

set_option linter.unusedSectionVars false

namespace Pymnet

open Py

variable {α W : Type} [DecidableEq α] [DecidableEq W]

theorem contrib_nil [AddCommMonoid W] (asp : List Nat) (s dir : Bool) (R : List α → List α → W) (a b : List α) : contrib asp s dir R [] a b = 0 := rfl

theorem contrib_cons [AddCommMonoid W] (asp : List Nat) (s dir : Bool) (R : List α → List α → W) (p : List α × List α) (ps : List (List α × List α))
    (a b : List α) : contrib asp s dir R (p :: ps) a b = (if Contributes asp s dir a b p then R p.1 p.2 else 0) + contrib asp s dir R ps a b := by
  simp [contrib]

/-- undirected contributions are those of both directions -/
theorem contrib_both [AddCommMonoid W] (asp : List Nat) (s : Bool) (R : List α → List α → W) (ps : List (List α × List α)) {u w : List α}
    (huw : u ≠ w) : contrib asp s false R ps u w = contrib asp s true R ps u w + contrib asp s true R ps w u := by
  induction ps with
  | nil => simp [contrib_nil]
  | cons p ps ih =>
    rw [contrib_cons, contrib_cons, contrib_cons, ih]
    have key : (if Contributes asp s false u w p then R p.1 p.2 else 0) =
        (if Contributes asp s true u w p then R p.1 p.2 else 0) + (if Contributes asp s true w u p then R p.1 p.2 else 0) := by
      by_cases c1 : u = Spec.reduce asp p.1 ∧ w = Spec.reduce asp p.2
      · have c3 : Spec.reduce asp p.1 ≠ Spec.reduce asp p.2 := fun c => huw (by rw [c1.1, c1.2, c])
        simp [Contributes, c1, c3]
      · by_cases c2 : w = Spec.reduce asp p.1 ∧ u = Spec.reduce asp p.2
        · have c3 : Spec.reduce asp p.1 ≠ Spec.reduce asp p.2 := fun c => huw (by rw [c2.1, c2.2, c])
          simp [Contributes, c2, c3]
        · have c2' : ¬ (u = Spec.reduce asp p.2 ∧ w = Spec.reduce asp p.1) := fun c => c2 ⟨c.2, c.1⟩
          simp [Contributes, c1, c2, c2']
    rw [key]
    abel

theorem contrib_self_false [AddCommMonoid W] (asp : List Nat) (dir : Bool) (R : List α → List α → W) (ps : List (List α × List α)) (u : List α) :
    contrib asp false dir R ps u u = 0 := by
  induction ps with
  | nil => rfl
  | cons p ps ih =>
    rw [contrib_cons, ih, add_zero, if_neg]
    rintro ⟨h1, ⟨h2, h3⟩ | ⟨-, h2, h3⟩⟩
    · rcases h1 with h1 | h1
      · cases h1
      · exact h1 (h2.symm.trans h3)
    · rcases h1 with h1 | h1
      · cases h1
      · exact h1 (h3.symm.trans h2)

/-- a node-aligned network ignores the layer of an added node -/
theorem Built.addNodeLs_aligned {m : MNet α W} {d : Nat} {z : W} {dir : Bool} {S : Nat → α → Prop} {NL : List α → Prop} {R : List α → List α → W}
    (h : Built m d z dir true S NL R) {β : Type} (f : β → List α)
    (l : List β) (hl : ∀ y ∈ l, (f y).length = d + 1) {g : MNet α W → β → Except Err (MNet α W)}
    (hg : ∀ m y n t, y ∈ l → f y = n :: t → g m y = (m.addNode n (some (.ofList t))).toExcept) :
    ∃ m', forE g l m = .ok m' ∧ Built m' d z dir true (fun k x => S k x ∨ (k = 0 ∧ ∃ y ∈ l, (f y)[0]? = some x)) NL R := by
  refine forE_ok (P := fun pre m' => Built m' d z dir true (fun k x => S k x ∨ (k = 0 ∧ ∃ y ∈ pre, (f y)[0]? = some x)) NL R) l
    (h.congr (by simp) (by simp) (by simp)) ?_
  intro pre b post m1 hpre h1
  have hb : b ∈ l := by rw [hpre]; simp
  obtain ⟨n, t, e⟩ : ∃ n t, f b = n :: t := by
    match f b, hl b hb with
    | n :: t, _ => exact ⟨n, t, rfl⟩
  obtain ⟨m2, e2, h2⟩ := h1.addNode n
  have hf : m1.fic = true := by rw [h1.params.2.2.2]; simp
  have he : m1.addNode n (some (.ofList t)) = m1.addNode n none := by
    have h0 : 0 < m1.slices.length := by rw [h1.inv.r.slen]; omega
    simp [MNet.addNode, MNet.sliceAdd, h0, Outcome.andThen, hf]
  refine ⟨m2, (hg m1 b n t hb e).trans (by rw [he]; exact e2), h2.congr (fun k x => ?_) (fun _ => Iff.rfl) (fun _ _ => rfl)⟩
  simp only [List.mem_append, List.mem_singleton, or_and_right, exists_or, exists_eq_left, and_or_left, or_assoc, e, List.getElem?_cons_zero,
    Option.some.injEq]
  simp only [eq_comm]

/-- The loop over the edges, without self-edges, into any network without aspects. -/
theorem aggregate_edges_into [AddCommMonoid W] {v : View α W} {R : List α → List α → W} (h : v.Sound R)
    {asp : List Nat} (hn : asp.Nodup) (hr : ∀ d ∈ asp, 1 ≤ d ∧ d ≤ v.aspects)
    {ps : List (List α × List α)} (hps : ∀ p ∈ ps, p.1 ∈ product v.slices ∧ p.2 ∈ product v.slices)
    {m : MNet α W} {d' : Nat} (hd' : d' + asp.length = v.aspects) {dir al : Bool} {S : Nat → α → Prop} {NL : List α → Prop} {R0 : List α → List α → W}
    (hsym : dir = false → ∀ a b, R0 a b = R0 b a) (h0 : Built m d' 0 dir al S NL R0) :
    ∃ m', forE (aggregateEdge v.aspects asp false) (ps.map (View.tuple R)) m = .ok m' ∧
      Built m' d' 0 dir al
        (fun k x => S k x ∨ ∃ p ∈ ps, Spec.reduce asp p.1 ≠ Spec.reduce asp p.2 ∧
          ((Spec.reduce asp p.1)[k]? = some x ∨ (Spec.reduce asp p.2)[k]? = some x))
        (fun nl => NL nl ∨ ∃ p ∈ ps, Spec.reduce asp p.1 ≠ Spec.reduce asp p.2 ∧ (nl = Spec.reduce asp p.1 ∨ nl = Spec.reduce asp p.2))
        (fun a b => R0 a b + contrib asp false dir R ps a b) := by
  induction ps generalizing m S NL R0 with
  | nil => exact ⟨m, rfl, h0.congr (by simp) (by simp) (by simp [contrib_nil])⟩
  | cons p ps ih =>
    have hp := hps p (by simp)
    have l1 : (Spec.reduce asp p.1).length = d' + 1 := by
      rw [length_reduce hn (fun d hd => (hr d hd).2) (h.length_of_mem hp.1)]; omega
    have l2 : (Spec.reduce asp p.2).length = d' + 1 := by
      rw [length_reduce hn (fun d hd => (hr d hd).2) (h.length_of_mem hp.2)]; omega
    have ek : keptIndices v.aspects asp (interleave p.1 p.2) = interleave (Spec.reduce asp p.1) (Spec.reduce asp p.2) :=
      keptIndices_interleave asp (h.length_of_mem hp.1) (h.length_of_mem hp.2)
    have hll : (Spec.reduce asp p.1).length = (Spec.reduce asp p.2).length := by omega
    have hadr : Spec.Addresses d' (interleave (Spec.reduce asp p.1) (Spec.reduce asp p.2))
        (Spec.reduce asp p.1) (Spec.reduce asp p.2) := ⟨l1, l2, Or.inl (interleave_eq_link _ _)⟩
    by_cases hc : Spec.reduce asp p.1 ≠ Spec.reduce asp p.2
    · obtain ⟨m1, e1, h1⟩ := h0.setItem hadr (R0 (Spec.reduce asp p.1) (Spec.reduce asp p.2) + R p.1 p.2) (fun _ e => absurd e hc)
      have e0 : aggregateEdge v.aspects asp false m (View.tuple R p) = .ok m1 := by
        simp only [aggregateEdge, View.tuple, ek, evens_interleave hll, odds_interleave hll, Bool.false_eq_true, false_or, ne_eq, hc, not_false_eq_true,
          if_true, h0.readItem hadr, Item.num, e1]
      have hC : ∀ a b, Contributes asp false dir a b p ↔ ((a = Spec.reduce asp p.1 ∧ b = Spec.reduce asp p.2) ∨
          (dir = false ∧ a = Spec.reduce asp p.2 ∧ b = Spec.reduce asp p.1)) := by
        intro a b; unfold Contributes; exact and_iff_right (Or.inr hc)
      have h1' := h1.congr (S' := fun k x => S k x ∨ (Spec.reduce asp p.1)[k]? = some x ∨ (Spec.reduce asp p.2)[k]? = some x)
        (NL' := fun nl => NL nl ∨ nl = Spec.reduce asp p.1 ∨ nl = Spec.reduce asp p.2)
        (R' := fun a b => R0 a b + if Contributes asp false dir a b p then R p.1 p.2 else 0) (fun _ _ => Iff.rfl) (fun _ => Iff.rfl) (fun a b => by
          by_cases hab : (a = Spec.reduce asp p.1 ∧ b = Spec.reduce asp p.2) ∨ (dir = false ∧ a = Spec.reduce asp p.2 ∧ b = Spec.reduce asp p.1)
          · rw [if_pos hab, if_pos ((hC a b).2 hab)]
            rcases hab with ⟨rfl, rfl⟩ | ⟨hd, rfl, rfl⟩
            · rfl
            · rw [hsym hd]
          · rw [if_neg hab, if_neg (fun h => hab ((hC a b).1 h)), add_zero])
      obtain ⟨m2, e2, h2⟩ := ih (fun q hq => hps q (by simp [hq])) (fun hd a b => by
        rw [hsym hd a b]
        congr 1
        refine if_congr ?_ rfl rfl
        rw [hC, hC, hd]
        tauto) h1'
      refine ⟨m2, by rw [List.map_cons]; simp only [forE, e0]; exact e2, h2.congr (fun k x => ?_) (fun nl => ?_) (fun a b => ?_)⟩
      · simp only [List.mem_cons, exists_eq_or_imp, and_iff_right hc, or_assoc]
      · simp only [List.mem_cons, exists_eq_or_imp, and_iff_right hc, or_assoc]
      · rw [contrib_cons, add_assoc]
    · have e0 : aggregateEdge v.aspects asp false m (View.tuple R p) = .ok m := by
        simp only [aggregateEdge, View.tuple, ek, evens_interleave hll, odds_interleave hll, Bool.false_eq_true, false_or, hc, if_false]
      obtain ⟨m2, e2, h2⟩ := ih (fun q hq => hps q (by simp [hq])) hsym h0
      refine ⟨m2, by rw [List.map_cons]; simp only [forE, e0]; exact e2, h2.congr (fun k x => ?_) (fun nl => ?_) (fun a b => ?_)⟩
      · simp only [List.mem_cons, exists_eq_or_imp, hc, false_and, false_or]
      · simp only [List.mem_cons, exists_eq_or_imp, hc, false_and, false_or]
      · rw [contrib_cons, if_neg (fun h => hc (h.1.resolve_left (by simp))), zero_add]

end Pymnet
