import Verif.Proofs.Build
import Mathlib.Data.List.Perm.Basic

/-! The transforms on a sound dispatch table. -/

set_option linter.unusedSectionVars false
set_option linter.unusedSimpArgs false

namespace Pymnet

open Py

variable {α W : Type} [DecidableEq α] [DecidableEq W]

/-- `x in net.slices[k]` -/
def View.inS (v : View α W) (k : Nat) (x : α) : Prop := ∃ s, v.slices[k]? = some s ∧ x ∈ s

/-- The node-layers of a view whose iteration cannot fail. -/
def View.isNL (v : View α W) (nl : List α) : Prop := ∃ l, v.nodeLayers = .ok l ∧ nl ∈ l

theorem View.Sound.mem_product {v : View α W} {R : List α → List α → W} (h : v.Sound R) (a : List α) :
    a ∈ product v.slices ↔ Spec.AllNodeLayers v.aspects v.inS a := by
  unfold Spec.AllNodeLayers
  rw [Py.mem_product, MNet.forall₂_iff_getElem, h.slen]
  refine and_congr_right fun hl => ?_
  constructor
  · intro h1 i x hx
    have hi : i < v.slices.length := by
      rw [h.slen, ← hl]; exact (List.getElem?_eq_some_iff.1 hx).1
    exact ⟨v.slices[i], by simp [hi], h1 i x _ hx (by simp [hi])⟩
  · intro h1 i x y hx hy
    obtain ⟨s, hs, hm⟩ := h1 i x hx
    rw [hs] at hy; cases hy; exact hm

theorem copyLayers_spec {d : Nat} {z : W} {dir al : Bool} {NL : List α → Prop} {R : List α → List α → W}
    (ss : List (List α)) (a : Nat) {m : MNet α W} {S : Nat → α → Prop} (h : Built m d z dir al S NL R)
    (hl : a + ss.length ≤ d + 1) :
    ∃ m', copyLayers ss a m = .ok m' ∧
      Built m' d z dir al (fun k x => S k x ∨ (a ≤ k ∧ ∃ s, ss[k - a]? = some s ∧ x ∈ s)) NL R := by
  induction ss generalizing a m S with
  | nil => exact ⟨m, rfl, h.congr (by simp) (by simp) (by simp)⟩
  | cons s ss ih =>
    simp only [List.length_cons] at hl
    obtain ⟨m1, e1, h1⟩ := h.addLayers (a := a) (by omega) (fun x : α => x) (fun _ => True) s
      (g := fun (m : MNet α W) x => (m.addLayer x a).toExcept) (fun _ _ _ => rfl) (fun _ _ h => absurd trivial h)
    obtain ⟨m2, e2, h2⟩ := ih (a + 1) h1 (by omega)
    refine ⟨m2, by simp only [copyLayers, e1]; exact e2, h2.congr (fun k x => ?_) (by simp) (by simp)⟩
    rw [or_assoc]
    refine or_congr_right ?_
    rcases Nat.lt_trichotomy k a with hk | hk | hk
    · simp; omega
    · subst hk; simp
    · obtain ⟨j, rfl⟩ : ∃ j, k = a + 1 + j := ⟨k - a - 1, by omega⟩
      have e1 : a + 1 + j - (a + 1) = j := by omega
      have e2 : a + 1 + j - a = j + 1 := by omega
      rw [e1, e2]
      have e3 : a + 1 + j ≠ a := by omega
      simp [e3]; omega

/-- copying the node set and the layer sets -/
theorem copySlices {v : View α W} {R : List α → List α → W} (h : v.Sound R) {m : MNet α W} {z : W} {dir al : Bool}
    {R' : List α → List α → W} {NL : List α → Prop} (h0 : Built m v.aspects z dir al (fun _ _ => False) NL R') :
    ∃ m1 m2, forE (fun (m : MNet α W) x => (m.addNode x none).toExcept) (v.slices.headD []) m = .ok m1 ∧
      copyLayers (v.slices.drop 1) 1 m1 = .ok m2 ∧ Built m2 v.aspects z dir al v.inS NL R' := by
  obtain ⟨m1, e1, h1⟩ := h0.addNodes (fun x : α => x) (v.slices.headD [])
  obtain ⟨m2, e2, h2⟩ := copyLayers_spec (v.slices.drop 1) 1 h1 (by rw [List.length_drop, h.slen]; omega)
  refine ⟨m1, m2, e1, e2, h2.congr (fun k x => ?_) (fun _ => Iff.rfl) (fun _ _ => rfl)⟩
  have hs : v.slices = v.slices.headD [] :: v.slices.drop 1 := by
    have := h.slen
    cases hs : v.slices with
    | nil => rw [hs] at this; simp at this
    | cons a t => simp
  simp only [false_or]
  unfold View.inS
  cases k with
  | zero => rw [hs]; simp
  | succ k => simp [Nat.add_comm 1 k]

theorem Sound.addresses {v : View α W} {R : List α → List α → W} (h : v.Sound R) {a b : List α}
    (ha : a ∈ product v.slices) (hb : b ∈ product v.slices) :
    Spec.Addresses v.aspects (interleave a b) a b :=
  ⟨h.length_of_mem ha, h.length_of_mem hb, Or.inl (interleave_eq_link a b)⟩

/-! ### threshold -/

open Classical in
theorem threshold_spec [LE W] [LT W] [DecidableLE W] [DecidableLT W] {v : View α W} {R : List α → List α → W}
    (h : v.Sound R) (hf : v.fic = true) (t : W) {method : Method} (hm : method ≠ .invalid) :
    ∃ m', v.threshold t method = .ok m' ∧
      Built m' v.aspects v.noEdge v.directed true v.inS (fun _ => True)
        (fun a b => if a ∈ product v.slices ∧ b ∈ product v.slices ∧ Spec.Keeps t (R a b) method then R a b else v.noEdge) := by
  obtain ⟨m1, m2, e1, e2, h2⟩ := copySlices h (Built.init v.aspects v.noEdge v.directed v.fic)
  obtain ⟨ps, p1, p2, p3, p4, p5⟩ := h.edges
  have hacc : ∀ w, acceptEdge w t method = .ok (decide (Spec.Keeps t w method)) := by
    intro w; cases method <;> first
      | exact absurd rfl hm
      | (simp only [acceptEdge, Spec.Keeps, ge_iff_le, gt_iff_lt]; done)
      | (simp only [acceptEdge, Spec.Keeps, ge_iff_le, gt_iff_lt]; congr)
  obtain ⟨m3, R', e3, h3, h4⟩ := h2.setItems (ps.map (View.tuple R)) (fun e => Spec.Keeps t e.2 method)
    (fun e => evens e.1) (fun e => odds e.1) (fun e => e.2)
    (g := fun (m : MNet α W) (e : List α × W) =>
      match acceptEdge e.2 t method with
      | .error x => .error x
      | .ok true => (m.setItem e.1 e.2).toExcept
      | .ok false => .ok m)
    (by
      intro m e he hp
      obtain ⟨p, hp1, rfl⟩ := List.mem_map.1 he
      obtain ⟨q1, q2, -⟩ := p3 p hp1
      have hl : p.1.length = p.2.length := by rw [h.length_of_mem q1, h.length_of_mem q2]
      refine ⟨interleave p.1 p.2, ?_, ?_⟩
      · simp only [View.tuple, evens_interleave hl, odds_interleave hl]
        exact Sound.addresses h q1 q2
      · rw [hacc, decide_eq_true hp]; rfl)
    (by
      intro m e he hp
      simp only [hacc, decide_eq_false hp])
    (by
      intro e he _ _ _
      obtain ⟨p, hp1, rfl⟩ := List.mem_map.1 he
      exact (p3 p hp1).2.2)
  refine ⟨m3, ?_, ?_⟩
  · unfold View.threshold
    simp only [e1, e2, p1]
    simp only [hf, if_true, ne_eq, not_true_eq_false, if_false]
    exact e3
  · rw [hf] at h3
    refine (h3.anyNL (NL' := fun _ => True)).congr (fun k x => ?_) (fun _ => Iff.rfl) (fun a b => ?_)
    · constructor
      · rintro (hx | ⟨e, he, -, hx⟩)
        · exact hx
        · obtain ⟨p, hp1, rfl⟩ := List.mem_map.1 he
          obtain ⟨q1, q2, -⟩ := p3 p hp1
          have hl : p.1.length = p.2.length := by rw [h.length_of_mem q1, h.length_of_mem q2]
          simp only [View.tuple, evens_interleave hl, odds_interleave hl] at hx
          rcases hx with hx | hx
          · exact ((h.mem_product _).1 q1).2 k x hx
          · exact ((h.mem_product _).1 q2).2 k x hx
      · exact Or.inl
    · rcases h4 a b with ⟨e, he, hk, hab, hR⟩ | ⟨hno, hR⟩
      · obtain ⟨p, hp1, rfl⟩ := List.mem_map.1 he
        obtain ⟨q1, q2, -⟩ := p3 p hp1
        have hl : p.1.length = p.2.length := by rw [h.length_of_mem q1, h.length_of_mem q2]
        simp only [View.tuple, evens_interleave hl, odds_interleave hl] at hab hk hR
        rw [hR]
        rcases hab with ⟨rfl, rfl⟩ | ⟨hd, rfl, rfl⟩
        · rw [if_pos ⟨q1, q2, hk⟩]
        · rw [h.sym hd _ q1 _ q2] at hk ⊢
          rw [if_pos ⟨q2, q1, hk⟩]
      · rw [hR]
        split
        · rename_i hc
          by_contra hne
          have hne' : R a b ≠ v.noEdge := fun e => hne e.symm
          have hin : (a, b) ∈ ps ∨ (v.directed = false ∧ (b, a) ∈ ps) := by
            cases hd : v.directed with
            | true => exact Or.inl (p4 hd a hc.1 b hc.2.1 hne')
            | false =>
              rcases (p5 hd).1 a hc.1 b hc.2.1 hne' with hh | hh
              · exact Or.inl hh
              · exact Or.inr ⟨rfl, hh⟩
          have hl : a.length = b.length := by rw [h.length_of_mem hc.1, h.length_of_mem hc.2.1]
          rcases hin with hin | ⟨hd, hin⟩
          · refine hno _ (List.mem_map_of_mem hin) hc.2.2 (Or.inl ?_)
            simp only [View.tuple, evens_interleave hl, odds_interleave hl, and_self]
          · refine hno _ (List.mem_map_of_mem hin) ?_ (Or.inr ⟨hd, ?_⟩)
            · simp only [View.tuple]; rw [h.sym hd _ hc.2.1 _ hc.1]; exact hc.2.2
            · simp only [View.tuple, evens_interleave hl.symm, odds_interleave hl.symm, and_self]
        · rfl

/-! ### get_underlying_graph -/

theorem underlying_spec {β : Type} [DecidableEq β] {v : View α W} {R : List α → List α → W} (h : v.Sound R)
    {name : List α → β} (hn : Function.Injective name) {nls : List (List α)} (hnl : v.nodeLayers = .ok nls) :
    ∃ m' R', v.underlying name = .ok m' ∧
      Built m' 0 v.noEdge v.directed true (fun k x => k = 0 ∧ ∃ nl ∈ nls, x = name nl) (fun _ => True) R' ∧
      (∀ a ∈ product v.slices, ∀ b ∈ product v.slices, R' [name a] [name b] = R a b) ∧
      ∀ x y, R' x y ≠ v.noEdge → ∃ a ∈ product v.slices, ∃ b ∈ product v.slices, x = [name a] ∧ y = [name b] := by
  obtain ⟨m1, e1, h1⟩ := (Built.init (α := β) 0 v.noEdge v.directed true).addNodes name nls
  obtain ⟨ps, p1, p2, p3, p4, p5⟩ := h.edges
  obtain ⟨l, l1, -, l3, l4⟩ := h.nls
  rw [hnl] at l1; cases l1
  have hne : ∀ a, a ∈ product v.slices → a ≠ [] := by
    rintro a ha rfl; have := h.length_of_mem ha; simp at this
  obtain ⟨m3, R', e3, h3, h4⟩ := h1.setItems (ps.map (View.tuple R)) (fun _ => True)
    (fun e => [name (evens e.1)]) (fun e => [name (odds e.1)]) (fun e => e.2)
    (g := fun (m : MNet β W) (e : List α × W) =>
          match linkToNodes e.1 with
          | .error x => .error x
          | .ok (n1, n2) => (m.nodeSet [name n1] [name n2] e.2).toExcept)
    (by
      intro m e he hp
      obtain ⟨p, hp1, rfl⟩ := List.mem_map.1 he
      obtain ⟨q1, q2, -⟩ := p3 p hp1
      have hl : p.1.length = p.2.length := by rw [h.length_of_mem q1, h.length_of_mem q2]
      refine ⟨[name p.1, name p.2], ?_, ?_⟩
      · simp only [View.tuple, evens_interleave hl, odds_interleave hl]
        exact ⟨rfl, rfl, Or.inl rfl⟩
      · simp only [View.tuple, linkToNodes_interleave hl (hne _ q1)]
        simp [MNet.nodeSet, nodesToLink, interleave])
    (fun _ _ _ h => absurd trivial h)
    (by
      intro e he _ _ _
      obtain ⟨p, hp1, rfl⟩ := List.mem_map.1 he
      exact (p3 p hp1).2.2)
  have unp : ∀ e ∈ ps.map (View.tuple R), ∃ a b, a ∈ product v.slices ∧ b ∈ product v.slices ∧ R a b ≠ v.noEdge ∧
      evens e.1 = a ∧ odds e.1 = b ∧ e.2 = R a b := by
    intro e he
    obtain ⟨p, hp1, rfl⟩ := List.mem_map.1 he
    obtain ⟨q1, q2, q3⟩ := p3 p hp1
    have hl : p.1.length = p.2.length := by rw [h.length_of_mem q1, h.length_of_mem q2]
    exact ⟨p.1, p.2, q1, q2, q3, evens_interleave hl, odds_interleave hl, rfl⟩
  refine ⟨m3, R', ?_, (h3.anyNL (NL' := fun _ => True)).congr (fun k x => ?_) (fun _ => Iff.rfl) (fun _ _ => rfl), ?_, ?_⟩
  · unfold View.underlying
    simp only [hnl, e1, p1]; exact e3
  · constructor
    · rintro ((hx | hx) | ⟨e, he, -, hx⟩)
      · exact hx.elim
      · exact hx
      · obtain ⟨a, b, ha, hb, hR, ea, eb, -⟩ := unp e he
        rw [ea, eb] at hx
        have hab := l4 a ha b hb hR
        cases k with
        | zero =>
          simp at hx
          rcases hx with hx | hx
          · exact ⟨rfl, a, hab.1, hx.symm⟩
          · exact ⟨rfl, b, hab.2, hx.symm⟩
        | succ k => simp at hx
    · intro hx; exact Or.inl (Or.inr hx)
  · intro a ha b hb
    rcases h4 [name a] [name b] with ⟨e, he, -, hab, hR⟩ | ⟨hno, hR⟩
    · obtain ⟨c, e', hc, he', hR', ec, ee, ew⟩ := unp e he
      rw [ec, ee] at hab
      rw [hR, ew]
      rcases hab with ⟨h1, h2⟩ | ⟨hd, h1, h2⟩
      · simp at h1 h2
        rw [hn h1, hn h2]
      · simp at h1 h2
        rw [hn h1, hn h2, h.sym hd _ hc _ he']
    · rw [hR]
      by_contra hne
      have hne' : R a b ≠ v.noEdge := fun e => hne e.symm
      have hl : a.length = b.length := by rw [h.length_of_mem ha, h.length_of_mem hb]
      have hin : (a, b) ∈ ps ∨ (v.directed = false ∧ (b, a) ∈ ps) := by
        cases hd : v.directed with
        | true => exact Or.inl (p4 hd a ha b hb hne')
        | false =>
          rcases (p5 hd).1 a ha b hb hne' with hh | hh
          · exact Or.inl hh
          · exact Or.inr ⟨rfl, hh⟩
      rcases hin with hin | ⟨hd, hin⟩
      · refine hno _ (List.mem_map_of_mem hin) trivial (Or.inl ?_)
        simp only [View.tuple, evens_interleave hl, odds_interleave hl, and_self]
      · refine hno _ (List.mem_map_of_mem hin) trivial (Or.inr ⟨hd, ?_⟩)
        simp only [View.tuple, evens_interleave hl.symm, odds_interleave hl.symm, and_self]
  · intro x y hxy
    rcases h4 x y with ⟨e, he, -, hab, hR⟩ | ⟨hno, hR⟩
    · obtain ⟨c, e', hc, he', hR', ec, ee, ew⟩ := unp e he
      rw [ec, ee] at hab
      rcases hab with ⟨h1, h2⟩ | ⟨hd, h1, h2⟩
      · exact ⟨c, hc, e', he', h1, h2⟩
      · exact ⟨e', he', c, hc, h1, h2⟩
    · exact absurd hR hxy

end Pymnet
