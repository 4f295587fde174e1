import Verif.Proofs.Links
import Mathlib.Data.List.Induction

/-! Effect of `net[item] = v`, the invariant over histories, and the refinement to `Spec.read`. -/

set_option linter.unusedSectionVars false
set_option linter.unusedSimpArgs false

namespace Pymnet

open Py

variable {α W : Type} [DecidableEq α] [DecidableEq W]

namespace MNet

/-- the pair of node-layers is the link `n1 → n2` (either orientation if undirected) -/
def Same (m : MNet α W) (n1 n2 a b : List α) : Prop :=
  (a = n1 ∧ b = n2) ∨ (m.directed = false ∧ a = n2 ∧ b = n1)

instance (m : MNet α W) (n1 n2 a b : List α) : Decidable (m.Same n1 n2 a b) := by
  unfold Same; infer_instance

theorem setLink_spec {m : MNet α W} (h : m.LInv) {u v : List α} (hl : u.length = v.length)
    (hu : u ≠ []) (w : W) :
    ((m.setLink (interleave u v) w).2 =
      if w = m.noEdge ∧ m.directed = false ∧ u = v ∧ (m.lk u v).isSome = true
      then some .keyError else none) ∧
    LFrame m (m.setLink (interleave u v) w).1 ∧ (m.setLink (interleave u v) w).1.LInv ∧
    (∀ a b, (m.setLink (interleave u v) w).1.lk a b =
      if m.Same u v a b then (if w = m.noEdge then none else some w) else m.lk a b) ∧
    (m.directed = true → ∀ x, (m.setLink (interleave u v) w).1.total x = m.total x +
      if w = m.noEdge then
        -(if (m.lk u v).isSome = true ∧ (u = v ∨ m.lk v u = none) ∧ x = u then 1 else 0)
      else if m.lk u v = none ∧ m.lk v u = none ∧ (x = u ∨ x = v) then 1 else 0) := by
  unfold setLink
  rw [linkToNodes_interleave hl hu]
  simp only
  by_cases hw : w = m.noEdge
  · simp only [hw, if_true, true_and]
    obtain ⟨h1, h2, h3, h4, h5⟩ := delLink_spec h u v
    exact ⟨h1, h2, h3, h4, fun hd x => by rw [h5 hd x, Int.sub_eq_add_neg]⟩
  · simp only [hw, if_false, false_and]
    obtain ⟨h1, h2, h3, h4, h5⟩ := putLink_spec h u v hw
    exact ⟨h1, h2, h3, h4, h5⟩

theorem addresses_cons {aspects : Nat} {item u v : List α} (h : Spec.Addresses aspects item u v) :
    ∃ i s j t, u = i :: s ∧ v = j :: t ∧ s.length = aspects ∧ t.length = aspects := by
  obtain ⟨h1, h2, -⟩ := h
  match u, v, h1, h2 with
  | i :: s, j :: t, h1, h2 => exact ⟨i, s, j, t, rfl, rfl, by simpa using h1, by simpa using h2⟩

/-- Everything `net[item] = w` does, for an item addressing the link `u → v`. -/
theorem setItem_spec {m : MNet α W} (h : m.Inv) {item u v : List α}
    (ha : Spec.Addresses m.aspects item u v) (w : W) :
    ((m.setItem item w).2 =
      if w = m.noEdge ∧ m.directed = false ∧ u = v ∧ (m.lk u v).isSome = true
      then some .keyError else none) ∧
    (m.setItem item w).1.Inv ∧
    (m.setItem item w).1.aspects = m.aspects ∧ (m.setItem item w).1.directed = m.directed ∧
    (m.setItem item w).1.noEdge = m.noEdge ∧ (m.setItem item w).1.fic = m.fic ∧
    (∀ a b, (m.setItem item w).1.lk a b =
      if m.Same u v a b then (if w = m.noEdge then none else some w) else m.lk a b) ∧
    (m.directed = true → ∀ x, (m.setItem item w).1.total x = m.total x +
      if w = m.noEdge then
        -(if (m.lk u v).isSome = true ∧ (u = v ∨ m.lk v u = none) ∧ x = u then 1 else 0)
      else if m.lk u v = none ∧ m.lk v u = none ∧ (x = u ∨ x = v) then 1 else 0) ∧
    (∀ k y, (m.setItem item w).1.inSlice k y ↔
      m.inSlice k y ∨ u[k]? = some y ∨ v[k]? = some y) ∧
    (∀ n L, (m.setItem item w).1.onLayer n L ↔ m.onLayer n L ∨
      (m.fic = false ∧ ∃ s, L = .ofList s ∧ (u = n :: s ∨ v = n :: s))) := by
  have hlen := addresses_length ha
  have hlink := (addresses_iff.1 ha).2.2.2
  obtain ⟨i, s, j, t, rfl, rfl, hs, ht⟩ := addresses_cons ha
  unfold linkOf at hlink
  unfold setItem
  simp only
  rw [if_pos (by omega), hlink]
  have hdrop : (interleave (i :: s) (j :: t)).drop 2 = interleave s t := by simp [interleave]
  obtain ⟨a1, a2, a3, a4, a5⟩ := addLinkNodes_spec m h.r i j s t hs ht
  set m1 := (m.addLinkNodes (interleave (i :: s) (j :: t))).1 with hm1
  have a0 : m.addLinkNodes (interleave (i :: s) (j :: t)) = (m1, none) := Prod.ext hm1.symm a1
  rw [a0, Outcome.andThen_ok, hdrop]
  obtain ⟨e1, e2, e3, e4, e5, e6, e7⟩ := a3.frame.fields
  obtain ⟨b1, b2, b3, b4, b5⟩ := addLinkLayers_spec s t (by omega) m1 a2 1 (by rw [e1]; omega)
  set m2 := (m1.addLinkLayers (interleave s t) 1).1 with hm2
  have b0 : m1.addLinkLayers (interleave s t) 1 = (m2, none) := Prod.ext hm2.symm b1
  rw [b0, Outcome.andThen_ok]
  have g2 : Grows m m2 := a3.trans b3
  have inv2 : m2.Inv := h.of_grows g2 b2
  obtain ⟨d1, d2, d3, d4, d5, d6, d7⟩ := g2.frame.fields
  obtain ⟨c1, c2, c3, c4, c5⟩ := setLink_spec inv2.l (u := i :: s) (v := j :: t)
    (by simp [hs, ht]) (by simp) w
  set r := m2.setLink (interleave (i :: s) (j :: t)) w with hr
  obtain ⟨f1, f2, f3, f4, f5, f6, f7⟩ := c2.fields
  have lk2 : ∀ a b, m2.lk a b = m.lk a b := by intro a b; simp [lk, d5]
  have tot2 : ∀ x, m2.total x = m.total x := by intro x; simp [total, d7]
  have same2 : ∀ a b, m2.Same (i :: s) (j :: t) a b ↔ m.Same (i :: s) (j :: t) a b := by
    intro a b; simp [Same, d2]
  simp only [lk2, d2, d3, tot2] at c1 c4 c5
  have c4' : ∀ a b, r.1.lk a b =
      if m.Same (i :: s) (j :: t) a b then (if w = m.noEdge then none else some w) else m.lk a b := by
    intro a b; rw [c4]; simp only [same2]
  have slice : ∀ k y, r.1.inSlice k y ↔ m.inSlice k y ∨ (i :: s)[k]? = some y ∨ (j :: t)[k]? = some y := by
    intro k y
    have : r.1.inSlice k y ↔ m2.inSlice k y := by simp [inSlice, f5]
    rw [this, b4, a4]
    cases k with
    | zero =>
      simp only [List.getElem?_cons_zero, Option.some.injEq, true_and, Nat.le_zero_eq,
        Nat.one_ne_zero, false_and, and_false, or_false]
      rw [eq_comm (a := i), eq_comm (a := j)]
    | succ k =>
      simp only [Nat.add_sub_cancel, List.getElem?_cons_succ]
      constructor
      · rintro ((h' | h' | h') | h')
        · exact Or.inl h'
        · simp at h'
        · exact Or.inr h'.2.2
        · exact Or.inr h'.2
      · rintro (h' | h')
        · exact Or.inl (Or.inl h')
        · exact Or.inr ⟨by omega, h'⟩
  have layer : ∀ n L, r.1.onLayer n L ↔ m.onLayer n L ∨
      (m.fic = false ∧ ∃ s', L = .ofList s' ∧ (i :: s = n :: s' ∨ j :: t = n :: s')) := by
    intro n L
    have : r.1.onLayer n L ↔ m2.onLayer n L := by simp [onLayer, f7]
    rw [this, b5, a5]
    constructor
    · rintro (h' | ⟨hf, ⟨rfl, rfl⟩ | ⟨rfl, rfl⟩⟩)
      · exact Or.inl h'
      · exact Or.inr ⟨hf, s, rfl, Or.inl rfl⟩
      · exact Or.inr ⟨hf, t, rfl, Or.inr rfl⟩
    · rintro (h' | ⟨hf, s', rfl, h' | h'⟩)
      · exact Or.inl h'
      · cases h'; exact Or.inr ⟨hf, Or.inl ⟨rfl, rfl⟩⟩
      · cases h'; exact Or.inr ⟨hf, Or.inr ⟨rfl, rfl⟩⟩
  have rinv : r.1.RInv := by
    have hon : ∀ n L, r.1.onLayer n L ↔ m2.onLayer n L := by intro n L; simp [onLayer, f7]
    have hsl : ∀ k y, r.1.inSlice k y ↔ m2.inSlice k y := by intro n L; simp [inSlice, f5]
    refine ⟨by rw [f5, f1]; exact inv2.r.slen, by rw [f5]; exact inv2.r.snodup,
      by rw [f1, f4]; exact inv2.r.fic0, ?_, by rw [f7]; exact inv2.r.n2lnodup,
      by rw [f6]; exact inv2.r.l2nnodup, ?_, ?_⟩
    · intro n L; rw [hon, f6]; exact inv2.r.n2l n L
    · intro n L; simp only [hon, hsl]; exact inv2.r.nlreg n L
    · intro n L; rw [hon, f4, f1]; exact inv2.r.nlkind n L
  have regu : r.1.Reg (i :: s) :=
    ⟨by rw [f1, d1]; simp [hs], fun k x hx => (slice k x).2 (Or.inr (Or.inl hx))⟩
  have regv : r.1.Reg (j :: t) :=
    ⟨by rw [f1, d1]; simp [ht], fun k x hx => (slice k x).2 (Or.inr (Or.inr hx))⟩
  refine ⟨c1, ⟨rinv, c3, ?_, ?_⟩, by rw [f1, d1], by rw [f2, d2], by rw [f3, d3], by rw [f4, d4],
    c4', c5, slice, layer⟩
  · intro a b w' hw'
    rw [c4'] at hw'
    split at hw'
    · rename_i hc
      rcases hc with ⟨rfl, rfl⟩ | ⟨-, rfl, rfl⟩
      · exact ⟨regu, regv⟩
      · exact ⟨regv, regu⟩
    · have := h.reg a b w' hw'
      refine ⟨⟨by rw [f1, d1]; exact this.1.1, fun k x hx => (slice k x).2 (Or.inl (this.1.2 k x hx))⟩,
        ⟨by rw [f1, d1]; exact this.2.1, fun k x hx => (slice k x).2 (Or.inl (this.2.2 k x hx))⟩⟩
  · intro hf a b w' hw'
    have hf' : m.fic = false := by rw [← d4, ← f4]; exact hf
    have lu : r.1.onLayer i (.ofList s) := (layer _ _).2 (Or.inr ⟨hf', s, rfl, Or.inl rfl⟩)
    have lv : r.1.onLayer j (.ofList t) := (layer _ _).2 (Or.inr ⟨hf', t, rfl, Or.inr rfl⟩)
    rw [c4'] at hw'
    split at hw'
    · rename_i hc
      rcases hc with ⟨rfl, rfl⟩ | ⟨-, rfl, rfl⟩
      · exact ⟨⟨i, s, rfl, lu⟩, ⟨j, t, rfl, lv⟩⟩
      · exact ⟨⟨j, t, rfl, lv⟩, ⟨i, s, rfl, lu⟩⟩
    · obtain ⟨⟨n, t, e1, e2⟩, ⟨n', t', e3, e4⟩⟩ := h.edgeNl hf' a b w' hw'
      exact ⟨⟨n, t, e1, (layer _ _).2 (Or.inl e2)⟩, ⟨n', t', e3, (layer _ _).2 (Or.inl e4)⟩⟩

/-- An item of wrong arity: `KeyError`, nothing changes. -/
theorem setItem_arity (m : MNet α W) {item : List α}
    (h : ¬ (item.length = 2 * (m.aspects + 1) ∨ item.length = m.aspects + 2)) (w : W) :
    m.setItem item w = (m, some .keyError) := by
  unfold setItem
  simp only
  rw [if_neg (by omega)]

theorem setItem_inv {m : MNet α W} (h : m.Inv) (item : List α) (w : W) : (m.setItem item w).1.Inv := by
  by_cases hl : item.length = 2 * (m.aspects + 1) ∨ item.length = m.aspects + 2
  · obtain ⟨u, v, ha⟩ := exists_addresses hl
    exact (setItem_spec h ha w).2.1
  · rw [setItem_arity m hl]; exact h

theorem init_inv (aspects : Nat) (noEdge : W) (directed fic : Bool) :
    (init aspects noEdge directed fic : MNet α W).Inv := by
  refine ⟨⟨?_, ?_, ?_, ?_, ?_, ?_, ?_, ?_⟩, ⟨?_, ?_, ?_, ?_, ?_, ?_, ?_⟩, ?_, ?_⟩
  · simp [init]
  · intro s hs; simp [init, List.mem_replicate] at hs; simp [hs]
  · intro h; simp [init] at h ⊢; simp [h]
  · intro n L; simp [init, onLayer]
  · intro n; simp [init]
  · intro n; simp [init]
  · intro n L h; simp [init, onLayer] at h
  · intro n L h; simp [init, onLayer] at h
  · exact WF2.nil
  · exact WF2.nil
  · intro _ a b; simp [init, lk, get2]
  · intro _ a b; simp [init, lk, rlk, get2]
  · intro _ a; simp [init]
  · intro a b w h; simp [init, lk, get2] at h
  · intro _ a b w h; simp [init, lk, get2] at h
  · intro a b w h; simp [init, lk, get2] at h
  · intro _ a b w h; simp [init, lk, get2] at h

theorem step_inv {m : MNet α W} (h : m.Inv) (op : Op α W) : (m.step op).1.Inv := by
  cases op with
  | addNode n l => exact h.of_grows (addNode_grows h.r n l) (addNode_rinv h.r n l)
  | addLayer l a => exact h.of_grows (addLayer_grows h.r l a) (addLayer_rinv h.r l a)
  | setItem i v => exact setItem_inv h i v

/-- parameters fixed at construction -/
def SameParams (m m' : MNet α W) : Prop :=
  m'.aspects = m.aspects ∧ m'.directed = m.directed ∧ m'.noEdge = m.noEdge ∧ m'.fic = m.fic

theorem step_params {m : MNet α W} (h : m.Inv) (op : Op α W) : m.SameParams (m.step op).1 := by
  cases op with
  | addNode n l =>
    obtain ⟨h1, h2, h3, h4, -⟩ := (addNode_grows h.r n l).frame.fields; exact ⟨h1, h2, h3, h4⟩
  | addLayer l a =>
    obtain ⟨h1, h2, h3, h4, -⟩ := (addLayer_grows h.r l a).frame.fields; exact ⟨h1, h2, h3, h4⟩
  | setItem i w =>
    by_cases hl : i.length = 2 * (m.aspects + 1) ∨ i.length = m.aspects + 2
    · obtain ⟨u, v, ha⟩ := exists_addresses hl
      obtain ⟨-, -, h1, h2, h3, h4, -⟩ := setItem_spec h ha w
      exact ⟨h1, h2, h3, h4⟩
    · change m.SameParams (m.setItem i w).1
      rw [setItem_arity m hl]; exact ⟨rfl, rfl, rfl, rfl⟩

theorem run_nil (m : MNet α W) : m.run [] = m := rfl

theorem run_snoc (m : MNet α W) (ops : List (Op α W)) (op : Op α W) :
    m.run (ops ++ [op]) = ((m.run ops).step op).1 := by simp [run, List.foldl_append]

theorem run_append (m : MNet α W) (ops ops' : List (Op α W)) :
    m.run (ops ++ ops') = (m.run ops).run ops' := by simp [run, List.foldl_append]

theorem run_inv {m : MNet α W} (h : m.Inv) (ops : List (Op α W)) : (m.run ops).Inv := by
  induction ops using List.reverseRecOn with
  | nil => exact h
  | append_singleton ops op ih => rw [run_snoc]; exact step_inv ih op

theorem run_params {m : MNet α W} (h : m.Inv) (ops : List (Op α W)) : m.SameParams (m.run ops) := by
  induction ops using List.reverseRecOn with
  | nil => exact ⟨rfl, rfl, rfl, rfl⟩
  | append_singleton ops op ih =>
    rw [run_snoc]
    obtain ⟨h1, h2, h3, h4⟩ := step_params (run_inv h ops) op
    obtain ⟨i1, i2, i3, i4⟩ := ih
    exact ⟨h1.trans i1, h2.trans i2, h3.trans i3, h4.trans i4⟩

/-- value of the link `u → v` as read by the user -/
def reads (m : MNet α W) (u v : List α) : W := (m.lk u v).getD m.noEdge

theorem reads_eq_noEdge {m : MNet α W} (h : m.LInv) (u v : List α) :
    m.reads u v = m.noEdge ↔ m.lk u v = none := by
  unfold reads
  cases hl : m.lk u v with
  | none => simp
  | some w => simp [h.val u v w hl]

theorem getLink_interleave (m : MNet α W) {u v : List α} (hl : u.length = v.length) (hu : u ≠ []) :
    m.getLink (interleave u v) = .ok (m.reads u v) := by
  unfold getLink reads lk get2
  rw [linkToNodes_interleave hl hu]
  simp only
  cases h1 : Dict.get m.net u with
  | none => simp
  | some i => cases h2 : Dict.get i v <;> simp [h2]

theorem step_reads {m : MNet α W} (h : m.Inv) (op : Op α W) (u v : List α) :
    (m.step op).1.reads u v = (Spec.written m.aspects m.directed u v op).getD (m.reads u v) := by
  cases op with
  | addNode n l =>
    obtain ⟨-, -, h3, -, h5, -⟩ := (addNode_grows h.r n l).frame.fields
    simp [step, Spec.written, reads, lk, h3, h5]
  | addLayer l a =>
    obtain ⟨-, -, h3, -, h5, -⟩ := (addLayer_grows h.r l a).frame.fields
    simp [step, Spec.written, reads, lk, h3, h5]
  | setItem i w =>
    by_cases hl : i.length = 2 * (m.aspects + 1) ∨ i.length = m.aspects + 2
    · obtain ⟨x, y, ha⟩ := exists_addresses hl
      obtain ⟨-, -, -, -, h3, -, h4, -⟩ := setItem_spec h ha w
      simp only [step, Spec.written, reads, h3, h4]
      have hiff : m.Same x y u v ↔ (Spec.Addresses m.aspects i u v ∨
          (m.directed = false ∧ Spec.Addresses m.aspects i v u)) := by
        constructor
        · rintro (⟨rfl, rfl⟩ | ⟨hd, rfl, rfl⟩)
          · exact Or.inl ha
          · exact Or.inr ⟨hd, ha⟩
        · rintro (h' | ⟨hd, h'⟩)
          · obtain ⟨rfl, rfl⟩ := addresses_unique ha h'
            exact Or.inl ⟨rfl, rfl⟩
          · obtain ⟨rfl, rfl⟩ := addresses_unique ha h'
            exact Or.inr ⟨hd, rfl, rfl⟩
      by_cases hc : m.Same x y u v
      · rw [if_pos hc, if_pos (hiff.1 hc)]
        split
        · rename_i hw; simp [hw]
        · simp
      · rw [if_neg hc, if_neg (fun h' => hc (hiff.2 h'))]; simp
    · have h1 : ∀ a b, ¬ Spec.Addresses m.aspects i a b := fun a b ha => hl (addresses_length ha)
      simp [step, setItem_arity m hl, Spec.written, h1]

theorem run_reads (aspects : Nat) (noEdge : W) (directed fic : Bool) (ops : List (Op α W)) (u v : List α) :
    ((init aspects noEdge directed fic).run ops).reads u v =
      Spec.read aspects directed noEdge ops u v := by
  induction ops using List.reverseRecOn with
  | nil => simp [run, init, reads, lk, get2, Spec.read]
  | append_singleton ops op ih =>
    obtain ⟨h1, h2, -, -⟩ := run_params (init_inv aspects noEdge directed fic) ops
    rw [run_snoc, step_reads (run_inv (init_inv ..) ops), ih, h1, h2]
    simp [Spec.read, List.foldl_append, init]

end MNet

end Pymnet
