import Verif.Proofs.PlexFacts
import Verif.Proofs.Build
import Verif.Props.Plex

/-! Multiplex networks with any number of aspects under construction. -/

set_option linter.unusedSectionVars false
set_option linter.unusedSimpArgs false

namespace Pymnet

open Py MPlex

variable {α W : Type} [DecidableEq α] [DecidableEq W] [Zero W]

/-- The tuples of the named elementary layers. -/
def LYs (d : Nat) (LY : Nat → α → Prop) (s : List α) : Prop :=
  s.length = d ∧ ∀ (k : Nat) x, s[k]? = some x → LY (k + 1) x

/-- A multiplex network under construction: its nodes, its elementary layers, the nodes on each layer (if it is not
node-aligned), and the weights of the links of each layer. With `ns`, no self-link was written. -/
def BuiltX (p : MPlex α W) (cs : List (Coupling α W)) (dir : Bool) (z : W) (al : Bool) (ns : Prop) (S : α → Prop)
    (LY : Nat → α → Prop) (NL : α → List α → Prop) (R : List α → α → α → W) : Prop :=
  ∃ ops, p = afterP cs dir z al ops ∧ (ns → Spec.NoIntraSelf ops) ∧
    (∀ x, Spec.Happened (Spec.NamesNodeP cs.length al x) ops ↔ S x) ∧
    (∀ a x, 1 ≤ a → a ≤ cs.length → ((∃ op ∈ ops, Spec.NamesLayerP cs.length al a x op) ↔ LY a x)) ∧
    (al = false → ∀ n s, s.length = cs.length → (Spec.Happened (Spec.PutsOnLayer cs.length n s) ops ↔ NL n s)) ∧
    ∀ s i j, s.length = cs.length → Spec.readP cs.length dir al ops s i j = R s i j

theorem hasLayer_LYs {cs : List (Coupling α W)} {al : Bool} {ops : List (POp α W)} {LY : Nat → α → Prop}
    (h : ∀ a x, 1 ≤ a → a ≤ cs.length → ((∃ op ∈ ops, Spec.NamesLayerP cs.length al a x op) ↔ LY a x)) (s : List α) :
    Spec.HasLayer cs.length al ops (.ofList s) ↔ LYs cs.length LY s := by
  constructor
  · rintro ⟨t, h1, h2, h3⟩
    cases ofList_inj' h1
    exact ⟨h2, fun k x hx => (h _ _ (by omega) (by have := (List.getElem?_eq_some_iff.1 hx).1; omega)).1 (h3 k x hx)⟩
  · rintro ⟨h1, h2⟩
    exact ⟨s, rfl, h1, fun k x hx => (h _ _ (by omega) (by have := (List.getElem?_eq_some_iff.1 hx).1; omega)).2 (h2 k x hx)⟩

namespace BuiltX

variable {p : MPlex α W} {cs : List (Coupling α W)} {dir al : Bool} {z : W} {ns : Prop} {S S' : α → Prop}
  {LY LY' : Nat → α → Prop} {NL NL' : α → List α → Prop} {R R' : List α → α → α → W}

theorem congr (h : BuiltX p cs dir z al ns S LY NL R) (hS : ∀ x, S x ↔ S' x)
    (hL : ∀ a x, 1 ≤ a → a ≤ cs.length → (LY a x ↔ LY' a x))
    (hN : al = false → ∀ n s, s.length = cs.length → (NL n s ↔ NL' n s))
    (hR : ∀ s i j, s.length = cs.length → R s i j = R' s i j) : BuiltX p cs dir z al ns S' LY' NL' R' := by
  obtain ⟨ops, h0, h1, h2, h3, h4, h5⟩ := h
  exact ⟨ops, h0, h1, fun x => (h2 x).trans (hS x), fun a x a1 a2 => (h3 a x a1 a2).trans (hL a x a1 a2),
    fun ha n s hs => (h4 ha n s hs).trans (hN ha n s hs), fun s i j hs => (h5 s i j hs).trans (hR s i j hs)⟩

theorem init (cs : List (Coupling α W)) (dir : Bool) (z : W) (al : Bool) (ns : Prop) :
    BuiltX (MPlex.init cs dir z al) cs dir z al ns (fun _ => False) (fun _ _ => False) (fun _ _ => False) (fun _ _ _ => 0) := by
  refine ⟨[], rfl, by simp [Spec.NoIntraSelf], fun x => ?_, fun a x _ _ => by simp, fun _ n s _ => ?_, fun s i j _ => rfl⟩
  · exact iff_of_false (happened_nil _) id
  · exact iff_of_false (happened_nil _) id

/-- one call -/
theorem step (h : BuiltX p cs dir z al ns S LY NL R) (hcs : cs ≠ []) (op : POp α W)
    (hself : ns → ∀ L i w, op ≠ .intraSet L i i w)
    (hS : ∀ ops, (∀ s, Spec.HasLayer cs.length al ops (.ofList s) ↔ LYs cs.length LY s) → ∀ x,
      (S x ∨ Spec.NamesNodeP cs.length al x ops op ↔ S' x))
    (hL : ∀ a x, 1 ≤ a → a ≤ cs.length → (LY a x ∨ Spec.NamesLayerP cs.length al a x op ↔ LY' a x))
    (hN : ∀ ops, (∀ s, Spec.HasLayer cs.length al ops (.ofList s) ↔ LYs cs.length LY s) → al = false → ∀ n s,
      s.length = cs.length → (NL n s ∨ Spec.PutsOnLayer cs.length n s ops op ↔ NL' n s))
    (hR : ∀ ops, (∀ s, Spec.HasLayer cs.length al ops (.ofList s) ↔ LYs cs.length LY s) → ∀ s i j, s.length = cs.length →
      (Spec.writtenP cs.length dir al s i j ops op).getD (R s i j) = R' s i j) :
    BuiltX (p.step op).1 cs dir z al ns S' LY' NL' R' := by
  obtain ⟨ops, h0, h1, h2, h3, h4, h5⟩ := h
  refine ⟨ops ++ [op], ?_, ?_, fun x => ?_, fun a x a1 a2 => ?_, fun ha n s hs => ?_, fun s i j hs => ?_⟩
  · rw [after_snocP hcs, h0]
  · intro hns L i w hm
    rcases List.mem_append.1 hm with hm | hm
    · exact h1 hns L i w hm
    · exact hself hns L i w (List.mem_singleton.1 hm).symm
  · rw [happened_snoc, h2]; exact hS ops (hasLayer_LYs h3) x
  · rw [← hL a x a1 a2, ← h3 a x a1 a2]
    simp only [List.mem_append, List.mem_singleton, or_and_right, exists_or, exists_eq_left]
  · rw [happened_snoc, h4 ha n s hs]; exact hN ops (hasLayer_LYs h3) ha n s hs
  · rw [readP_snoc, h5 s i j hs]; exact hR ops (hasLayer_LYs h3) s i j hs

theorem pinv (h : BuiltX p cs dir z al ns S LY NL R) (hcs : cs ≠ []) : p.PInv := by
  obtain ⟨ops, rfl, -⟩ := h; exact after_pinv hcs ..

theorem params (h : BuiltX p cs dir z al ns S LY NL R) (hcs : cs ≠ []) : p.aspects = cs.length ∧ p.directed = dir ∧
    p.noEdge = z ∧ p.fic = al ∧ p.couplings = cs := by
  obtain ⟨ops, rfl, -⟩ := h; exact after_params hcs ..

/-- The intra-layer network of a layer. -/
theorem child (h : BuiltX p cs dir z al ns S LY NL R) (hcs : cs ≠ []) {s : List α} (hs : LYs cs.length LY s) :
    ∃ k, p.child? (.ofList s) = some k ∧ k.Inv ∧ k.aspects = 0 ∧ k.directed = dir ∧ k.noEdge = 0 ∧ k.fic = true ∧
      (∀ x, x ∈ k.slices.headD [] ↔ if al then S x else NL x s) ∧ ∀ i j, k.reads [i] [j] = R s i j := by
  have hpar := h.params hcs
  have hp := h.pinv hcs
  obtain ⟨ops, rfl, -, h2, h3, h4, h5⟩ := h
  obtain ⟨s0, -, s2, s3, s4⟩ := after_spec hcs dir z al ops
  obtain ⟨k, hk⟩ := Option.isSome_iff_exists.1 ((s2 _).2 ((hasLayer_LYs h3 s).2 hs))
  have hkk := hp.core.kids _ _ hk
  refine ⟨k, hk, hkk.inv, hkk.asp, hkk.dir.trans hpar.2.1, hkk.ne, ?_, fun x => ?_, fun i j => ?_⟩
  · exact hkk.inv.r.fic0 hkk.asp
  · have hkid : (afterP cs dir z al ops).kid (.ofList s) x ↔ x ∈ k.slices.headD [] := by
      constructor
      · rintro ⟨c, h1, h2⟩; rw [hk] at h1; cases h1; exact h2
      · intro hx; exact ⟨k, hk, hx⟩
    rw [← hkid]
    cases al with
    | true =>
      rw [fic_kid hpar.2.2.2.1, hk, head_inSlice (by rw [hp.core.slen]; omega), s0, h2]; simp
    | false => rw [s3 rfl s x hs.1, h4 rfl x s hs.1]; simp
  · rw [lkA_reads hp.core hk, s4 s i j hs.1, h5 s i j hs.1]

theorem addNode (h : BuiltX p cs dir z al ns S LY NL R) (hcs : cs ≠ []) (n : α) :
    ∃ p', (p.addNode n none).toExcept = .ok p' ∧ BuiltX p' cs dir z al ns (fun x => S x ∨ x = n) LY NL R := by
  refine ⟨_, Outcome.toExcept_ok ((addNode_spec (h.pinv hcs) n none).2.1.2 (by simp)),
    h.step hcs (.addNode n none) (by simp) (fun ops _ x => ?_) (fun a s _ _ => ?_) (fun ops _ _ m s _ => ?_)
      (fun ops _ s i j _ => ?_)⟩
  · simp [Spec.NamesNodeP, Spec.general, Spec.NamesNode, eq_comm]
  · simp [Spec.NamesLayerP, Spec.general, Spec.NamesLayer]
  · simp [Spec.PutsOnLayer, Spec.general, Spec.NamesNodeLayer]
  · rfl

theorem addLayer (h : BuiltX p cs dir z al ns S LY NL R) (hcs : cs ≠ []) {b : Nat} (h1 : 1 ≤ b) (h2 : b ≤ cs.length) (y : α) :
    ∃ p', (p.addLayer y b).toExcept = .ok p' ∧
      BuiltX p' cs dir z al ns S (fun a x => LY a x ∨ (a = b ∧ x = y)) NL R := by
  have hp := h.params hcs
  refine ⟨_, Outcome.toExcept_ok (addLayer_pos (h.pinv hcs) y h1 (by rw [hp.1]; exact h2)).2.1,
    h.step hcs (.addLayer y b) (by simp) (fun ops _ x => ?_) (fun a s a1 a2 => ?_) (fun ops _ _ m s _ => ?_)
      (fun ops _ s i j _ => ?_)⟩
  · simp only [Spec.NamesNodeP, Spec.general, Spec.NamesNode, Option.some.injEq, exists_eq_left']
    refine or_iff_left ?_
    rintro ⟨h, -⟩; omega
  · simp only [Spec.NamesLayerP, Spec.general, Spec.NamesLayer, Option.some.injEq, exists_eq_left', a2, true_and]
    rw [eq_comm (a := b), eq_comm (a := y)]
  · simp [Spec.PutsOnLayer, Spec.general, Spec.NamesNodeLayer]
  · rfl

theorem addLayer0 (h : BuiltX p cs dir z al ns S LY NL R) (hcs : cs ≠ []) (y : α) :
    ∃ p', (p.addLayer y 0).toExcept = .ok p' ∧ BuiltX p' cs dir z al ns (fun x => S x ∨ x = y) LY NL R := by
  refine ⟨_, Outcome.toExcept_ok (addLayer_zero (h.pinv hcs) y).2.1,
    h.step hcs (.addLayer y 0) (by simp) (fun ops _ x => ?_) (fun a s a1 a2 => ?_) (fun ops _ _ m s _ => ?_)
      (fun ops _ s i j _ => ?_)⟩
  · simp [Spec.NamesNodeP, Spec.general, Spec.NamesNode, eq_comm]
  · simp only [Spec.NamesLayerP, Spec.general, Spec.NamesLayer, Option.some.injEq, exists_eq_left', a2, true_and]
    refine or_iff_left ?_
    rintro ⟨h, -⟩; omega
  · simp [Spec.PutsOnLayer, Spec.general, Spec.NamesNodeLayer]
  · rfl

theorem addNodeL (h : BuiltX p cs dir z false ns S LY NL R) (hcs : cs ≠ []) (n : α) {s : List α} (hs : s.length = cs.length) :
    ∃ p', (p.addNode n (some (.ofList s))).toExcept = .ok p' ∧
      BuiltX p' cs dir z false ns (fun x => S x ∨ x = n) (fun a x => LY a x ∨ s[a - 1]? = some x)
        (fun m t => NL m t ∨ (m = n ∧ t = s)) R := by
  have hp := h.params hcs
  have hk := kinded_ofList (h.pinv hcs).core.asp (hs.trans hp.1.symm)
  refine ⟨_, Outcome.toExcept_ok ((addNode_spec (h.pinv hcs) n (some (.ofList s))).2.1.2 ?_),
    h.step hcs (.addNode n (some (.ofList s))) (by simp) (fun ops _ x => ?_) (fun a x a1 a2 => ?_) (fun ops _ _ m t ht => ?_)
      (fun ops _ s i j _ => ?_)⟩
  · rintro L hL -
    cases hL
    exact ⟨hk, by rw [ofList_toList']; exact hs.trans hp.1.symm⟩
  · simp [Spec.NamesNodeP, Spec.general, Spec.NamesNode, eq_comm]
  · refine or_congr_right ?_
    simp only [Spec.NamesLayerP, Spec.general, Option.some.injEq, exists_eq_left']
    match s, hs with
    | [y], hs =>
      have : a = 1 := by rw [← hs] at a2; simp at a2; omega
      subst this
      simp [LKey.ofList, Spec.NamesLayer, ← hs]
    | y :: y' :: t, hs =>
      simp only [LKey.ofList, Spec.NamesLayer, true_and, a2]
      exact and_iff_right (by rw [← hs]; simp)
    | [], hs => exact absurd (List.length_eq_zero_iff.1 hs.symm) hcs
  · refine or_congr_right ?_
    simp only [Spec.PutsOnLayer, Spec.general, Option.some.injEq, exists_eq_left']
    match s, hs with
    | [y], hs => simp [LKey.ofList, Spec.NamesNodeLayer, ← hs]
    | y :: y' :: t', hs =>
      simp only [LKey.ofList, Spec.NamesNodeLayer, hs, true_and]
      rw [and_iff_right (by rw [← hs]; simp)]
      simp
    | [], hs => exact absurd (List.length_eq_zero_iff.1 hs.symm) hcs
  · rfl

theorem intraAddNode (h : BuiltX p cs dir z al ns S LY NL R) (hcs : cs ≠ []) {s : List α} (hs : LYs cs.length LY s) (n : α) :
    ∃ p', (p.childAddNode (.ofList s) n).toExcept = .ok p' ∧
      BuiltX p' cs dir z al ns (fun x => S x ∨ x = n) LY (fun m t => NL m t ∨ (m = n ∧ t = s)) R := by
  obtain ⟨k, hk, -⟩ := h.child hcs hs
  refine ⟨_, Outcome.toExcept_ok (childAddNode_spec (h.pinv hcs).core hk n).1,
    h.step hcs (.intraAddNode (.ofList s) n) (by simp) (fun ops ho x => ?_) (fun a s _ _ => ?_) (fun ops ho ha m t _ => ?_)
      (fun ops _ s i j _ => ?_)⟩
  · simp only [Spec.NamesNodeP, (ho s).2 hs, true_and]
    rw [eq_comm (a := n)]
  · simp [Spec.NamesLayerP, Spec.general]
  · subst ha
    simp only [Spec.PutsOnLayer, (ho s).2 hs, true_and]
    refine or_congr_right ⟨fun ⟨h1, h2⟩ => ⟨h2.symm, (ofList_inj' h1).symm⟩, fun ⟨h1, h2⟩ => ⟨by rw [h2], h1.symm⟩⟩
  · rfl

theorem intraSet (h : BuiltX p cs dir z al ns S LY NL R) (hcs : cs ≠ []) {s : List α} (hs : LYs cs.length LY s) {i j : α}
    {w : W} (hij : ns → i ≠ j) (hw : dir = false → i = j → w ≠ 0) :
    ∃ p', (p.childSetItem (.ofList s) i j w).toExcept = .ok p' ∧
      BuiltX p' cs dir z al ns (fun x => S x ∨ x = i ∨ x = j) LY (fun m t => NL m t ∨ (t = s ∧ (m = i ∨ m = j)))
        (fun t a b => open Classical in if t = s ∧ Spec.SameLink dir i j a b then w else R t a b) := by
  classical
  obtain ⟨k, hk, -⟩ := h.child hcs hs
  have hp := h.params hcs
  refine ⟨_, Outcome.toExcept_ok (((childSetItem_spec (h.pinv hcs).core hk i j w).1).trans (if_neg ?_)),
    h.step hcs (.intraSet (.ofList s) i j w) ?_ (fun ops ho x => ?_) (fun a s _ _ => ?_) (fun ops ho ha m t _ => ?_)
      (fun ops ho t a b _ => ?_)⟩
  · rintro ⟨h1, h2, h3, -⟩
    exact hw (by rw [← hp.2.1]; exact h2) h3 h1
  · rintro hn L x w' e; cases e; exact hij hn rfl
  · simp only [Spec.NamesNodeP, (ho s).2 hs, true_and]
    rw [eq_comm (a := i), eq_comm (a := j)]
  · simp [Spec.NamesLayerP, Spec.general]
  · subst ha
    simp only [Spec.PutsOnLayer, (ho s).2 hs, true_and]
    rw [eq_comm (a := i), eq_comm (a := j)]
    exact or_congr_right (and_congr_left fun _ => ⟨fun h1 => (ofList_inj' h1).symm, fun h1 => by rw [h1]⟩)
  · have : (Spec.HasLayer cs.length al ops (.ofList s) ∧ LKey.ofList s = .ofList t ∧ Spec.SameLink dir i j a b) ↔
        (t = s ∧ Spec.SameLink dir i j a b) := by
      simp only [(ho s).2 hs, true_and]
      exact and_congr_left fun _ => ⟨fun h1 => (ofList_inj' h1).symm, fun h1 => by rw [h1]⟩
    simp only [Spec.writtenP]
    by_cases hc : t = s ∧ Spec.SameLink dir i j a b
    · rw [if_pos (this.2 hc), if_pos hc]; rfl
    · rw [if_neg (fun h => hc (this.1 h)), if_neg hc]; rfl

theorem setItem (h : BuiltX p cs dir z al ns S LY NL R) (hcs : cs ≠ []) {item : List α} {i j : α} {s : List α} (hij : i ≠ j)
    (ha : Spec.Addresses cs.length item (i :: s) (j :: s)) (w : W) :
    ∃ p', (p.setItem item w).toExcept = .ok p' ∧
      BuiltX p' cs dir z al ns (fun x => S x ∨ x = i ∨ x = j) (fun a x => LY a x ∨ s[a - 1]? = some x)
        (fun m t => NL m t ∨ (t = s ∧ (m = i ∨ m = j)))
        (fun t a b => open Classical in if t = s ∧ Spec.SameLink dir i j a b then w else R t a b) := by
  classical
  have hp := h.params hcs
  have hadr : ∀ u v, Spec.Addresses cs.length item u v ↔ u = i :: s ∧ v = j :: s := by
    intro u v
    refine ⟨fun h => ?_, fun ⟨h1, h2⟩ => by rw [h1, h2]; exact ha⟩
    obtain ⟨e1, e2⟩ := addresses_unique ha h
    exact ⟨e1.symm, e2.symm⟩
  refine ⟨_, Outcome.toExcept_ok ((setItem_spec (h.pinv hcs) (item := item) (i := i) (j := j) (s := s) (t := s)
      (by rw [hp.1]; exact ha) w).1.trans (if_pos ⟨hij, rfl⟩)),
    h.step hcs (.setItem item w) (by simp) (fun ops ho x => ?_) (fun a x a1 _ => ?_) (fun ops ho ha m t _ => ?_)
      (fun ops ho t a b _ => ?_)⟩
  · simp only [Spec.NamesNodeP, Spec.general, Option.some.injEq, exists_eq_left', Spec.NamesNode, hadr]
    refine or_congr_right ⟨?_, fun h => ⟨_, _, ⟨rfl, rfl⟩, ?_⟩⟩
    · rintro ⟨u, v, ⟨rfl, rfl⟩, h⟩; simpa [eq_comm] using h
    · simpa [eq_comm] using h
  · simp only [Spec.NamesLayerP, Spec.general, Option.some.injEq, exists_eq_left', Spec.NamesLayer, hadr]
    obtain ⟨b, rfl⟩ : ∃ b, a = b + 1 := ⟨a - 1, by omega⟩
    refine or_congr_right ⟨?_, fun h => ⟨_, _, ⟨rfl, rfl⟩, ?_⟩⟩
    · rintro ⟨u, v, ⟨rfl, rfl⟩, h⟩; simpa using h
    · simpa using h
  · simp only [Spec.PutsOnLayer, Spec.general, Option.some.injEq, exists_eq_left', Spec.NamesNodeLayer, hadr]
    refine or_congr_right ⟨?_, fun h => ⟨_, _, ⟨rfl, rfl⟩, ?_⟩⟩
    · rintro ⟨u, v, ⟨rfl, rfl⟩, h | h⟩ <;> · simp only [List.cons.injEq, and_true] at h; simp [h]
    · rcases h with ⟨rfl, rfl | rfl⟩ <;> simp
  · have : (∃ x y, x ≠ y ∧ Spec.Addresses cs.length item (x :: t) (y :: t) ∧ Spec.SameLink dir x y a b) ↔
        (t = s ∧ Spec.SameLink dir i j a b) := by
      simp only [hadr, List.cons.injEq]
      constructor
      · rintro ⟨x, y, -, ⟨⟨rfl, rfl⟩, rfl, -⟩, h⟩; exact ⟨rfl, h⟩
      · rintro ⟨rfl, h⟩; exact ⟨i, j, hij, ⟨⟨rfl, rfl⟩, rfl, rfl⟩, h⟩
    simp only [Spec.writtenP]
    by_cases hc : t = s ∧ Spec.SameLink dir i j a b
    · rw [if_pos (this.2 hc), if_pos hc]; rfl
    · rw [if_neg (fun h => hc (this.1 h)), if_neg hc]; rfl

end BuiltX

end Pymnet
