import Verif.Proofs.PlexFacts
import Verif.Proofs.Build
import Verif.Props.Plex

/-! Multiplex networks with one aspect under construction: what each public call adds to the content. -/

set_option linter.unusedSectionVars false
set_option linter.unusedSimpArgs false

namespace Pymnet

open Py MPlex

variable {α W : Type} [DecidableEq α] [DecidableEq W] [Zero W]

/-- An undirected multiplex network with one aspect under construction: its nodes, its layers, the nodes on each layer
(if it is not node-aligned), and the weights of the links of each layer. -/
def BuiltP (p : MPlex α W) (c : Coupling α W) (al : Bool) (S : α → Prop) (LY : α → Prop) (NL : α → α → Prop)
    (R : α → α → α → W) : Prop :=
  ∃ ops, p = afterP [c] false 0 al ops ∧ Spec.NoIntraSelf ops ∧
    (∀ x, Spec.Happened (Spec.NamesNodeP 1 al x) ops ↔ S x) ∧
    (∀ s, Spec.HasLayer 1 al ops (.el s) ↔ LY s) ∧
    (al = false → ∀ n s, Spec.Happened (Spec.PutsOnLayer 1 n [s]) ops ↔ NL n s) ∧
    ∀ s i j, Spec.readP 1 false al ops [s] i j = R s i j

omit [DecidableEq α] [DecidableEq W] [Zero W] in
theorem hasLayer_one {al : Bool} {ops : List (POp α W)} {s : α} :
    Spec.HasLayer 1 al ops (.el s) ↔ ∃ op ∈ ops, Spec.NamesLayerP 1 al 1 s op := by
  constructor
  · rintro ⟨t, h1, h2, h3⟩
    match t, h2 with
    | [x], _ => cases h1; exact h3 0 s rfl
  · intro h
    refine ⟨[s], rfl, rfl, fun k x hx => ?_⟩
    cases k with
    | zero => cases hx; exact h
    | succ k => simp at hx

theorem hasLayer_snoc {al : Bool} {ops : List (POp α W)} {s : α} {op : POp α W} :
    Spec.HasLayer 1 al (ops ++ [op]) (.el s) ↔ Spec.HasLayer 1 al ops (.el s) ∨ Spec.NamesLayerP 1 al 1 s op := by
  rw [hasLayer_one, hasLayer_one]
  constructor
  · rintro ⟨o, h1, h2⟩
    rcases List.mem_append.1 h1 with h1 | h1
    · exact .inl ⟨o, h1, h2⟩
    · exact .inr (List.mem_singleton.1 h1 ▸ h2)
  · rintro (⟨o, h1, h2⟩ | h)
    · exact ⟨o, List.mem_append_left _ h1, h2⟩
    · exact ⟨op, by simp, h⟩

namespace BuiltP

variable {p : MPlex α W} {c : Coupling α W} {al : Bool} {S S' LY LY' : α → Prop} {NL NL' : α → α → Prop}
  {R R' : α → α → α → W}

theorem congr (h : BuiltP p c al S LY NL R) (hS : ∀ x, S x ↔ S' x) (hL : ∀ x, LY x ↔ LY' x)
    (hN : ∀ n s, NL n s ↔ NL' n s) (hR : ∀ s i j, R s i j = R' s i j) : BuiltP p c al S' LY' NL' R' := by
  obtain ⟨ops, h0, h1, h2, h3, h4, h5⟩ := h
  exact ⟨ops, h0, h1, fun x => (h2 x).trans (hS x), fun x => (h3 x).trans (hL x),
    fun ha n s => (h4 ha n s).trans (hN n s), fun s i j => (h5 s i j).trans (hR s i j)⟩

theorem anyNL (h : BuiltP p c true S LY NL R) : BuiltP p c true S LY NL' R := by
  obtain ⟨ops, h0, h1, h2, h3, h4, h5⟩ := h
  exact ⟨ops, h0, h1, h2, h3, fun ha => (nomatch ha), h5⟩

theorem init (c : Coupling α W) (al : Bool) :
    BuiltP (MPlex.init [c] false 0 al) c al (fun _ => False) (fun _ => False) (fun _ _ => False) (fun _ _ _ => 0) := by
  refine ⟨[], rfl, by simp [Spec.NoIntraSelf], fun x => ?_, fun s => ?_, fun _ n s => ?_, fun s i j => rfl⟩
  · exact iff_of_false (happened_nil _) id
  · rw [hasLayer_one]; simp
  · exact iff_of_false (happened_nil _) id

/-- one call -/
theorem step (h : BuiltP p c al S LY NL R) (op : POp α W) (hself : ∀ L i w, op ≠ .intraSet L i i w)
    (hS : ∀ ops, (∀ s, Spec.HasLayer 1 al ops (.el s) ↔ LY s) → ∀ x, (Spec.NamesNodeP 1 al x ops op ∨ S x ↔ S' x))
    (hL : ∀ s, Spec.NamesLayerP 1 al 1 s op ∨ LY s ↔ LY' s)
    (hN : ∀ ops, (∀ s, Spec.HasLayer 1 al ops (.el s) ↔ LY s) → al = false → ∀ n s,
      (Spec.PutsOnLayer 1 n [s] ops op ∨ NL n s ↔ NL' n s))
    (hR : ∀ ops, (∀ s, Spec.HasLayer 1 al ops (.el s) ↔ LY s) → ∀ s i j,
      (Spec.writtenP 1 false al [s] i j ops op).getD (R s i j) = R' s i j) :
    BuiltP (p.step op).1 c al S' LY' NL' R' := by
  obtain ⟨ops, h0, h1, h2, h3, h4, h5⟩ := h
  refine ⟨ops ++ [op], ?_, ?_, fun x => ?_, fun s => ?_, fun ha n s => ?_, fun s i j => ?_⟩
  · rw [after_snocP (cs := [c]) (by simp), h0]
  · intro L i w hm
    rcases List.mem_append.1 hm with hm | hm
    · exact h1 L i w hm
    · exact hself L i w (List.mem_singleton.1 hm).symm
  · rw [happened_snoc, h2, or_comm]; exact hS ops h3 x
  · rw [hasLayer_snoc, h3, or_comm]; exact hL s
  · rw [happened_snoc, h4 ha, or_comm]; exact hN ops h3 ha n s
  · rw [readP_snoc, h5]; exact hR ops h3 s i j

theorem pinv (h : BuiltP p c al S LY NL R) : p.PInv := by
  obtain ⟨ops, rfl, -⟩ := h; exact after_pinv (by simp) ..

theorem params (h : BuiltP p c al S LY NL R) : p.aspects = 1 ∧ p.directed = false ∧ p.noEdge = 0 ∧ p.fic = al ∧
    p.couplings = [c] := by
  obtain ⟨ops, rfl, -⟩ := h; exact after_params (by simp) ..

theorem child (h : BuiltP p c al S LY NL R) {s : α} (hs : LY s) :
    ∃ k, p.child? (.el s) = some k ∧ ∀ i j, k.view.readItem [i, j] = .ok (.weight (R s i j)) := by
  obtain ⟨ops, rfl, -, -, h3, -, h5⟩ := h
  have hp := after_pinv (cs := [c]) (by simp) false 0 al ops
  obtain ⟨-, -, s2, -, s4⟩ := after_spec (cs := [c]) (by simp) false 0 al ops
  obtain ⟨k, hk⟩ := Option.isSome_iff_exists.1 ((s2 _).2 ((h3 s).2 hs))
  refine ⟨k, hk, fun i j => ?_⟩
  have hkk := hp.core.kids _ _ hk
  have := MNet.readItem_link (m := k) (a := [i]) (b := [j]) (by simp [hkk.asp]) (by simp [hkk.asp])
  rw [lkA_reads hp.core hk, show LKey.el s = .ofList [s] from rfl, s4 [s] i j rfl] at this
  exact this.trans (by rw [← h5]; rfl)

theorem addNode (h : BuiltP p c al S LY NL R) (n : α) :
    ∃ p', (p.addNode n none).toExcept = .ok p' ∧ BuiltP p' c al (fun x => S x ∨ x = n) LY NL R := by
  refine ⟨_, Outcome.toExcept_ok ((addNode_spec h.pinv n none).2.1.2 (by simp)),
    h.step (.addNode n none) (by simp) (fun ops _ x => ?_) (fun s => ?_) (fun ops _ _ m s => ?_) (fun ops _ s i j => ?_)⟩
  · simp [Spec.NamesNodeP, Spec.general, Spec.NamesNode, or_comm, eq_comm]
  · simp [Spec.NamesLayerP, Spec.general, Spec.NamesLayer]
  · simp [Spec.PutsOnLayer, Spec.general, Spec.NamesNodeLayer]
  · rfl

theorem addLayer (h : BuiltP p c al S LY NL R) (s : α) :
    ∃ p', (p.addLayer s 1).toExcept = .ok p' ∧ BuiltP p' c al S (fun x => LY x ∨ x = s) NL R := by
  have hp := h.params
  refine ⟨_, Outcome.toExcept_ok (addLayer_pos h.pinv s le_rfl (by rw [hp.1])).2.1,
    h.step (.addLayer s 1) (by simp) (fun ops _ x => ?_) (fun s => ?_) (fun ops _ _ m s => ?_) (fun ops _ s i j => ?_)⟩
  · simp [Spec.NamesNodeP, Spec.general, Spec.NamesNode]
  · simp [Spec.NamesLayerP, Spec.general, Spec.NamesLayer, or_comm, eq_comm]
  · simp [Spec.PutsOnLayer, Spec.general, Spec.NamesNodeLayer]
  · rfl

theorem intraAddNode (h : BuiltP p c al S LY NL R) {s : α} (hs : LY s) (n : α) :
    ∃ p', (p.childAddNode (.el s) n).toExcept = .ok p' ∧
      BuiltP p' c al (fun x => S x ∨ x = n) LY (fun m t => NL m t ∨ (m = n ∧ t = s)) R := by
  obtain ⟨k, hk, -⟩ := h.child hs
  refine ⟨_, Outcome.toExcept_ok (childAddNode_spec h.pinv.core hk n).1,
    h.step (.intraAddNode (.el s) n) (by simp) (fun ops ho x => ?_) (fun s => ?_) (fun ops ho ha m t => ?_)
      (fun ops _ s i j => ?_)⟩
  · simp only [Spec.NamesNodeP, (ho s).2 hs, true_and]
    rw [or_comm, eq_comm]
  · simp [Spec.NamesLayerP, Spec.general]
  · subst ha
    simp only [Spec.PutsOnLayer, (ho s).2 hs, true_and]
    rw [or_comm]
    refine or_congr_right ⟨fun ⟨h1, h2⟩ => ?_, fun ⟨h1, h2⟩ => ?_⟩
    · cases h1; exact ⟨h2.symm, rfl⟩
    · exact ⟨by rw [h2]; rfl, h1.symm⟩
  · rfl

theorem intraSet (h : BuiltP p c al S LY NL R) {s : α} (hs : LY s) {i j : α} (hij : i ≠ j) (w : W) :
    ∃ p', (p.childSetItem (.el s) i j w).toExcept = .ok p' ∧
      BuiltP p' c al (fun x => S x ∨ x = i ∨ x = j) LY (fun m t => NL m t ∨ (t = s ∧ (m = i ∨ m = j)))
        (fun t a b => if t = s ∧ ((a = i ∧ b = j) ∨ (a = j ∧ b = i)) then w else R t a b) := by
  obtain ⟨k, hk, -⟩ := h.child hs
  refine ⟨_, Outcome.toExcept_ok (((childSetItem_spec h.pinv.core hk i j w).1).trans (if_neg fun h => hij h.2.2.1)),
    h.step (.intraSet (.el s) i j w) ?_ (fun ops ho x => ?_) (fun s => ?_) (fun ops ho ha m t => ?_)
      (fun ops ho t a b => ?_)⟩
  · rintro L x w' e; cases e; exact hij rfl
  · simp only [Spec.NamesNodeP, (ho s).2 hs, true_and]
    rw [or_comm, eq_comm (a := i), eq_comm (a := j)]
  · simp [Spec.NamesLayerP, Spec.general]
  · subst ha
    simp only [Spec.PutsOnLayer, (ho s).2 hs, true_and]
    rw [or_comm, eq_comm (a := i), eq_comm (a := j)]
    refine or_congr_right (and_congr_left fun _ => ⟨fun h1 => ?_, fun h1 => ?_⟩)
    · cases h1; rfl
    · rw [h1]; rfl
  · have : (Spec.HasLayer 1 al ops (.el s) ∧ LKey.el s = .ofList [t] ∧ Spec.SameLink false i j a b) ↔
        (t = s ∧ ((a = i ∧ b = j) ∨ (a = j ∧ b = i))) := by
      simp only [(ho s).2 hs, true_and, Spec.SameLink]
      refine and_congr_left fun _ => ⟨fun h1 => ?_, fun h1 => ?_⟩
      · cases h1; rfl
      · rw [h1]; rfl
    simp only [Spec.writtenP]
    by_cases hc : t = s ∧ ((a = i ∧ b = j) ∨ (a = j ∧ b = i))
    · rw [if_pos (this.2 hc), if_pos hc]; rfl
    · rw [if_neg (fun h => hc (this.1 h)), if_neg hc]; rfl

theorem setItem (h : BuiltP p c al S LY NL R) {item : List α} {i j s : α} (hij : i ≠ j)
    (ha : Spec.Addresses 1 item [i, s] [j, s]) (w : W) :
    ∃ p', (p.setItem item w).toExcept = .ok p' ∧
      BuiltP p' c al (fun x => S x ∨ x = i ∨ x = j) (fun t => LY t ∨ t = s)
        (fun m t => NL m t ∨ (t = s ∧ (m = i ∨ m = j)))
        (fun t a b => if t = s ∧ ((a = i ∧ b = j) ∨ (a = j ∧ b = i)) then w else R t a b) := by
  have hp := h.params
  have hadr : ∀ u v, Spec.Addresses 1 item u v ↔ u = [i, s] ∧ v = [j, s] := by
    intro u v
    refine ⟨fun h => ?_, fun ⟨h1, h2⟩ => by rw [h1, h2]; exact ha⟩
    obtain ⟨e1, e2⟩ := addresses_unique ha h
    exact ⟨e1.symm, e2.symm⟩
  refine ⟨_, Outcome.toExcept_ok ((setItem_spec h.pinv (item := item) (i := i) (j := j) (s := [s]) (t := [s])
      (by rw [hp.1]; exact ha) w).1.trans (if_pos ⟨hij, rfl⟩)),
    h.step (.setItem item w) (by simp) (fun ops ho x => ?_) (fun t => ?_) (fun ops ho ha m t => ?_)
      (fun ops ho t a b => ?_)⟩
  · simp only [Spec.NamesNodeP, Spec.general, Option.some.injEq, exists_eq_left', Spec.NamesNode, hadr]
    rw [or_comm]
    refine or_congr_right ⟨?_, fun h => ⟨_, _, ⟨rfl, rfl⟩, ?_⟩⟩
    · rintro ⟨u, v, ⟨rfl, rfl⟩, h⟩; simpa [eq_comm] using h
    · simpa [eq_comm] using h
  · simp only [Spec.NamesLayerP, Spec.general, Option.some.injEq, exists_eq_left', Spec.NamesLayer, hadr]
    rw [or_comm]
    refine or_congr_right ⟨?_, fun h => ⟨_, _, ⟨rfl, rfl⟩, ?_⟩⟩
    · rintro ⟨u, v, ⟨rfl, rfl⟩, h⟩; simpa [eq_comm] using h
    · simpa [eq_comm] using h
  · simp only [Spec.PutsOnLayer, Spec.general, Option.some.injEq, exists_eq_left', Spec.NamesNodeLayer, hadr]
    rw [or_comm]
    refine or_congr_right ⟨?_, fun h => ⟨_, _, ⟨rfl, rfl⟩, ?_⟩⟩
    · rintro ⟨u, v, ⟨rfl, rfl⟩, h | h⟩ <;> · simp only [List.cons.injEq, and_true] at h; simp [h]
    · rcases h with ⟨rfl, rfl | rfl⟩ <;> simp
  · have : (∃ x y, x ≠ y ∧ Spec.Addresses 1 item (x :: [t]) (y :: [t]) ∧ Spec.SameLink false x y a b) ↔
        (t = s ∧ ((a = i ∧ b = j) ∨ (a = j ∧ b = i))) := by
      simp only [hadr, Spec.SameLink, List.cons.injEq, and_true, true_and]
      constructor
      · rintro ⟨x, y, -, ⟨⟨rfl, rfl⟩, rfl, -⟩, h⟩; exact ⟨rfl, h⟩
      · rintro ⟨rfl, h⟩; exact ⟨i, j, hij, ⟨⟨rfl, rfl⟩, rfl, rfl⟩, h⟩
    simp only [Spec.writtenP]
    by_cases hc : t = s ∧ ((a = i ∧ b = j) ∨ (a = j ∧ b = i))
    · rw [if_pos (this.2 hc), if_pos hc]; rfl
    · rw [if_neg (fun h => hc (this.1 h)), if_neg hc]; rfl

end BuiltP

end Pymnet
