import Verif.Proofs.BuildPlex
import Verif.Proofs.Looks
import Verif.Model.Models

/-! The network a single-layer generator fills, seen as its nodes and the weights of its links. -/

set_option linter.unusedSectionVars false

namespace Pymnet

open Py Models

variable {α W : Type} [DecidableEq α] [DecidableEq W] [Zero W]

/-- the weights after writing the link `i,j` -/
def upd (R : α → α → W) (i j : α) (w : W) (a b : α) : W := if (a = i ∧ b = j) ∨ (a = j ∧ b = i) then w else R a b

/-- `P s S R` describes the network: nodes `S` and weights `R`. -/
structure Fills {σ : Type} (T : Target σ α W) (P : σ → (α → Prop) → (α → α → W) → Prop) : Prop where
  congr : ∀ {s S S' R R'}, P s S R → (∀ x, S x ↔ S' x) → (∀ a b, R a b = R' a b) → P s S' R'
  addNode : ∀ {s S R}, P s S R → ∀ n, ∃ s', T.addNode s n = .ok s' ∧ P s' (fun x => S x ∨ x = n) R
  set : ∀ {s S R}, P s S R → ∀ {i j}, i ≠ j → ∀ w,
    ∃ s', T.set s i j w = .ok s' ∧ P s' (fun x => S x ∨ x = i ∨ x = j) (upd R i j w)
  get : ∀ {s S R}, P s S R → ∀ i j, T.get s i j = .ok (R i j)

/-- weights of a network without aspects as a function of tuples -/
def monoR (R : α → α → W) : List α → List α → W
  | [i], [j] => R i j
  | _, _ => 0

/-- a general network without aspects under construction -/
def BuiltM (m : MNet α W) (S : α → Prop) (R : α → α → W) : Prop :=
  Built m 0 0 false true (fun k x => k = 0 ∧ S x) (fun _ => False) (monoR R)

theorem addresses_zero {i j : α} : Spec.Addresses 0 [i, j] [i] [j] := by
  simp [Spec.Addresses, Spec.link]

omit [DecidableEq α] [DecidableEq W] in
theorem monoR_congr {R R' : α → α → W} (h : ∀ a b, R a b = R' a b) (a b : List α) : monoR R a b = monoR R' a b := by
  unfold monoR; split <;> simp [h]

theorem BuiltM.init : BuiltM (MNet.init 0 0 false true : MNet α W) (fun _ => False) (fun _ _ => 0) :=
  (Built.init 0 0 false true).congr (by simp) (fun _ => Iff.rfl) (fun a b => by unfold monoR; split <;> rfl)

theorem BuiltM.set {m : MNet α W} {S : α → Prop} {R : α → α → W} (h : BuiltM m S R) {i j : α} (hij : i ≠ j) (w : W) :
    ∃ m', (m.setItem [i, j] w).toExcept = .ok m' ∧ BuiltM m' (fun x => S x ∨ x = i ∨ x = j) (upd R i j w) := by
  obtain ⟨m', h1, h2⟩ := Built.setItem h (addresses_zero (i := i) (j := j)) w (fun _ h => absurd (by simpa using h) hij)
  refine ⟨m', h1, Built.anyNL (h2.congr (fun k x => ?_) (fun _ => Iff.rfl) (fun a b => ?_))⟩
  · cases k with
    | zero => simp [eq_comm]
    | succ k => simp
  · match a, b with
    | [a], [b] => simp [monoR, upd]
    | [], b => simp [monoR]
    | _ :: _ :: _, b => simp [monoR]
    | [a], [] => simp [monoR]
    | [a], _ :: _ :: _ => simp [monoR]

theorem BuiltM.addNode {m : MNet α W} {S : α → Prop} {R : α → α → W} (h : BuiltM m S R) (n : α) :
    ∃ m', (m.addNode n none).toExcept = .ok m' ∧ BuiltM m' (fun x => S x ∨ x = n) R := by
  obtain ⟨m', h1, h2⟩ := Built.addNode h n
  refine ⟨m', h1, h2.congr (fun k x => ?_) (fun _ => Iff.rfl) (fun a b => rfl)⟩
  cases k <;> simp

theorem fills_net : Fills (netTarget (α := α) (W := W)) BuiltM where
  congr h hS hR := Built.congr h (fun k x => by rw [hS]) (fun _ => Iff.rfl) (monoR_congr hR)
  addNode h n := h.addNode n
  set h _ _ hij w := h.set hij w
  get {m S R} h i j := by
    have hp := Built.params h
    have := MNet.readItem_link (m := m) (a := [i]) (b := [j]) (by simp [hp.1]) (by simp [hp.1])
    rw [h.rd] at this
    have e : m.view.readItem [i, j] = .ok (.weight (R i j)) := this
    simp only [netTarget, e]
    rfl

/-- a multiplex network of which the layer `L` is being filled -/
def BuiltL (c : Coupling α W) (al : Bool) (L : α) (S0 LY : α → Prop) (NL0 : α → α → Prop) (R0 : α → α → α → W)
    (p : MPlex α W) (S : α → Prop) (R : α → α → W) : Prop :=
  BuiltP p c al (fun x => S0 x ∨ S x) LY (fun n t => (t ≠ L ∧ NL0 n t) ∨ (t = L ∧ S n))
    (fun t i j => if t = L then R i j else R0 t i j)

theorem fills_layer (c : Coupling α W) (al : Bool) (L : α) (S0 LY : α → Prop) (NL0 : α → α → Prop)
    (R0 : α → α → α → W) (hL : LY L) : Fills (layerTarget (α := α) (W := W) L) (BuiltL c al L S0 LY NL0 R0) where
  congr h hS hR := BuiltP.congr h (fun x => by rw [hS]) (fun _ => Iff.rfl) (fun n t => by rw [hS])
    (fun t i j => by rw [hR])
  addNode h n := by
    obtain ⟨p', h1, h2⟩ := BuiltP.intraAddNode h hL n
    refine ⟨p', h1, h2.congr (fun x => or_assoc) (fun _ => Iff.rfl) (fun m t => ?_) (fun _ _ _ => rfl)⟩
    tauto
  set h i j hij w := by
    obtain ⟨p', h1, h2⟩ := BuiltP.intraSet h hL hij w
    refine ⟨p', h1, h2.congr (fun x => by tauto) (fun _ => Iff.rfl) (fun m t => by tauto) (fun t a b => ?_)⟩
    by_cases ht : t = L <;> simp [ht, upd]
  get {p S R} h i j := by
    obtain ⟨k, h1, h2⟩ := BuiltP.child h hL
    simp only [layerTarget, h1, h2, if_true]
    rfl

/-! ### loops -/

section
variable {σ : Type} {T : Target σ α W} {P : σ → (α → Prop) → (α → α → W) → Prop}

theorem Fills.addNodes (F : Fills T P) {s : σ} {S : α → Prop} {R : α → α → W} (h : P s S R) (nodes : List α) :
    ∃ s', forE T.addNode nodes s = .ok s' ∧ P s' (fun x => S x ∨ x ∈ nodes) R := by
  refine forE_ok (P := fun pre s => P s (fun x => S x ∨ x ∈ pre) R) nodes (F.congr h (by simp) (fun _ _ => rfl)) ?_
  intro pre b post s' _ h'
  obtain ⟨s2, h1, h2⟩ := F.addNode h' b
  exact ⟨s2, h1, F.congr h2 (fun x => by simp [or_assoc]) (fun _ _ => rfl)⟩

/-- the weights after writing 1 to the links of a list of pairs -/
def ones [One W] (L : List (α × α)) (R : α → α → W) (a b : α) : W := if (a, b) ∈ L ∨ (b, a) ∈ L then 1 else R a b

theorem Fills.links [One W] (F : Fills T P) {β : Type} {s : σ} {S : α → Prop} {R : α → α → W} (h : P s S R)
    (l : List β) (f : β → α × α) {g : σ → β → Except Err σ} (hg : ∀ s, ∀ x ∈ l, g s x = T.set s (f x).1 (f x).2 1)
    (hne : ∀ x ∈ l, (f x).1 ≠ (f x).2) (hS : ∀ x ∈ l, S (f x).1 ∧ S (f x).2) :
    ∃ s', forE g l s = .ok s' ∧ P s' S (ones (l.map f) R) := by
  refine forE_ok (P := fun pre s => P s S (ones (pre.map f) R)) l
    (F.congr h (fun _ => Iff.rfl) (by simp [ones])) ?_
  intro pre b post s' hl h'
  have hb : b ∈ l := by simp [hl]
  obtain ⟨s2, h1, h2⟩ := F.set h' (hne b hb) 1
  refine ⟨s2, (hg s' b hb).trans h1, F.congr h2 (fun x => ?_) (fun x y => ?_)⟩
  · constructor
    · rintro (h | rfl | rfl)
      · exact h
      · exact (hS b hb).1
      · exact (hS b hb).2
    · exact .inl
  · by_cases hx : (x = (f b).1 ∧ y = (f b).2) ∨ (x = (f b).2 ∧ y = (f b).1)
    · rw [upd, if_pos hx, ones, if_pos]
      rw [List.map_append, List.mem_append, List.mem_append]
      rcases hx with ⟨rfl, rfl⟩ | ⟨rfl, rfl⟩ <;> simp
    · rw [upd, if_neg hx]
      unfold ones
      refine if_congr ?_ rfl rfl
      rw [List.map_append, List.mem_append, List.mem_append]
      have e1 : (x, y) ∉ [b].map f := by
        simp only [List.map_cons, List.map_nil, List.mem_singleton]
        intro h; exact hx (.inl ⟨congrArg Prod.fst h, congrArg Prod.snd h⟩)
      have e2 : (y, x) ∉ [b].map f := by
        simp only [List.map_cons, List.map_nil, List.mem_singleton]
        intro h; exact hx (.inr ⟨congrArg Prod.snd h, congrArg Prod.fst h⟩)
      tauto

end

end Pymnet
