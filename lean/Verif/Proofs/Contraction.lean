import Verif.Proofs.ClusteringP
import Mathlib.Algebra.Order.Field.Basic

/-! The tensor contraction clustering coefficients. -/

set_option linter.unusedSectionVars false
set_option linter.unusedSimpArgs false

namespace Pymnet

open Py

variable {α K : Type} [DecidableEq α] [Field K] [LinearOrder K] [IsStrictOrderedRing K]

/-- What the contractions use of a network with one aspect. -/
structure Four (v : View α K) (N B : Finset α) (w : α × α → α × α → K) : Prop where
  nodup : v.nodes.Nodup
  mem : ∀ x, x ∈ v.nodes ↔ x ∈ N
  layers : ∃ ls, v.layers1 = .ok ls ∧ ls.Nodup ∧ ∀ x, x ∈ ls ↔ x ∈ B
  num4 : ∀ a ∈ N, ∀ b ∈ N, ∀ g ∈ B, ∀ d ∈ B, v.num [a, b, g, d] = .ok (w (a, g) (b, d))

theorem Spec.Looks.four {m : MNet α K} {z : K} {dir al : Bool}
    {S : Nat → α → Prop} {NL : List α → Prop} {R : List α → List α → K} (h : Spec.Looks m 1 z dir al S NL R)
    {N B : Finset α} (hN : ∀ x, x ∈ N ↔ S 0 x) (hB : ∀ x, x ∈ B ↔ S 1 x) :
    Four m.view N B fun x y => R [x.1, x.2] [y.1, y.2] := by
  have hl := h.lay hN hB
  refine ⟨hl.nodup, hl.mem, hl.layers, fun a _ b _ g _ d _ => ?_⟩
  unfold View.num
  rw [h.reads [a, b, g, d] [a, g] [b, d] ⟨rfl, rfl, Or.inl rfl⟩, ok_bind]
  rfl

/-- the sum of the weights of the links in the layers -/
def flat (B : Finset α) (w : α × α → α × α → K) (a b : α) : K := ∑ g ∈ B, w (a, g) (b, g)

namespace Four

variable {v : View α K} {N B : Finset α} {w : α × α → α × α → K}

theorem loop6 (h : Four v N B w) {ls : List α} (h2 : ls.Nodup) (h3 : ∀ x, x ∈ ls ↔ x ∈ B)
    {f : α → α → α → α → α → α → Except Err K} {g : α → α → α → α → α → α → K}
    (hf : ∀ a ∈ N, ∀ b ∈ N, ∀ e ∈ N, ∀ g' ∈ B, ∀ d ∈ B, ∀ n ∈ B, f a b e g' d n = .ok (g a b e g' d n)) :
    v.loop6 ls f = .ok (∑ a ∈ N, ∑ b ∈ N, ∑ e ∈ N, ∑ g' ∈ B, ∑ d ∈ B, ∑ n ∈ B, g a b e g' d n) := by
  unfold View.loop6
  rw [forE_fin h.nodup h.mem fun a ha s => forE_fin h.nodup h.mem (fun b hb s => forE_fin h.nodup h.mem (fun e he s =>
    forE_fin h2 h3 (fun g' hg s => forE_fin h2 h3 (fun d hd s => forE_fin h2 h3 (g := fun n => g a b e g' d n)
      (fun n hn s => by rw [hf a ha b hb e he g' hg d hd n hn]; rfl) s) s) s) s) s, zero_add]

theorem loop4 (h : Four v N B w) {ls : List α} (h2 : ls.Nodup) (h3 : ∀ x, x ∈ ls ↔ x ∈ B)
    {f : α → α → α → α → Except Err K} {g : α → α → α → α → K}
    (hf : ∀ a ∈ N, ∀ b ∈ N, ∀ g' ∈ B, ∀ d ∈ B, f a b g' d = .ok (g a b g' d)) (s : K) :
    v.loop4 ls s f = .ok (s + ∑ a ∈ N, ∑ b ∈ N, ∑ g' ∈ B, ∑ d ∈ B, g a b g' d) := by
  unfold View.loop4
  exact forE_fin h.nodup h.mem (fun a ha s => forE_fin h.nodup h.mem (fun b hb s =>
    forE_fin h2 h3 (fun g' hg s => forE_fin h2 h3 (g := fun d => g a b g' d)
      (fun d hd s => by rw [hf a ha b hb g' hg d hd]; rfl) s) s) s) s

theorem mul2 (h : Four v N B w) {a b c d g k m n : α} (ha : a ∈ N) (hb : b ∈ N) (hc : c ∈ N) (hd : d ∈ N)
    (hg : g ∈ B) (hk : k ∈ B) (hm : m ∈ B) (hn : n ∈ B) :
    v.mul2 [a, b, g, k] [c, d, m, n] = .ok (w (a, g) (b, k) * w (c, m) (d, n)) := by
  unfold View.mul2
  rw [h.num4 a ha b hb g hg k hk, ok_bind, h.num4 c hc d hd m hm n hn]
  rfl

theorem mul3 (h : Four v N B w) {a b c d e f g k m n p q : α} (ha : a ∈ N) (hb : b ∈ N) (hc : c ∈ N) (hd : d ∈ N)
    (he : e ∈ N) (hf : f ∈ N) (hg : g ∈ B) (hk : k ∈ B) (hm : m ∈ B) (hn : n ∈ B) (hp : p ∈ B) (hq : q ∈ B) :
    v.mul3 [a, b, g, k] [c, d, m, n] [e, f, p, q] =
      .ok (w (a, g) (b, k) * w (c, m) (d, n) * w (e, p) (f, q)) := by
  unfold View.mul3
  rw [h.num4 a ha b hb g hg k hk, ok_bind, h.num4 c hc d hd m hm n hn, ok_bind, h.num4 e he f hf p hp q hq]
  rfl

/-- three nodes and three layers are three node-layers -/
theorem sum6 (N B : Finset α) (f : α × α → α × α → α × α → K) :
    ∑ a ∈ N, ∑ b ∈ N, ∑ e ∈ N, ∑ g ∈ B, ∑ d ∈ B, ∑ n ∈ B, f (a, g) (b, d) (e, n) =
      ∑ x ∈ N ×ˢ B, ∑ y ∈ N ×ˢ B, ∑ z ∈ N ×ˢ B, f x y z := by
  simp only [Finset.sum_product]
  refine Finset.sum_congr rfl fun a _ => ?_
  -- left: b e g d n; right: g b d e n
  have e1 : ∀ b ∈ N, ∑ e ∈ N, ∑ g ∈ B, ∑ d ∈ B, ∑ n ∈ B, f (a, g) (b, d) (e, n) =
      ∑ g ∈ B, ∑ d ∈ B, ∑ e ∈ N, ∑ n ∈ B, f (a, g) (b, d) (e, n) := by
    intro b _
    rw [Finset.sum_comm]
    refine Finset.sum_congr rfl fun g _ => Finset.sum_comm
  rw [Finset.sum_congr rfl e1, Finset.sum_comm]

theorem sum4 (N B : Finset α) (f : α × α → α × α → K) :
    ∑ a ∈ N, ∑ b ∈ N, ∑ g ∈ B, ∑ d ∈ B, f (a, g) (b, d) = ∑ x ∈ N ×ˢ B, ∑ y ∈ N ×ˢ B, f x y := by
  simp only [Finset.sum_product]
  refine Finset.sum_congr rfl fun a _ => ?_
  rw [Finset.sum_comm]

theorem numM (h : Four v N B w) {ls : List α} (h2 : ls.Nodup) (h3 : ∀ x, x ∈ ls ↔ x ∈ B) :
    v.numM ls = .ok (Spec.closedWalks (N ×ˢ B) w) := by
  unfold View.numM
  rw [h.loop6 h2 h3 fun a ha b hb e he g hg d hd n hn => h.mul3 ha hb hb he he ha hg hd hd hn hn hg]
  rw [sum6 N B fun x y z => w x y * w y z * w z x]
  rfl

theorem ratio_eq (a b : K) : View.ratio a b = Spec.quotient a b := by
  unfold View.ratio Spec.quotient
  by_cases h : b = 0 <;> simp [h]

theorem open_eq (X : Finset (α × α)) (w : α × α → α × α → K) :
    Spec.openWalks X w = (∑ x ∈ X, ∑ y ∈ X, ∑ z ∈ X, w x y * w y z) - ∑ x ∈ X, ∑ y ∈ X, w x y * w y x := by
  unfold Spec.openWalks
  rw [← Finset.sum_sub_distrib]
  refine Finset.sum_congr rfl fun x hx => ?_
  rw [← Finset.sum_sub_distrib]
  refine Finset.sum_congr rfl fun y _ => ?_
  have : ∑ z ∈ X, w x y * w y z = ∑ z ∈ X, ((if x ≠ z then w x y * w y z else 0) + if x = z then w x y * w y z else 0) := by
    refine Finset.sum_congr rfl fun z _ => ?_
    by_cases h : x = z <;> simp [h]
  rw [this, Finset.sum_add_distrib, Finset.sum_ite_eq X x fun z => w x y * w y z, if_pos hx, add_sub_cancel_right]
  refine Finset.sum_congr rfl fun z _ => ?_
  by_cases h : x = z <;> simp [h]

theorem open_flat {V : Type} [DecidableEq V] (N : Finset V) (a : V → V → K) :
    (∑ x ∈ N, ∑ y ∈ N, ∑ z ∈ N, if x ≠ z then a x y * a y z else 0) = Spec.openWalks N a := by
  unfold Spec.openWalks
  refine Finset.sum_congr rfl fun x _ => Finset.sum_congr rfl fun y _ => Finset.sum_congr rfl fun z _ => ?_
  by_cases h : x = z <;> simp [h]

theorem contractionM (h : Four v N B w) :
    v.contractionM = .ok (Spec.quotient (Spec.closedWalks (N ×ˢ B) w) (Spec.openWalks (N ×ˢ B) w)) := by
  obtain ⟨ls, h1, h2, h3⟩ := h.layers
  unfold View.contractionM
  rw [h1, ok_bind, h.numM h2 h3, ok_bind,
    h.loop6 h2 h3 fun a ha b hb e he g hg d hd n hn => h.mul2 ha hb hb he hg hd hd hn, ok_bind,
    h.loop4 h2 h3 (g := fun a b g d => -(w (a, g) (b, d) * w (b, d) (a, g)))
      (fun a ha b hb g hg d hd => by rw [h.mul2 ha hb hb ha hg hd hd hg]; rfl), ok_bind, ratio_eq]
  rw [sum6 N B fun x y z => w x y * w y z, sum4 N B fun x y => -(w x y * w y x), open_eq]
  simp only [Finset.sum_neg_distrib, sub_eq_add_neg]
  rfl

theorem contractionMct (h : Four v N B w) :
    v.contractionMct = .ok (Spec.quotient (Spec.closedWalks (N ×ˢ B) w) (Spec.openWalks (N ×ˢ B) w)) := by
  obtain ⟨ls, h1, h2, h3⟩ := h.layers
  unfold View.contractionMct
  rw [h1, ok_bind, h.numM h2 h3, ok_bind,
    h.loop6 h2 h3 (g := fun a b e g d n => if (a, g) ≠ (e, n) then w (a, g) (b, d) * w (b, d) (e, n) else 0)
      (fun a ha b hb e he g hg d hd n hn => by
        rw [h.mul2 ha hb hb he hg hd hd hn, ok_bind, pure_eq_ok]
        congr 1
        by_cases hc : e = a ∧ n = g
        · obtain ⟨rfl, rfl⟩ := hc; simp
        · rw [if_neg hc, if_pos]
          intro hh
          simp only [Prod.mk.injEq] at hh
          exact hc ⟨hh.1.symm, hh.2.symm⟩), ok_bind, ratio_eq]
  rw [sum6 N B fun x y z => if x ≠ z then w x y * w y z else 0]
  rw [open_flat]
  rfl

theorem contractionMfull (h : Four v N B w) :
    v.contractionMfull = .ok (Spec.quotient (Spec.closedWalks (N ×ˢ B) w) (Spec.openWalks (N ×ˢ B) w)) := by
  obtain ⟨ls, h1, h2, h3⟩ := h.layers
  unfold View.contractionMfull
  rw [h1, ok_bind, h.numM h2 h3, ok_bind,
    h.loop6 h2 h3 (g := fun a b e g d n => if (b, d) ≠ (e, n) then w (a, g) (b, d) * w (e, n) (a, g) else 0)
      (fun a ha b hb e he g hg d hd n hn => by
        by_cases hc : b ≠ e ∨ d ≠ n
        · rw [if_pos hc, h.mul2 ha hb he ha hg hd hn hg, if_pos]
          intro hh
          simp only [Prod.mk.injEq] at hh
          rcases hc with hc | hc
          · exact hc hh.1
          · exact hc hh.2
        · rw [if_neg hc, if_neg]
          · rfl
          · push Not at hc
            obtain ⟨rfl, rfl⟩ := hc; simp), ok_bind, ratio_eq]
  rw [sum6 N B fun x y z => if y ≠ z then w x y * w z x else 0]
  have : (∑ x ∈ N ×ˢ B, ∑ y ∈ N ×ˢ B, ∑ z ∈ N ×ˢ B, if y ≠ z then w x y * w z x else 0) =
      Spec.openWalks (N ×ˢ B) w := by
    rw [← open_flat]
    -- walk z → x → y
    have e : ∀ x ∈ N ×ˢ B, (∑ y ∈ N ×ˢ B, ∑ z ∈ N ×ˢ B, if y ≠ z then w x y * w z x else 0) =
        ∑ z ∈ N ×ˢ B, ∑ y ∈ N ×ˢ B, if z ≠ y then w z x * w x y else 0 := by
      intro x _
      rw [Finset.sum_comm]
      refine Finset.sum_congr rfl fun z _ => Finset.sum_congr rfl fun y _ => ?_
      by_cases hc : y = z
      · rw [if_neg (by simpa using hc), if_neg (by simpa using hc.symm)]
      · rw [if_pos hc, if_pos (fun e => hc e.symm), mul_comm]
    rw [Finset.sum_congr rfl e, Finset.sum_comm]
  rw [this]
  rfl

/-- each of three factors is summed over the layers -/
theorem sum6o (N B : Finset α) (p q r : α → α → α → α → K) :
    ∑ a ∈ N, ∑ b ∈ N, ∑ e ∈ N, ∑ g ∈ B, ∑ d ∈ B, ∑ n ∈ B, p a b e g * q a b e d * r a b e n =
      ∑ a ∈ N, ∑ b ∈ N, ∑ e ∈ N, (∑ g ∈ B, p a b e g) * (∑ d ∈ B, q a b e d) * ∑ n ∈ B, r a b e n := by
  refine Finset.sum_congr rfl fun a _ => Finset.sum_congr rfl fun b _ => Finset.sum_congr rfl fun e _ => ?_
  rw [Finset.sum_mul, Finset.sum_mul]
  refine Finset.sum_congr rfl fun g _ => ?_
  rw [Finset.mul_sum B (fun d => q a b e d) (p a b e g), Finset.sum_mul]
  refine Finset.sum_congr rfl fun d _ => ?_
  rw [Finset.mul_sum]

theorem numO (h : Four v N B w) {ls : List α} (h2 : ls.Nodup) (h3 : ∀ x, x ∈ ls ↔ x ∈ B) :
    v.numO ls = .ok (Spec.closedWalks N (flat B w)) := by
  unfold View.numO
  rw [h.loop6 h2 h3 fun a ha b hb e he g hg d hd n hn => h.mul3 ha hb hb he he ha hg hg hd hd hn hn]
  rw [sum6o N B (fun a b _ g => w (a, g) (b, g)) (fun _ b e d => w (b, d) (e, d)) (fun a _ e n => w (e, n) (a, n))]
  rfl

theorem contractionOfull (h : Four v N B w) :
    v.contractionOfull = .ok (Spec.quotient (Spec.closedWalks N (flat B w)) (B.card * Spec.openWalks N (flat B w))) := by
  obtain ⟨ls, h1, h2, h3⟩ := h.layers
  unfold View.contractionOfull
  rw [h1, ok_bind, h.numO h2 h3, ok_bind,
    h.loop6 h2 h3 (g := fun a b e g _ n => (if b ≠ e then w (a, g) (b, g) else 0) * 1 * w (e, n) (a, n))
      (fun a ha b hb e he g hg d hd n hn => by
        by_cases hc : b ≠ e
        · rw [if_pos hc, h.mul2 ha hb he ha hg hg hn hn, if_pos hc, mul_one]
        · rw [if_neg hc, if_neg hc, zero_mul, zero_mul]; rfl), ok_bind, ratio_eq,
    sum6o N B (fun a b e g => if b ≠ e then w (a, g) (b, g) else 0) (fun _ _ _ _ => 1) (fun a _ e n => w (e, n) (a, n))]
  have : (∑ a ∈ N, ∑ b ∈ N, ∑ e ∈ N, (∑ g ∈ B, if b ≠ e then w (a, g) (b, g) else 0) * (∑ _d ∈ B, 1) *
      ∑ n ∈ B, w (e, n) (a, n)) = B.card * Spec.openWalks N (flat B w) := by
    rw [← open_flat]
    have e : ∀ a ∈ N, (∑ b ∈ N, ∑ e ∈ N, (∑ g ∈ B, if b ≠ e then w (a, g) (b, g) else 0) * (∑ _d ∈ B, (1 : K)) *
      ∑ n ∈ B, w (e, n) (a, n)) = ∑ e ∈ N, ∑ b ∈ N, B.card * if e ≠ b then flat B w e a * flat B w a b else 0 := by
      intro a _
      rw [Finset.sum_comm]
      refine Finset.sum_congr rfl fun e _ => Finset.sum_congr rfl fun b _ => ?_
      rw [Finset.sum_const, nsmul_eq_mul, mul_one]
      by_cases hc : b = e
      · subst hc; simp
      · have hc' : e ≠ b := fun h => hc h.symm
        simp only [ne_eq, hc, not_false_eq_true, if_true, hc', flat]
        ring
    rw [Finset.sum_congr rfl e, Finset.sum_comm, Finset.mul_sum]
    refine Finset.sum_congr rfl fun x _ => ?_
    rw [Finset.mul_sum]
    refine Finset.sum_congr rfl fun y _ => ?_
    rw [Finset.mul_sum]
  rw [this]
  rfl

theorem contractionO2 (h : Four v N B w) :
    v.contractionO2 = .ok (Spec.quotient (Spec.closedWalks N (flat B w)) (B.card * Spec.openWalks N (flat B w))) := by
  obtain ⟨ls, h1, h2, h3⟩ := h.layers
  unfold View.contractionO2
  rw [h1, ok_bind, h.numO h2 h3, ok_bind,
    h.loop6 h2 h3 (g := fun a b e g d _ => (if a ≠ e then w (a, g) (b, g) else 0) * w (b, d) (e, d) * 1)
      (fun a ha b hb e he g hg d hd n hn => by
        rw [h.mul2 ha hb hb he hg hg hd hd, ok_bind, pure_eq_ok]
        congr 1
        by_cases hc : e = a
        · subst hc; simp
        · have hc' : a ≠ e := fun h => hc h.symm
          rw [if_neg hc, if_pos hc', mul_one]), ok_bind, ratio_eq,
    sum6o N B (fun a b e g => if a ≠ e then w (a, g) (b, g) else 0) (fun _ b e d => w (b, d) (e, d)) (fun _ _ _ _ => 1)]
  have : (∑ a ∈ N, ∑ b ∈ N, ∑ e ∈ N, (∑ g ∈ B, if a ≠ e then w (a, g) (b, g) else 0) * (∑ d ∈ B, w (b, d) (e, d)) *
      ∑ _n ∈ B, 1) = B.card * Spec.openWalks N (flat B w) := by
    rw [← open_flat, Finset.mul_sum]
    refine Finset.sum_congr rfl fun a _ => ?_
    rw [Finset.mul_sum]
    refine Finset.sum_congr rfl fun b _ => ?_
    rw [Finset.mul_sum]
    refine Finset.sum_congr rfl fun e _ => ?_
    rw [Finset.sum_const, nsmul_eq_mul, mul_one]
    by_cases hc : a = e
    · subst hc; simp
    · simp only [ne_eq, hc, not_false_eq_true, if_true, flat]
      ring
  rw [this]
  rfl

theorem contractionO (h : Four v N B w) :
    v.contractionO = .ok (Spec.quotient (Spec.closedWalks N (flat B w))
      (B.card * (∑ a ∈ N, ∑ b ∈ N, ∑ e ∈ N, flat B w a b * flat B w b e) - ∑ a ∈ N, ∑ b ∈ N, flat B w a b * flat B w b a)) := by
  obtain ⟨ls, h1, h2, h3⟩ := h.layers
  unfold View.contractionO
  rw [h1, ok_bind, h.numO h2 h3, ok_bind,
    h.loop6 h2 h3 (g := fun a b e g d _ => w (a, g) (b, g) * w (b, d) (e, d) * 1)
      (fun a ha b hb e he g hg d hd n hn => by rw [h.mul2 ha hb hb he hg hg hd hd, mul_one]), ok_bind,
    h.loop4 h2 h3 (g := fun a b g d => -(w (a, g) (b, g) * w (b, d) (a, d)))
      (fun a ha b hb g hg d hd => by rw [h.mul2 ha hb hb ha hg hg hd hd]; rfl), ok_bind, ratio_eq,
    sum6o N B (fun a b _ g => w (a, g) (b, g)) (fun _ b e d => w (b, d) (e, d)) (fun _ _ _ _ => 1)]
  have e1 : (∑ a ∈ N, ∑ b ∈ N, ∑ e ∈ N, (∑ g ∈ B, w (a, g) (b, g)) * (∑ d ∈ B, w (b, d) (e, d)) * ∑ _n ∈ B, 1) =
      B.card * ∑ a ∈ N, ∑ b ∈ N, ∑ e ∈ N, flat B w a b * flat B w b e := by
    rw [Finset.mul_sum]
    refine Finset.sum_congr rfl fun a _ => ?_
    rw [Finset.mul_sum]
    refine Finset.sum_congr rfl fun b _ => ?_
    rw [Finset.mul_sum]
    refine Finset.sum_congr rfl fun e _ => ?_
    rw [Finset.sum_const, nsmul_eq_mul, mul_one, flat, flat]
    ring
  have e2 : ∑ a ∈ N, ∑ b ∈ N, ∑ g ∈ B, ∑ d ∈ B, -(w (a, g) (b, g) * w (b, d) (a, d)) =
      -∑ a ∈ N, ∑ b ∈ N, flat B w a b * flat B w b a := by
    simp only [Finset.sum_neg_distrib]
    congr 1
    refine Finset.sum_congr rfl fun a _ => Finset.sum_congr rfl fun b _ => ?_
    rw [flat, flat, Finset.sum_mul]
    refine Finset.sum_congr rfl fun g _ => ?_
    rw [Finset.mul_sum]
  rw [e1, e2, ← sub_eq_add_neg]
  rfl

end Four

/-! ### ranges -/

theorem closed_le_open {V : Type} {X : Finset V} {w : V → V → K} (hw : ∀ x ∈ X, ∀ y ∈ X, 0 ≤ w x y) {c : K}
    (hc : ∀ x ∈ X, ∀ y ∈ X, w x y ≤ c) (hself : ∀ x ∈ X, w x x = 0) :
    0 ≤ Spec.closedWalks X w ∧ 0 ≤ Spec.openWalks X w ∧ Spec.closedWalks X w ≤ c * Spec.openWalks X w := by
  unfold Spec.closedWalks Spec.openWalks
  refine ⟨?_, ?_, ?_⟩
  · exact Finset.sum_nonneg fun x hx => Finset.sum_nonneg fun y hy => Finset.sum_nonneg fun z hz =>
      mul_nonneg (mul_nonneg (hw x hx y hy) (hw y hy z hz)) (hw z hz x hx)
  · refine Finset.sum_nonneg fun x hx => Finset.sum_nonneg fun y hy => Finset.sum_nonneg fun z hz => ?_
    split
    · exact mul_nonneg (hw x hx y hy) (hw y hy z hz)
    · exact le_refl _
  · rw [Finset.mul_sum]
    refine Finset.sum_le_sum fun x hx => ?_
    rw [Finset.mul_sum]
    refine Finset.sum_le_sum fun y hy => ?_
    rw [Finset.mul_sum]
    refine Finset.sum_le_sum fun z hz => ?_
    by_cases h : x = z
    · subst h; rw [hself x hx]; simp
    · rw [if_pos h, mul_comm c]
      exact mul_le_mul_of_nonneg_left (hc z hz x hx) (mul_nonneg (hw x hx y hy) (hw y hy z hz))

theorem quotient_range {a b : K} (ha : 0 ≤ a) (hab : a ≤ b) {q : K} (hq : Spec.quotient a b = some q) : 0 ≤ q ∧ q ≤ 1 := by
  unfold Spec.quotient at hq
  split at hq
  · cases hq
  · cases hq
    rename_i h
    have hb : 0 < b := lt_of_le_of_ne (ha.trans hab) (Ne.symm h)
    exact ⟨div_nonneg ha hb.le, (div_le_one hb).2 hab⟩

theorem flat_range {N B : Finset α} {w : α × α → α × α → K} (hw : ∀ x ∈ N ×ˢ B, ∀ y ∈ N ×ˢ B, 0 ≤ w x y ∧ w x y ≤ 1)
    {a b : α} (ha : a ∈ N) (hb : b ∈ N) : 0 ≤ flat B w a b ∧ flat B w a b ≤ B.card := by
  have key : ∀ g ∈ B, 0 ≤ w (a, g) (b, g) ∧ w (a, g) (b, g) ≤ 1 := fun g hg =>
    hw (a, g) (by simp [ha, hg]) (b, g) (by simp [hb, hg])
  refine ⟨Finset.sum_nonneg fun g hg => (key g hg).1, ?_⟩
  have := Finset.sum_le_card_nsmul B (fun g => w (a, g) (b, g)) 1 fun g hg => (key g hg).2
  simpa [flat] using this

end Pymnet
