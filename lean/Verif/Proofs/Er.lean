import Verif.Proofs.Fills
import Verif.Spec.Models
import Mathlib.Tactic.Linarith
import Mathlib.Tactic.Ring
import Mathlib.Tactic.Positivity

/-! Proofs about the Erdos-Renyi generator. -/

set_option linter.unusedSectionVars false

namespace Pymnet

open Py Models

/-! ### the enumeration of pairs -/

theorem two_tri (v : Nat) : 2 * (v * (v - 1) / 2) = v * (v - 1) := by
  have : 2 ∣ v * (v - 1) := by
    rcases Nat.even_or_odd v with h | h
    · exact Dvd.dvd.mul_right h.two_dvd _
    · exact Dvd.dvd.mul_left (Nat.Odd.sub_odd h odd_one).two_dvd _
  omega

theorem two_pairIndex (v w : Nat) : (2 * (Spec.pairIndex v w) : Int) = v * (v - 1) + 2 * w := by
  have := two_tri v
  unfold Spec.pairIndex
  cases v with
  | zero => simp
  | succ k =>
    simp only [Nat.add_sub_cancel] at this ⊢
    push_cast
    zify at this
    rw [mul_add, this]; ring

theorem tri_succ (v : Nat) : (v + 1) * v / 2 = v * (v - 1) / 2 + v := by
  have h1 := two_tri v
  have h2 := two_tri (v + 1)
  simp only [Nat.add_sub_cancel] at h2
  have : (v + 1) * v = v * (v - 1) + 2 * v := by
    cases v with
    | zero => rfl
    | succ k => simp only [Nat.add_sub_cancel]; ring
  omega

theorem exists_pair (e : Nat) : ∃ v w, w < v ∧ Spec.pairIndex v w = e := by
  induction e with
  | zero => exact ⟨1, 0, by omega, rfl⟩
  | succ e ih =>
    obtain ⟨v, w, h1, rfl⟩ := ih
    by_cases h : w + 1 < v
    · exact ⟨v, w + 1, h, rfl⟩
    · refine ⟨v + 1, 0, by omega, ?_⟩
      unfold Spec.pairIndex
      rw [Nat.add_sub_cancel, tri_succ]; omega

theorem tri_mono {a b : Nat} (h : a ≤ b) : a * (a - 1) / 2 ≤ b * (b - 1) / 2 :=
  Nat.div_le_div_right (Nat.mul_le_mul h (by omega))

theorem pairIndex_lt {v w n : Nat} (h1 : w < v) (h2 : v < n) : Spec.pairIndex v w < n * (n - 1) / 2 := by
  have h := tri_succ v
  have := tri_mono (a := v + 1) (b := n) h2
  rw [Nat.add_sub_cancel] at this
  unfold Spec.pairIndex; omega

theorem lt_of_pairIndex {v w n : Nat} (h : Spec.pairIndex v w < n * (n - 1) / 2) : v < n := by
  by_contra hc
  have := tri_mono (a := n) (b := v) (by omega)
  unfold Spec.pairIndex at h; omega

theorem pairIndex_inj {v w v' w' : Nat} (h1 : w < v) (h2 : w' < v') (h : Spec.pairIndex v w = Spec.pairIndex v' w') :
    v = v' ∧ w = w' := by
  have a1 := pairIndex_lt h1 (Nat.lt_succ_self v)
  have a2 := pairIndex_lt h2 (Nat.lt_succ_self v')
  rw [h] at a1; rw [← h] at a2
  have b1 := lt_of_pairIndex a1
  have b2 := lt_of_pairIndex a2
  have : v = v' := by omega
  subst this
  unfold Spec.pairIndex at h
  exact ⟨rfl, by omega⟩

theorem edgeRow_pairIndex {v w : Nat} (h : w < v) : edgeRow (Spec.pairIndex v w) = v := by
  have hR : (2 * (Spec.pairIndex v w : ℝ)) = v * (v - 1) + 2 * w := by
    have := two_pairIndex v w
    exact_mod_cast this
  unfold edgeRow
  rw [hR]
  have hv : (1 : ℝ) ≤ v := by exact_mod_cast (show 1 ≤ v by omega)
  have hw0 : (0 : ℝ) ≤ w := by positivity
  have hw : (w : ℝ) + 1 ≤ v := by exact_mod_cast h
  have : ⌊(-(1 / 2) + √(1 / 4 + (v * (v - 1) + 2 * w)) : ℝ)⌋ = (v : Int) - 1 := by
    rw [Int.floor_eq_iff]
    push_cast
    constructor
    · have : (v : ℝ) - 1 / 2 ≤ √(1 / 4 + (v * (v - 1) + 2 * w)) := by
        apply Real.le_sqrt_of_sq_le
        nlinarith
      linarith
    · have : √(1 / 4 + (v * (v - 1) + 2 * w)) < (v : ℝ) + 1 / 2 := by
        rw [Real.sqrt_lt' (by linarith)]
        nlinarith
      linarith
  rw [this]; omega

theorem edgeCol_pairIndex {v w : Nat} (h : w < v) : edgeCol (Spec.pairIndex v w) = w := by
  unfold edgeCol
  rw [edgeRow_pairIndex h]
  have h1 := two_pairIndex v w
  omega

theorem edge_spec (e : Nat) : ∃ v w, w < v ∧ Spec.pairIndex v w = e ∧ edgeRow e = v ∧ edgeCol e = w := by
  obtain ⟨v, w, h1, rfl⟩ := exists_pair e
  exact ⟨v, w, h1, rfl, edgeRow_pairIndex h1, edgeCol_pairIndex h1⟩

theorem pyGet_nat {β : Type} (l : List β) {i : Nat} (h : i < l.length) : pyGet l (i : Int) = .ok l[i] := by
  simp [pyGet, h]

/-! ### a number of edges -/

section
variable {α W σ : Type} [DecidableEq α] [DecidableEq W] [Zero W] [One W] {T : Target σ α W}
  {P : σ → (α → Prop) → (α → α → W) → Prop}

/-- The pair of names with the given index. -/
noncomputable def pairAt [Inhabited α] (nodes : List α) (e : Nat) : α × α :=
  (nodes.getD (edgeRow e).toNat default, nodes.getD (edgeCol e).toNat default)

theorem pairAt_eq [Inhabited α] {nodes : List α} {v w : Nat} (h1 : w < v) (h2 : v < nodes.length) :
    pairAt nodes (Spec.pairIndex v w) = (nodes[v], nodes[w]) := by
  simp only [pairAt, edgeRow_pairIndex h1, edgeCol_pairIndex h1, Int.toNat_natCast, List.getD_eq_getElem?_getD]
  rw [List.getElem?_eq_getElem h2, List.getElem?_eq_getElem (by omega : w < nodes.length)]
  rfl

theorem linkAt_eq {nodes : List α} {v w : Nat} (h1 : w < v) (h2 : v < nodes.length) (s : σ) :
    linkAt T nodes v w s = T.set s nodes[v] nodes[w] 1 := by
  simp [linkAt, pyGet_nat nodes h2, pyGet_nat nodes (by omega : w < nodes.length)]

theorem linkAt_pair [Inhabited α] {nodes : List α} {e : Nat} (he : e < nodes.length * (nodes.length - 1) / 2) (s : σ) :
    linkAt T nodes (edgeRow e) (edgeCol e) s = T.set s (pairAt nodes e).1 (pairAt nodes e).2 1 := by
  obtain ⟨v, w, h1, rfl, h3, h4⟩ := edge_spec e
  have h2 := lt_of_pairIndex he
  rw [h3, h4, linkAt_eq h1 h2, pairAt_eq h1 h2]

theorem pairAt_mem [Inhabited α] {nodes : List α} (hn : nodes.Nodup) {e : Nat}
    (he : e < nodes.length * (nodes.length - 1) / 2) :
    (pairAt nodes e).1 ∈ nodes ∧ (pairAt nodes e).2 ∈ nodes ∧ (pairAt nodes e).1 ≠ (pairAt nodes e).2 := by
  obtain ⟨v, w, h1, rfl, -⟩ := edge_spec e
  have h2 := lt_of_pairIndex he
  rw [pairAt_eq h1 h2]
  refine ⟨List.getElem_mem _, List.getElem_mem _, fun h => ?_⟩
  have := (List.Nodup.getElem_inj_iff hn).1 h
  omega

theorem pairAt_inj [Inhabited α] {nodes : List α} (hn : nodes.Nodup) {e e' : Nat}
    (he : e < nodes.length * (nodes.length - 1) / 2) (he' : e' < nodes.length * (nodes.length - 1) / 2) :
    (pairAt nodes e = pairAt nodes e' → e = e') ∧ pairAt nodes e ≠ (pairAt nodes e').swap := by
  obtain ⟨v, w, h1, rfl, -⟩ := edge_spec e
  obtain ⟨v', w', h1', rfl, -⟩ := edge_spec e'
  have h2 := lt_of_pairIndex he
  have h2' := lt_of_pairIndex he'
  rw [pairAt_eq h1 h2, pairAt_eq h1' h2']
  simp only [Prod.mk.injEq, Prod.swap_prod_mk, ne_eq, List.Nodup.getElem_inj_iff hn]
  constructor
  · rintro ⟨rfl, rfl⟩; rfl
  · rintro ⟨rfl, rfl⟩; omega

/-- the links written for a list of distinct indices are that many distinct links -/
theorem simple_of_indices [Inhabited α] {nodes : List α} (hn : nodes.Nodup) {l : List Nat} (hl : l.Nodup)
    (hb : ∀ e ∈ l, e < nodes.length * (nodes.length - 1) / 2) :
    Spec.SimpleLinks (· ∈ nodes) (ones (W := W) (l.map (pairAt nodes)) fun _ _ => 0) (l.map (pairAt nodes)) := by
  refine ⟨?_, ?_, ?_, fun a b => rfl⟩
  · refine List.Nodup.map_on (fun x hx y hy h => (pairAt_inj hn (hb x hx) (hb y hy)).1 h) hl
  · intro a b h1 h2
    obtain ⟨e, he, h1⟩ := List.mem_map.1 h1
    obtain ⟨e', he', h2⟩ := List.mem_map.1 h2
    exact (pairAt_inj hn (hb e he) (hb e' he')).2 (by rw [h1, h2]; rfl)
  · intro a b h1
    obtain ⟨e, he, h1⟩ := List.mem_map.1 h1
    have := pairAt_mem hn (hb e he)
    rw [h1] at this
    exact this

theorem erEdges_spec [Inhabited α] (F : Fills T P) {s : σ} {S : α → Prop} {R : α → α → W} (h : P s S R) {nodes : List α}
    (hn : nodes.Nodup) (hS : ∀ x ∈ nodes, S x) {edges : Nat} (hE : edges ≤ nodes.length * (nodes.length - 1) / 2)
    {sample : List Nat} (h1 : sample.Nodup) (h2 : sample.length = edges)
    (h3 : ∀ e ∈ sample, e < nodes.length * (nodes.length - 1) / 2) :
    ∃ s', erEdges T nodes edges sample s = .ok s' ∧ P s' S (ones (sample.map (pairAt nodes)) R) := by
  obtain ⟨s', e1, e2⟩ := F.links h sample (pairAt nodes)
    (g := fun s e => linkAt T nodes (edgeRow e) (edgeCol e) s)
    (fun s x hx => linkAt_pair (h3 x hx) s) (fun x hx => (pairAt_mem hn (h3 x hx)).2.2)
    (fun x hx => ⟨hS _ (pairAt_mem hn (h3 x hx)).1, hS _ (pairAt_mem hn (h3 x hx)).2.1⟩)
  refine ⟨s', ?_, e2⟩
  unfold erEdges
  rw [if_neg (by omega), if_neg (by rw [not_not]; exact ⟨h1, h2, h3⟩), e1]
  rfl

theorem erEdges_ok {s s' : σ} {nodes : List α} {edges : Nat} {sample : List Nat}
    (h : erEdges T nodes edges sample s = .ok s') : edges ≤ nodes.length * (nodes.length - 1) / 2 ∧ sample.Nodup ∧
      sample.length = edges ∧ ∀ e ∈ sample, e < nodes.length * (nodes.length - 1) / 2 := by
  unfold erEdges at h
  simp only at h
  split at h
  · cases h
  · split at h
    · cases h
    · rename_i h1 h2; rw [not_not] at h2; exact ⟨by omega, h2⟩

/-! ### probability 1 -/

theorem erFull_spec (F : Fills T P) {s : σ} {S : α → Prop} {R : α → α → W} (h : P s S R) {nodes : List α}
    (hS : ∀ x ∈ nodes, S x) : ∃ s', erFull T nodes s = .ok s' ∧
      P s' S (fun a b => if a ∈ nodes ∧ b ∈ nodes ∧ a ≠ b then 1 else R a b) := by
  refine (forE_ok (P := fun pre s => P s S (fun a b => if a ≠ b ∧ ((a ∈ pre ∧ b ∈ nodes) ∨ (b ∈ pre ∧ a ∈ nodes))
    then 1 else R a b)) nodes (F.congr h (fun _ => Iff.rfl) (by simp)) ?_).imp fun s' hs => ⟨hs.1, F.congr hs.2
      (fun _ => Iff.rfl) (fun a b => if_congr (by tauto) rfl rfl)⟩
  intro pre a post s1 hl h1
  have ha : a ∈ nodes := by simp [hl]
  refine (forE_ok (P := fun pre' s => P s S (fun x y => if x ≠ y ∧ ((x ∈ pre ∧ y ∈ nodes) ∨ (y ∈ pre ∧ x ∈ nodes) ∨
    (x = a ∧ y ∈ pre') ∨ (y = a ∧ x ∈ pre')) then 1 else R x y)) nodes (F.congr h1 (fun _ => Iff.rfl) (by simp)) ?_).imp
      fun s' hs => ⟨hs.1, F.congr hs.2 (fun _ => Iff.rfl) (fun x y => if_congr ?_ rfl rfl)⟩
  · intro pre' b post' s2 hl' h2
    have hb : b ∈ nodes := by simp [hl']
    by_cases hab : a = b
    · refine ⟨s2, by simp [hab], F.congr h2 (fun _ => Iff.rfl) (fun x y => if_congr ?_ rfl rfl)⟩
      simp only [List.mem_append, List.mem_singleton]
      subst hab
      refine and_congr_right fun hxy => ?_
      constructor
      · tauto
      · rintro (h | h | ⟨rfl, h | h⟩ | ⟨rfl, h | h⟩)
        · tauto
        · tauto
        · tauto
        · exact absurd h.symm hxy
        · tauto
        · exact absurd h hxy
    · obtain ⟨s3, h3, h4⟩ := F.set h2 hab 1
      refine ⟨s3, by rw [if_pos hab]; exact h3, F.congr h4 (fun x => ?_) (fun x y => ?_)⟩
      · constructor
        · rintro (h | rfl | rfl)
          · exact h
          · exact hS _ ha
          · exact hS _ hb
        · exact .inl
      · by_cases hx : (x = a ∧ y = b) ∨ (x = b ∧ y = a)
        · rw [upd, if_pos hx, if_pos]
          rcases hx with ⟨rfl, rfl⟩ | ⟨rfl, rfl⟩
          · exact ⟨hab, by simp⟩
          · exact ⟨fun h => hab h.symm, by simp⟩
        · rw [upd, if_neg hx]
          refine if_congr ?_ rfl rfl
          simp only [List.mem_append, List.mem_singleton]
          tauto
  · simp only [List.mem_append, List.mem_singleton]
    tauto

end

end Pymnet
