import Verif.Proofs.Modularity
import Verif.Props.Net
import Mathlib.Algebra.BigOperators.Field

/-! The modularity view of a general network. -/

set_option linter.unusedSectionVars false
set_option linter.unusedSimpArgs false

namespace Pymnet

open Py

variable {α W : Type} [DecidableEq α] [DecidableEq W] [Field W] {m : MNet α W} {d : Nat} {al : Bool} {S : Nat → α → Prop}
  {NL : List α → Prop} {R : List α → List α → W}

theorem matches_layer {s b : List α} (hb : b.length = s.length + 1) :
    Spec.Matches (none :: s.map some) b ↔ ∃ j, b = j :: s := by
  cases b with
  | nil => simp at hb
  | cons j b =>
    have hb' : b.length = s.length := by simpa using hb
    constructor
    · intro h
      refine ⟨j, ?_⟩
      congr 1
      refine List.ext_getElem? fun k => ?_
      cases hs : s[k]? with
      | some x => simpa using h (k + 1) x (by simp [hs])
      | none =>
        rw [List.getElem?_eq_none_iff] at hs ⊢
        omega
    · rintro ⟨j', h⟩
      obtain ⟨rfl, rfl⟩ := List.cons.inj h
      intro k x hk
      cases k with
      | zero => simp at hk
      | succ k => simpa using hk

/-- The strength of a node within a layer. -/
theorem str_layer (h : Spec.Looks m d 0 false al S NL R) {N : List α} {Ls : List (List α)} (hsl : m.slices = N :: Ls) (hN : N.Nodup)
    (hLs : Ls.length = d) (i : α) {s : List α} (hs : s ∈ product Ls) :
    m.str (i :: s) (some (none :: s.map some)) = .ok ((N.map fun j => R (i :: s) (j :: s)).sum) := by
  have ls : s.length = d := by rw [length_of_mem_product hs, hLs]
  have hz : m.noEdge = 0 := h.noEdge_eq
  have li : (i :: s).length = d + 1 := by simp [ls]
  unfold MNet.str
  rw [if_neg (by rw [h.directed_eq]; simp), MNet.strOut_spec h.inv]
  have hmem : ∀ b, b ∈ m.iterOut (i :: s) (some (none :: s.map some)) ↔
      ∃ j ∈ N, b = j :: s ∧ R (i :: s) (j :: s) ≠ 0 := by
    intro b
    rw [MNet.mem_iterOut]
    constructor
    · rintro ⟨h1, h2⟩
      have hl := MNet.lk_length h.inv h1
      rw [h.aspects_eq] at hl
      rw [dimsOk_iff (aspects := d) (by simp [Spec.DimsFor, ls]) hl.2] at h2
      obtain ⟨j, rfl⟩ := (matches_layer (by rw [hl.2, ls])).1 (h2 _ rfl)
      have hne := (MNet.reads_ne_noEdge h.inv.l _ _).2 h1
      rw [h.reads_eq hl.1 hl.2, hz] at hne
      have := (h.linked hl.1 hl.2 hne).2.1
      rw [hsl] at this
      simp only [product, List.mem_flatMap, List.mem_map] at this
      obtain ⟨x, hx, y, hy, e⟩ := this
      obtain ⟨rfl, rfl⟩ := List.cons.inj e
      exact ⟨x, hx, rfl, hne⟩
    · rintro ⟨j, hj, rfl, hne⟩
      have lj : (j :: s).length = d + 1 := by simp [ls]
      rw [← h.reads_eq li lj, ← hz, MNet.reads_ne_noEdge h.inv.l] at hne
      refine ⟨hne, ?_⟩
      rw [dimsOk_iff (aspects := d) (by simp [Spec.DimsFor, ls]) lj]
      intro ds e
      rw [← Option.some.inj e]
      exact (matches_layer (by simp)).2 ⟨j, rfl⟩
  have hnd := MNet.iterOut_nodup h.inv.l (i :: s) (some (none :: s.map some))
  have hperm : (m.iterOut (i :: s) (some (none :: s.map some))).Perm
      ((N.filter fun j => R (i :: s) (j :: s) ≠ 0).map fun j => j :: s) := by
    rw [List.perm_ext_iff_of_nodup hnd ((hN.filter _).map fun x y e => (List.cons.inj e).1)]
    intro b
    rw [hmem]
    simp only [List.mem_map, List.mem_filter, decide_eq_true_eq]
    constructor
    · rintro ⟨j, h1, rfl, h2⟩; exact ⟨j, ⟨h1, h2⟩, rfl⟩
    · rintro ⟨j, ⟨h1, h2⟩, rfl⟩; exact ⟨j, h1, rfl, h2⟩
  rw [(hperm.map _).sum_eq, List.map_map]
  have e : ∀ j, ((fun b => m.reads (i :: s) b) ∘ fun j => j :: s) j = R (i :: s) (j :: s) :=
    fun j => h.reads_eq li (by simp [ls])
  rw [List.map_congr_left fun j _ => e j]
  refine congrArg Except.ok ?_
  clear hperm hnd hmem e hN hsl
  induction N with
  | nil => rfl
  | cons x N ih =>
    by_cases hx : R (i :: s) (x :: s) = 0
    · rw [List.filter_cons_of_neg (by simpa using hx), List.map_cons, List.sum_cons, hx, zero_add, ← ih]
    · rw [List.filter_cons_of_pos (by simpa using hx), List.map_cons, List.sum_cons, List.map_cons, List.sum_cons, ← ih]

theorem looks_modSees (h : Spec.Looks m d 0 false al S NL R) (hd : 1 ≤ d) :
    ∃ N Ls, N.Nodup ∧ (∀ x, x ∈ N ↔ S 0 x) ∧ m.slices = N :: Ls ∧
      ModSees m.view m.str N Ls R fun i s => (N.map fun j => R (i :: s) (j :: s)).sum := by
  have hlen : m.slices.length = d + 1 := by rw [h.inv.r.slen, h.aspects_eq]
  obtain ⟨N, Ls, hsl⟩ : ∃ N Ls, m.slices = N :: Ls := by
    cases e : m.slices with
    | nil => rw [e] at hlen; simp at hlen
    | cons N Ls => exact ⟨N, Ls, rfl⟩
  have hLs : Ls.length = d := by rw [hsl] at hlen; simpa using hlen
  obtain ⟨N', h1, h2, h3⟩ := h.layers 0 (by omega)
  have : N' = N := by
    unfold MNet.getLayers at h1
    rw [hsl] at h1
    simp at h1
    exact h1.symm
  subst this
  refine ⟨N', Ls, h2, h3, hsl, ?_, hsl, ?_, ?_, ?_, ?_⟩
  · change m.aspects ≠ 0
    rw [h.aspects_eq]; omega
  · change _ = m.aspects
    rw [h.aspects_eq, hLs]
  · intro s hs
    obtain ⟨k, hk, rfl⟩ := List.getElem_of_mem hs
    obtain ⟨l, g1, g2, -⟩ := h.layers (k + 1) (by omega)
    unfold MNet.getLayers at g1
    rw [hsl, List.getElem?_cons_succ, List.getElem?_eq_getElem hk] at g1
    cases g1
    exact g2
  · intro i s hs
    exact str_layer h hsl h2 hLs i hs
  · intro a ha b hb
    have la : a.length = d + 1 := by rw [length_of_mem_product ha]; simp [hLs]
    have lb : b.length = d + 1 := by rw [length_of_mem_product hb]; simp [hLs]
    change m.getLink _ = _
    rw [MNet.getLink_interleave m (by omega) (by rintro rfl; simp at la), h.reads_eq la lb]

end Pymnet
