import Verif.Proofs.Clustering
import Mathlib.Algebra.Order.BigOperators.Ring.Finset
import Mathlib.Algebra.Order.BigOperators.Group.List

/-! Weighted clustering coefficients of monoplex networks. -/

set_option linter.unusedSectionVars false
set_option linter.unusedSimpArgs false

namespace Pymnet

open Py

variable {α K : Type} [DecidableEq α] [Field K] [LinearOrder K] [IsStrictOrderedRing K]

theorem pairSum_fst {β : Type} (g : β → β → K × K) (l : List β) :
    pairSum g l = (pairSum (fun a b => (g a b).1) l, pairSum (fun a b => (g a b).2) l) := by
  induction l with
  | nil => rfl
  | cons a t ih =>
    have hs : (t.map (g a)).sum = ((t.map fun b => (g a b).1).sum, (t.map fun b => (g a b).2).sum) := by
      clear ih
      induction t with
      | nil => rfl
      | cons b t ih => simp only [List.map_cons, List.sum_cons, ih]; rfl
    simp only [pairSum, ih, hs]
    rfl

/-- extending a double sum over neighbours to all nodes -/
theorem sum_neighbors {β : Type} [DecidableEq β] {N : Finset β} {l : List β} {c : β → K} {g : β → β → K}
    (hl : ∀ x, x ∈ l ↔ x ∈ N ∧ c x ≠ 0) (hg : ∀ i j, c i = 0 ∨ c j = 0 → g i j = 0) :
    ∑ i ∈ l.toFinset, ∑ j ∈ l.toFinset, g i j = ∑ i ∈ N, ∑ j ∈ N, g i j := by
  have hsub : l.toFinset ⊆ N := fun x hx => ((hl x).1 (List.mem_toFinset.1 hx)).1
  have hz : ∀ x ∈ N, x ∉ l.toFinset → c x = 0 := by
    intro x hx hn
    by_contra hc
    exact hn (List.mem_toFinset.2 ((hl x).2 ⟨hx, hc⟩))
  rw [← Finset.sum_subset hsub (f := fun i => ∑ j ∈ N, g i j)]
  · refine Finset.sum_congr rfl fun i _ => ?_
    exact Finset.sum_subset hsub fun j hj hn => hg i j (Or.inr (hz j hj hn))
  · intro i hi hn
    exact Finset.sum_eq_zero fun j _ => hg i j (Or.inl (hz i hi hn))

theorem sum_neighbor {β M : Type} [DecidableEq β] [AddCommMonoid M] {N : Finset β} {l : List β} {c : β → K} {g : β → M}
    (hn : l.Nodup) (hl : ∀ x, x ∈ l ↔ x ∈ N ∧ c x ≠ 0) (hg : ∀ i, c i = 0 → g i = 0) :
    (l.map g).sum = ∑ i ∈ N, g i := by
  rw [← List.sum_toFinset _ hn]
  have hsub : l.toFinset ⊆ N := fun x hx => ((hl x).1 (List.mem_toFinset.1 hx)).1
  refine Finset.sum_subset hsub fun x hx hm => hg x ?_
  by_contra hc
  exact hm (List.mem_toFinset.2 ((hl x).2 ⟨hx, hc⟩))

namespace Mono

variable {v : View α K} {N : Finset α} {w : α → α → K}

theorem zhangPairs (h : Mono v N w) (h0 : v.noEdge = 0) (hself : ∀ x, w x x = 0) (n : α) {l : List α} (hn : l.Nodup)
    (hl : ∀ x, x ∈ l ↔ x ∈ N ∧ w n x ≠ 0) (s : K × K) :
    forPairs (v.zhangPair [n]) (l.map fun x => [x]) s =
      .ok (s.1 + Spec.weightedTriangles N w n / 2, s.2 + Spec.weightedTriads N w n / 2) := by
  have key := forPairs_sum (f := v.zhangPair [n])
    (g := fun a b => (w n (a.headD n) * w n (b.headD n) * w (a.headD n) (b.headD n), w n (a.headD n) * w n (b.headD n)))
    (l := l.map fun x => [x]) (hn.map (fun x y e => by simpa using e)) (by
      intro a ha b hb _ s
      simp only [List.mem_map] at ha hb
      obtain ⟨x, -, rfl⟩ := ha
      obtain ⟨y, -, rfl⟩ := hb
      unfold View.zhangPair
      simp only [h.num2, ok_bind, pure_eq_ok, h0, List.headD_cons]
      congr 1
      by_cases hxy : w x y = 0
      · simp [hxy, Prod.ext_iff]
      · simp [hxy, Prod.ext_iff]) s
  rw [key, pairSum_fst]
  simp only [pairSum_map, List.headD_cons]
  have two : (2 : K) ≠ 0 := two_ne_zero
  have e1 := pairSum_double (g := fun a b => w n a * w n b * w a b) hn
    (fun i _ j _ => by rw [h.sym i j]; ring)
  have e2 := pairSum_double (g := fun a b => w n a * w n b) hn (fun i _ j _ => by ring)
  rw [sum_neighbors hl (by
    intro i j hij
    by_cases he : i = j
    · rw [if_pos he]
    · rw [if_neg he]; rcases hij with h | h <;> simp [h])] at e1 e2
  have f1 : ∑ i ∈ N, ∑ j ∈ N, (if i = j then 0 else w n i * w n j * w i j) = Spec.weightedTriangles N w n := by
    unfold Spec.weightedTriangles
    refine Finset.sum_congr rfl fun i _ => Finset.sum_congr rfl fun j _ => ?_
    by_cases he : i = j
    · rw [if_pos he, he, hself]; ring
    · rw [if_neg he]
  have f2 : ∑ i ∈ N, ∑ j ∈ N, (if i = j then 0 else w n i * w n j) = Spec.weightedTriads N w n := by
    unfold Spec.weightedTriads
    refine Finset.sum_congr rfl fun i _ => Finset.sum_congr rfl fun j _ => ?_
    by_cases he : i = j
    · rw [if_pos he, if_neg (by simpa using he)]
    · rw [if_neg he, if_pos he]
  rw [f1] at e1
  rw [f2] at e2
  rw [← e1, ← e2]
  congr 1
  ext
  · simp only [Prod.fst_add]; ring
  · simp only [Prod.snd_add]; ring

/-- positive weights: a node of degree at least two has a positive sum over pairs of neighbours -/
theorem weightedTriads_pos (hw : ∀ i j, 0 ≤ w i j) (n : α) {l : List α} (hn : l.Nodup)
    (hl : ∀ x, x ∈ l ↔ x ∈ N ∧ w n x ≠ 0) (h2 : 2 ≤ l.length) : 0 < Spec.weightedTriads N w n := by
  obtain ⟨a, b, hab, ha, hb⟩ : ∃ a b, a ≠ b ∧ a ∈ l ∧ b ∈ l := by
    match l, h2 with
    | a :: b :: t, _ => exact ⟨a, b, by rintro rfl; simp at hn, by simp, by simp⟩
  unfold Spec.weightedTriads
  refine Finset.sum_pos' (fun i hi => Finset.sum_nonneg fun j _ => ?_) ⟨a, ((hl a).1 ha).1, ?_⟩
  · split
    · exact mul_nonneg (hw _ _) (hw _ _)
    · exact le_refl _
  refine Finset.sum_pos' (fun j _ => ?_) ⟨b, ((hl b).1 hb).1, ?_⟩
  · split
    · exact mul_nonneg (hw _ _) (hw _ _)
    · exact le_refl _
  rw [if_pos hab]
  exact mul_pos (lt_of_le_of_ne (hw _ _) (Ne.symm ((hl a).1 ha).2)) (lt_of_le_of_ne (hw _ _) (Ne.symm ((hl b).1 hb).2))

theorem weightedTriads_nonneg (hw : ∀ i j, 0 ≤ w i j) (n : α) : 0 ≤ Spec.weightedTriads N w n := by
  unfold Spec.weightedTriads
  refine Finset.sum_nonneg fun i _ => Finset.sum_nonneg fun j _ => ?_
  split
  · exact mul_nonneg (hw _ _) (hw _ _)
  · exact le_refl _

theorem weightedTriangles_nonneg (hw : ∀ i j, 0 ≤ w i j) (n : α) : 0 ≤ Spec.weightedTriangles N w n :=
  Finset.sum_nonneg fun _ _ => Finset.sum_nonneg fun _ _ => mul_nonneg (mul_nonneg (hw _ _) (hw _ _)) (hw _ _)

theorem weightedTriangles_le (hw : ∀ i j, 0 ≤ w i j) (hself : ∀ x, w x x = 0) {M : K} (hM : ∀ i j, w i j ≤ M) (n : α) :
    Spec.weightedTriangles N w n ≤ M * Spec.weightedTriads N w n := by
  unfold Spec.weightedTriangles Spec.weightedTriads
  rw [Finset.mul_sum]
  refine Finset.sum_le_sum fun i _ => ?_
  rw [Finset.mul_sum]
  refine Finset.sum_le_sum fun j _ => ?_
  by_cases he : i = j
  · subst he; simp [hself]
  · rw [if_pos he, mul_comm M]
    exact mul_le_mul_of_nonneg_left (hM i j) (mul_nonneg (hw _ _) (hw _ _))

theorem few_neighbors (n : α) {l : List α} (hn : l.Nodup) (hl : ∀ x, x ∈ l ↔ x ∈ N ∧ w n x ≠ 0)
    (h2 : ¬ 2 ≤ l.length) : Spec.weightedTriads N w n = 0 := by
  unfold Spec.weightedTriads
  refine Finset.sum_eq_zero fun i hi => Finset.sum_eq_zero fun j hj => ?_
  by_cases he : i = j
  · rw [if_neg (by simpa using he)]
  · rw [if_pos he]
    by_contra hne
    have hi' := (hl i).2 ⟨hi, fun e => hne (by simp [e])⟩
    have hj' := (hl j).2 ⟨hj, fun e => hne (by simp [e])⟩
    apply h2
    match l, hi', hj' with
    | [], h, _ => simp at h
    | [a], h, h' => simp at h h'; exact absurd (h.trans h'.symm) he
    | a :: b :: t, _, _ => simp

theorem few_triangles (hself : ∀ x, w x x = 0) (n : α) {l : List α} (hn : l.Nodup)
    (hl : ∀ x, x ∈ l ↔ x ∈ N ∧ w n x ≠ 0) (h2 : ¬ 2 ≤ l.length) : Spec.weightedTriangles N w n = 0 := by
  unfold Spec.weightedTriangles
  refine Finset.sum_eq_zero fun i hi => Finset.sum_eq_zero fun j hj => ?_
  by_cases he : i = j
  · rw [he, hself]; ring
  · by_contra hne
    have hi' := (hl i).2 ⟨hi, fun e => hne (by simp [e])⟩
    have hj' := (hl j).2 ⟨hj, fun e => hne (by simp [e])⟩
    apply h2
    match l, hi', hj' with
    | [], h, _ => simp at h
    | [a], h, h' => simp at h h'; exact absurd (h.trans h'.symm) he
    | a :: b :: t, _, _ => simp

theorem neigh0 (h : Mono v N w) (h0 : v.noEdge = 0) (n : α) : ∃ l : List α, v.neighbors [n] = .ok (l.map fun x => [x]) ∧
    l.Nodup ∧ (∀ x, x ∈ l ↔ x ∈ N ∧ w n x ≠ 0) ∧ v.itemDeg [n] = .ok (l.length : Int) ∧
    (Spec.neighbours N (fun i j => w i j ≠ 0) n).card = l.length := by
  obtain ⟨l, h1, h2, h3, h4⟩ := h.neigh n
  rw [h0] at h3
  exact ⟨l, h1, h2, h3, h4, by rw [neighbours_eq h3, List.toFinset_card_of_nodup h2]⟩

theorem zhang (h : Mono v N w) (h0 : v.noEdge = 0) (hself : ∀ x, w x x = 0) (hw : ∀ i j, 0 ≤ w i j) {M : K}
    (hM : v.maxWeight = .ok M) (hM0 : M ≠ 0) (n : α) :
    v.zhang [n] = .ok (if (Spec.neighbours N (fun i j => w i j ≠ 0) n).card < 2 then none
      else some (Spec.weightedTriangles N w n / (M * Spec.weightedTriads N w n))) := by
  obtain ⟨l, h1, h2, h3, h4, hc⟩ := h.neigh0 h0 n
  unfold View.zhang
  rw [hM, ok_bind, h4, ok_bind, hc]
  by_cases hk : 2 ≤ l.length
  · have hp := weightedTriads_pos hw n h2 h3 hk
    rw [if_pos (by exact_mod_cast hk), if_neg (by omega), h1, ok_bind, h.zhangPairs h0 hself n h2 h3, ok_bind]
    simp only [divE, zero_add]
    rw [if_neg (by simpa using hp.ne'), ok_bind, if_neg hM0, ok_bind, pure_eq_ok]
    congr 2
    field_simp
  · rw [if_neg (by exact_mod_cast hk), if_pos (by omega)]
    rfl

theorem gccZhang (h : Mono v N w) (h0 : v.noEdge = 0) (hself : ∀ x, w x x = 0) {M : K}
    (hM : v.maxWeight = .ok M) (hM0 : M ≠ 0) :
    v.gccZhang = .ok (Spec.quotient (∑ n ∈ N, Spec.weightedTriangles N w n) (M * ∑ n ∈ N, Spec.weightedTriads N w n)) := by
  unfold View.gccZhang
  rw [hM, ok_bind]
  rw [forE_sum (g := fun n => (Spec.weightedTriangles N w n / 2, Spec.weightedTriads N w n / 2)) (by
    intro n _ s
    obtain ⟨l, h1, h2, h3, h4, hc⟩ := h.neigh0 h0 n
    unfold View.zhangStep
    rw [h4, ok_bind]
    by_cases hk : 2 ≤ l.length
    · rw [if_pos (by exact_mod_cast hk), h1, ok_bind, h.zhangPairs h0 hself n h2 h3]
      rfl
    · rw [if_neg (by exact_mod_cast hk), few_neighbors n h2 h3 hk, few_triangles hself n h2 h3 hk]
      simp [pure_eq_ok, Prod.ext_iff])]
  have hN : v.nodes.toFinset = N := by ext x; rw [List.mem_toFinset, h.mem]
  have hs : ∀ l : List α, (l.map fun n => (Spec.weightedTriangles N w n / 2, Spec.weightedTriads N w n / 2)).sum =
      ((l.map fun n => Spec.weightedTriangles N w n).sum / 2, (l.map fun n => Spec.weightedTriads N w n).sum / 2) := by
    intro l
    induction l with
    | nil => simp; rfl
    | cons a t ih =>
      simp only [List.map_cons, List.sum_cons, ih, Prod.mk_add_mk, Prod.mk.injEq]
      constructor <;> ring
  rw [ok_bind, hs, ← List.sum_toFinset _ h.nodup, ← List.sum_toFinset _ h.nodup, hN]
  simp only [Prod.mk_add_mk, zero_add, Spec.quotient, divE]
  by_cases hd : ∑ n ∈ N, Spec.weightedTriads N w n = 0
  · simp [hd, pure_eq_ok]
  · rw [if_pos (by simpa using hd), if_neg hM0, ok_bind, pure_eq_ok, if_neg (by simp [hd, hM0])]
    congr 2
    field_simp

end Mono

/-- `max(map(lambda x:x[2],net.edges))` of an undirected monoplex network -/
theorem Spec.Looks.maxWeight {m : MNet α K} {z : K} {al : Bool} {S : Nat → α → Prop} {NL : List α → Prop}
    {R : List α → List α → K} (h : Spec.Looks m 0 z false al S NL R) :
    ((∀ i j, R [i] [j] = z) ∧ m.view.maxWeight = .error .valueError) ∨
    ∃ M, m.view.maxWeight = .ok M ∧ (∃ i j, R [i] [j] ≠ z ∧ R [i] [j] = M) ∧ ∀ i j, R [i] [j] ≠ z → R [i] [j] ≤ M := by
  obtain ⟨ps, e1, -, e3, -, e5⟩ := h.sound.edges
  obtain ⟨e5, -⟩ := e5 h.directed_eq
  have hz : m.view.noEdge = z := h.noEdge_eq
  have sing : ∀ a ∈ product m.slices, ∃ x, a = [x] := by
    intro a ha
    have := h.sound.length_of_mem ha
    rw [show m.view.aspects = 0 from h.aspects_eq] at this
    match a, this with
    | [x], _ => exact ⟨x, rfl⟩
  have hw : ∀ x, x ∈ (ps.map (View.tuple m.reads)).map Prod.snd ↔ ∃ i j, R [i] [j] ≠ z ∧ R [i] [j] = x := by
    intro x
    simp only [List.map_map, List.mem_map, Function.comp, View.tuple]
    constructor
    · rintro ⟨⟨a, b⟩, hp, rfl⟩
      obtain ⟨p1, p2, p3⟩ := e3 _ hp
      obtain ⟨i, rfl⟩ := sing a p1
      obtain ⟨j, rfl⟩ := sing b p2
      simp only at p3 ⊢
      rw [hz, h.reads_eq rfl rfl] at p3
      rw [h.reads_eq rfl rfl]
      exact ⟨i, j, p3, rfl⟩
    · rintro ⟨i, j, hne, rfl⟩
      have hl := h.linked (u := [i]) (v := [j]) rfl rfl hne
      rcases e5 [i] hl.1.1 [j] hl.2.1 (by rw [h.reads_eq rfl rfl, hz]; exact hne) with hp | hp
      · exact ⟨_, hp, h.reads_eq rfl rfl⟩
      · exact ⟨_, hp, (h.reads_eq rfl rfl).trans (h.sym rfl rfl)⟩
  have hmax : ∀ (ws : List K) (x : K), ws.foldl max x ∈ x :: ws ∧ ∀ y ∈ x :: ws, y ≤ ws.foldl max x := by
    intro ws
    induction ws with
    | nil => intro x; simp
    | cons y ws ih =>
      intro x
      obtain ⟨h1, h2⟩ := ih (max x y)
      rw [List.foldl_cons]
      refine ⟨?_, ?_⟩
      · rcases List.mem_cons.1 h1 with h1 | h1
        · rw [h1]
          rcases max_choice x y with e | e <;> simp [e]
        · simp [h1]
      · intro t ht
        have hm := h2 (max x y) (by simp)
        rcases List.mem_cons.1 ht with rfl | ht
        · exact le_trans (le_max_left _ _) hm
        · rcases List.mem_cons.1 ht with rfl | ht
          · exact le_trans (le_max_right _ _) hm
          · exact h2 t (by simp [ht])
  unfold View.maxWeight
  rw [e1, ok_bind]
  cases hws : (ps.map (View.tuple m.reads)).map Prod.snd with
  | nil =>
    left
    rw [hws] at hw
    refine ⟨fun i j => ?_, rfl⟩
    by_contra hne
    exact absurd ((hw (R [i] [j])).2 ⟨i, j, hne, rfl⟩) (by simp)
  | cons x ws =>
    right
    rw [hws] at hw
    obtain ⟨h1, h2⟩ := hmax ws x
    exact ⟨_, rfl, (hw _).1 h1, fun i j hne => h2 _ ((hw _).2 ⟨i, j, hne, rfl⟩)⟩

end Pymnet
