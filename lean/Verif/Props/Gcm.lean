import Verif.Model.Gcm
import Mathlib.Analysis.Real.Sqrt
import Mathlib.Algebra.Order.BigOperators.Ring.Finset
import Mathlib.Algebra.BigOperators.Fin
import Mathlib.Tactic.Ring
import Mathlib.Tactic.Positivity
import Mathlib.Tactic.Linarith
import Mathlib.Tactic.FieldSimp
import Mathlib.Algebra.BigOperators.Group.List.Lemmas

/-! Properties C145 and C146: the graphlet correlation matrix. -/

namespace Pymnet

set_option linter.unusedSectionVars false

open Py

namespace Spec

variable {n : ℕ}

/-- The average of the positions that the value `x i` takes when the values are sorted: there are `#{x < x i}` values before
it, and it takes the positions up to `#{x ≤ x i}`. -/
noncomputable def avgRank (x : Fin n → ℝ) (i : Fin n) : ℝ :=
  (((Finset.univ.filter fun k => x k < x i).card : ℝ) + (Finset.univ.filter fun k => x k ≤ x i).card + 1) / 2

/-- The deviation from the mean. -/
noncomputable def dev (a : Fin n → ℝ) (i : Fin n) : ℝ := a i - (∑ k, a k) / n

/-- Pearson's correlation. -/
noncomputable def pearson (a b : Fin n → ℝ) : ℝ :=
  (∑ i, dev a i * dev b i) / Real.sqrt ((∑ i, dev a i ^ 2) * ∑ i, dev b i ^ 2)

/-- All values are equal. -/
def Constant (x : Fin n → ℝ) : Prop := ∀ i j, x i = x j

open Classical in
/-- Spearman's correlation: Pearson's correlation of the ranks, undefined for constants. -/
noncomputable def spearman (x y : Fin n → ℝ) : Option ℝ :=
  if Constant x ∨ Constant y then none else some (pearson (avgRank x) (avgRank y))

/-- The counts of orbit `j`: one number for each node, and a last number 1. -/
noncomputable def countsAndOne {β : Type} (f : Frame β ℝ) (j : ℕ) (i : Fin (f.rows.length + 1)) : ℝ :=
  if h : i.1 < f.rows.length then (f.rows[i.1].2[j]?).getD 0 else 1

end Spec

/-! ### Ranks and correlations of lists given by functions -/

section lists

variable {n : ℕ}

theorem countP_ofFn (x : Fin n → ℝ) (p : ℝ → Prop) [DecidablePred p] :
    (List.ofFn x).countP (fun y => decide (p y)) = (Finset.univ.filter fun k => p (x k)).card := by
  rw [List.ofFn_eq_map, List.countP_map, List.countP_eq_length_filter]
  rfl

theorem rankdata_ofFn (x : Fin n → ℝ) : rankdata (List.ofFn x) = List.ofFn (Spec.avgRank x) := by
  unfold rankdata
  rw [List.map_ofFn]
  congr 1
  funext i
  simp only [Function.comp]
  rw [countP_ofFn x (fun y => y < x i), countP_ofFn x (fun y => y = x i)]
  unfold Spec.avgRank
  have : (Finset.univ.filter fun k => x k ≤ x i).card =
      (Finset.univ.filter fun k => x k < x i).card + (Finset.univ.filter fun k => x k = x i).card := by
    rw [← Finset.card_union_of_disjoint]
    · congr 1
      ext k
      simp [le_iff_lt_or_eq]
    · rw [Finset.disjoint_filter]
      intro k _ h1 h2
      exact absurd h2 h1.ne
  rw [this]
  push_cast
  ring

theorem zipWith_ofFn (a b : Fin n → ℝ) (g : ℝ → ℝ → ℝ) :
    List.zipWith g (List.ofFn a) (List.ofFn b) = List.ofFn fun i => g (a i) (b i) := by
  apply List.ext_getElem <;> simp

theorem covOf_ofFn (a b : Fin n → ℝ) :
    covOf (List.ofFn a) (List.ofFn b) = (∑ i, Spec.dev a i * Spec.dev b i) / ((n : ℝ) - 1) := by
  unfold covOf
  rw [zipWith_ofFn, List.sum_ofFn, List.length_ofFn]
  unfold meanOf Spec.dev
  simp only [List.sum_ofFn, List.length_ofFn]

theorem avgRank_lt {x : Fin n → ℝ} {i j : Fin n} (h : x i < x j) : Spec.avgRank x i < Spec.avgRank x j := by
  unfold Spec.avgRank
  have h1 : (Finset.univ.filter fun k => x k < x i).card ≤ (Finset.univ.filter fun k => x k < x j).card :=
    Finset.card_le_card fun k hk => by
      simp only [Finset.mem_filter, Finset.mem_univ, true_and] at hk ⊢
      exact hk.trans h
  have h2 : (Finset.univ.filter fun k => x k ≤ x i).card < (Finset.univ.filter fun k => x k ≤ x j).card :=
    Finset.card_lt_card ⟨fun k hk => by
      simp only [Finset.mem_filter, Finset.mem_univ, true_and] at hk ⊢
      exact hk.trans h.le, fun hs => by
      have := @hs j (by simp)
      simp only [Finset.mem_filter, Finset.mem_univ, true_and] at this
      exact absurd h this.not_gt⟩
  have h1' : ((Finset.univ.filter fun k => x k < x i).card : ℝ) ≤ (Finset.univ.filter fun k => x k < x j).card := by exact_mod_cast h1
  have h2' : ((Finset.univ.filter fun k => x k ≤ x i).card : ℝ) < (Finset.univ.filter fun k => x k ≤ x j).card := by exact_mod_cast h2
  linarith

theorem sum_dev_sq_eq_zero {a : Fin n → ℝ} : ∑ i, Spec.dev a i * Spec.dev a i = 0 ↔ Spec.Constant a := by
  rw [Finset.sum_eq_zero_iff_of_nonneg fun i _ => mul_self_nonneg _]
  constructor
  · intro h i j
    have h1 := mul_self_eq_zero.1 (h i (Finset.mem_univ _))
    have h2 := mul_self_eq_zero.1 (h j (Finset.mem_univ _))
    unfold Spec.dev at h1 h2
    linarith
  · intro h i _
    rw [mul_self_eq_zero]
    unfold Spec.dev
    have hn : (n : ℝ) ≠ 0 := by
      have := i.pos
      exact_mod_cast this.ne'
    rw [Finset.sum_congr rfl fun k _ => h k i, Finset.sum_const, Finset.card_univ, Fintype.card_fin, nsmul_eq_mul]
    field_simp
    ring

theorem constant_avgRank {x : Fin n → ℝ} : Spec.Constant (Spec.avgRank x) ↔ Spec.Constant x := by
  constructor
  · intro h i j
    rcases lt_trichotomy (x i) (x j) with hl | he | hg
    · exact absurd (h i j) (avgRank_lt hl).ne
    · exact he
    · exact absurd (h j i) (avgRank_lt hg).ne
  · intro h i j
    unfold Spec.avgRank
    rw [h i j]

theorem pearson_sq_le (a b : Fin n → ℝ) : Spec.pearson a b ^ 2 ≤ 1 := by
  unfold Spec.pearson
  rw [div_pow, Real.sq_sqrt (by positivity)]
  exact div_le_one_of_le₀ (Finset.sum_mul_sq_le_sq_mul_sq _ _ _) (by positivity)

theorem pearson_range (a b : Fin n → ℝ) : -1 ≤ Spec.pearson a b ∧ Spec.pearson a b ≤ 1 := by
  have := pearson_sq_le a b
  constructor <;> nlinarith

theorem pearson_self {a : Fin n → ℝ} (h : ¬ Spec.Constant a) : Spec.pearson a a = 1 := by
  unfold Spec.pearson
  have h0 : ∑ i, Spec.dev a i ^ 2 = ∑ i, Spec.dev a i * Spec.dev a i := Finset.sum_congr rfl fun _ _ => pow_two _
  have hne : ∑ i, Spec.dev a i * Spec.dev a i ≠ 0 := fun h' => h (sum_dev_sq_eq_zero.1 h')
  rw [h0, Real.sqrt_mul_self (Finset.sum_nonneg fun _ _ => mul_self_nonneg _), div_self hne]

theorem pearson_comm (a b : Fin n → ℝ) : Spec.pearson a b = Spec.pearson b a := by
  unfold Spec.pearson
  rw [mul_comm (∑ i, Spec.dev a i ^ 2)]
  congr 1
  exact Finset.sum_congr rfl fun _ _ => mul_comm _ _

theorem corrOf_ofFn (h2 : 2 ≤ n) (x y : Fin n → ℝ) :
    corrOf Real.sqrt (rankdata (List.ofFn x)) (rankdata (List.ofFn y)) = Spec.spearman x y := by
  have hn : (0 : ℝ) < (n : ℝ) - 1 := by
    have : (2 : ℝ) ≤ n := by exact_mod_cast h2
    linarith
  have hz : ∀ z : Fin n → ℝ, covOf (rankdata (List.ofFn z)) (rankdata (List.ofFn z)) = 0 ↔ Spec.Constant z := by
    intro z
    rw [rankdata_ofFn, covOf_ofFn, div_eq_zero_iff, or_iff_left hn.ne', sum_dev_sq_eq_zero, constant_avgRank]
  unfold corrOf Spec.spearman
  by_cases h : Spec.Constant x ∨ Spec.Constant y
  · rw [if_pos (by rw [hz, hz]; exact h), if_pos h]
  · rw [if_neg (by rw [hz, hz]; exact h), if_neg h]
    have e : covOf (rankdata (List.ofFn x)) (rankdata (List.ofFn y)) / Real.sqrt (covOf (rankdata (List.ofFn x)) (rankdata (List.ofFn x))) /
        Real.sqrt (covOf (rankdata (List.ofFn y)) (rankdata (List.ofFn y))) = Spec.pearson (Spec.avgRank x) (Spec.avgRank y) := by
      rw [rankdata_ofFn, rankdata_ofFn, covOf_ofFn, covOf_ofFn, covOf_ofFn]
      unfold Spec.pearson
      have s : ∀ a : Fin n → ℝ, ∑ i, Spec.dev a i ^ 2 = ∑ i, Spec.dev a i * Spec.dev a i := fun a =>
        Finset.sum_congr rfl fun _ _ => pow_two _
      have p : ∀ a : Fin n → ℝ, 0 ≤ ∑ i, Spec.dev a i * Spec.dev a i := fun a =>
        Finset.sum_nonneg fun _ _ => mul_self_nonneg _
      rw [s, s, Real.sqrt_mul (p _), Real.sqrt_div (p _), Real.sqrt_div (p _), div_div, div_mul_div_comm,
        Real.mul_self_sqrt hn.le, div_div_div_cancel_right₀ hn.ne']
    rw [e, min_eq_right (pearson_range _ _).2, max_eq_right (pearson_range _ _).1]

theorem constCol_ofFn (hn : 0 < n) (x : Fin n → ℝ) : constCol (List.ofFn x) = true ↔ Spec.Constant x := by
  obtain ⟨m, rfl⟩ : ∃ m, n = m + 1 := ⟨n - 1, by omega⟩
  unfold constCol
  rw [List.ofFn_succ]
  dsimp only
  rw [← List.ofFn_succ, List.all_eq_true]
  constructor
  · intro h i j
    have h1 := h (x i) (List.mem_ofFn.2 ⟨i, rfl⟩)
    have h2 := h (x j) (List.mem_ofFn.2 ⟨j, rfl⟩)
    rw [decide_eq_true_iff] at h1 h2
    rw [← h1, h2]
  · intro h y hy
    obtain ⟨i, rfl⟩ := List.mem_ofFn.1 hy
    exact decide_eq_true (h _ _)

end lists

/-! ### The matrix -/

section matrix

variable {β : Type} [DecidableEq β] {idx : ℕ → β} {f : Frame β ℝ}

theorem colOf_dummy {j : ℕ} (hl : idx f.rows.length ∉ f.rows.map Prod.fst) (hj : j < f.cols) :
    colOf ((f.addDummy idx).rows.map Prod.snd) j = List.ofFn (Spec.countsAndOne f j) := by
  unfold colOf Frame.addDummy locSet
  simp only [if_neg hl]
  apply List.ext_getElem
  · simp
  · intro i h1 h2
    simp only [List.map_map, List.map_append, List.map_cons, List.map_nil, List.getElem_ofFn, Spec.countsAndOne]
    by_cases h : i < f.rows.length
    · rw [List.getElem_append_left (by simpa using h)]
      simp [h]
    · rw [List.getElem_append_right (by simpa using h)]
      simp [h, hj]

/-- `m` is the square matrix of the Spearman correlations of the columns. -/
def Spec.IsSpearmanMatrix (f : Frame β ℝ) (m : List (List (Option ℝ))) : Prop :=
  m.length = f.cols ∧ ∀ i (hi : i < m.length), m[i].length = f.cols ∧
    ∀ j (hj : j < m[i].length), m[i][j] = Spec.spearman (Spec.countsAndOne f i) (Spec.countsAndOne f j)

/-- **C145.** If there are at least three orbits, no node is called `n_rows`, and neither of the first two orbits has count 1
for all nodes, then `GCM` returns the matrix of the Spearman correlations of the orbit counts with one more 1. -/
theorem C145_matrix (h3 : 3 ≤ f.cols) (hl : idx f.rows.length ∉ f.rows.map Prod.fst)
    (h0 : ∃ r ∈ f.rows, r.2[0]? ≠ some 1) (h1 : ∃ r ∈ f.rows, r.2[1]? ≠ some 1) :
    ∃ m, (gcm Real.sqrt idx f).1 = .ok (.inr m) ∧ Spec.IsSpearmanMatrix f m := by
  have hn : 0 < f.rows.length := by
    obtain ⟨r, hr, _⟩ := h0
    exact List.length_pos_of_mem hr
  have hlen : ((f.addDummy idx).rows.map Prod.snd).length = f.rows.length + 1 := by
    unfold Frame.addDummy locSet
    simp only [if_neg hl]
    simp
  have hc : ∀ j, j < f.cols → (∃ r ∈ f.rows, r.2[j]? ≠ some 1) →
      ¬ constCol (colOf ((f.addDummy idx).rows.map Prod.snd) j) = true := by
    rintro j hj ⟨r, hr, hne⟩
    rw [colOf_dummy hl hj, constCol_ofFn (by omega)]
    intro hcon
    obtain ⟨i, hi, rfl⟩ := List.mem_iff_getElem.1 hr
    have := hcon ⟨i, by omega⟩ ⟨f.rows.length, by omega⟩
    unfold Spec.countsAndOne at this
    rw [dif_pos hi, dif_neg (lt_irrefl _), List.getElem?_eq_getElem (by rw [f.rect _ hr]; exact hj), Option.getD_some] at this
    exact hne (by rw [List.getElem?_eq_getElem (by rw [f.rect _ hr]; exact hj), this])
  have hr : (gcm Real.sqrt idx f).1 = .ok (.inr (((List.range f.cols).map fun j =>
      rankdata (colOf ((f.addDummy idx).rows.map Prod.snd) j)).map fun x => ((List.range f.cols).map fun j =>
      rankdata (colOf ((f.addDummy idx).rows.map Prod.snd) j)).map fun y => corrOf Real.sqrt x y)) := by
    unfold gcm spearmanr
    dsimp only
    rw [hlen, if_neg (by omega), if_neg (by omega), if_neg (hc 0 (by omega) h0), if_neg (by omega),
      if_neg (hc 1 (by omega) h1), if_neg (by omega)]
  refine ⟨_, hr, ?_⟩
  · refine ⟨by simp, fun i hi => ⟨by simp, fun j hj => ?_⟩⟩
    simp only [List.length_map, List.length_range] at hi
    simp only [List.getElem_map, List.length_map, List.length_range] at hj
    simp only [List.getElem_map, List.getElem_range]
    rw [colOf_dummy hl hi, colOf_dummy hl hj, corrOf_ofFn (by omega)]

/-- **C145.** The matrix is symmetric. -/
theorem C145_symmetric {m : List (List (Option ℝ))} (h : Spec.IsSpearmanMatrix f m) {i j : ℕ} (hi : i < f.cols) (hj : j < f.cols) :
    (m[i]?.bind (·[j]?)) = (m[j]?.bind (·[i]?)) := by
  obtain ⟨hm, h⟩ := h
  have hi' : i < m.length := by omega
  have hj' : j < m.length := by omega
  have ei := (h i hi').2 j (by rw [(h i hi').1]; exact hj)
  have ej := (h j hj').2 i (by rw [(h j hj').1]; exact hi)
  rw [List.getElem?_eq_getElem hi', List.getElem?_eq_getElem hj', Option.bind_some, Option.bind_some,
    List.getElem?_eq_getElem (by rw [(h i hi').1]; exact hj), List.getElem?_eq_getElem (by rw [(h j hj').1]; exact hi), ei, ej]
  unfold Spec.spearman
  by_cases h : Spec.Constant (Spec.countsAndOne f i) ∨ Spec.Constant (Spec.countsAndOne f j)
  · rw [if_pos h, if_pos h.symm]
  · rw [if_neg h, if_neg (fun h' => h h'.symm), pearson_comm]

theorem constant_countsAndOne {j : ℕ} : Spec.Constant (Spec.countsAndOne f j) ↔ ∀ r ∈ f.rows, (r.2[j]?).getD 0 = 1 := by
  constructor
  · intro h r hr
    obtain ⟨i, hi, rfl⟩ := List.mem_iff_getElem.1 hr
    have := h ⟨i, by omega⟩ ⟨f.rows.length, by omega⟩
    unfold Spec.countsAndOne at this
    rwa [dif_pos hi, dif_neg (lt_irrefl _)] at this
  · intro h
    have : ∀ i, Spec.countsAndOne f j i = 1 := by
      intro i
      unfold Spec.countsAndOne
      split
      · exact h _ (List.getElem_mem _)
      · rfl
    intro i k
    rw [this, this]

/-- **C145.** An entry is undefined exactly if one of the two orbits has count 1 for all nodes; the others lie between -1 and
1, and are 1 on the diagonal. -/
theorem C145_entries {m : List (List (Option ℝ))} (h : Spec.IsSpearmanMatrix f m) {i j : ℕ} (hi : i < f.cols) (hj : j < f.cols) :
    ∃ e, m[i]?.bind (·[j]?) = some e ∧
      (e = none ↔ (∀ r ∈ f.rows, (r.2[i]?).getD 0 = 1) ∨ ∀ r ∈ f.rows, (r.2[j]?).getD 0 = 1) ∧
      (∀ x, e = some x → -1 ≤ x ∧ x ≤ 1) ∧ (∀ x, e = some x → i = j → x = 1) := by
  obtain ⟨hm, h⟩ := h
  have hi' : i < m.length := by omega
  have hj' : j < m[i].length := by rw [(h i hi').1]; exact hj
  refine ⟨_, by rw [List.getElem?_eq_getElem hi', Option.bind_some, List.getElem?_eq_getElem hj'], ?_, ?_, ?_⟩
  all_goals rw [(h i hi').2 j hj']; unfold Spec.spearman; rw [constant_countsAndOne, constant_countsAndOne]
  · split <;> simp_all
  · intro x hx
    split at hx
    · exact absurd hx (by simp)
    · rw [← Option.some.inj hx]; exact pearson_range _ _
  · rintro x hx rfl
    split at hx
    · exact absurd hx (by simp)
    · rename_i hne
      rw [← Option.some.inj hx]
      refine pearson_self ?_
      rw [constant_avgRank, constant_countsAndOne]
      exact fun h => hne (.inl h)

end matrix

/-! ### The order of the nodes -/

section order

variable {K : Type} [Field K] [LinearOrder K]

/-- the rank of `v` among the values of column `j`. -/
def rankIn (rows : List (List K)) (j : ℕ) (v : K) : K :=
  ((colOf rows j).countP (fun y => y < v) : K) + (((colOf rows j).countP (fun y => y = v) : K) + 1) / 2

theorem rankIn_perm {rows rows' : List (List K)} (h : rows.Perm rows') (j : ℕ) : rankIn rows j = rankIn rows' j := by
  funext v
  unfold rankIn colOf
  rw [(h.map _).countP_eq, (h.map _).countP_eq]

theorem rankdata_colOf (rows : List (List K)) (j : ℕ) :
    rankdata (colOf rows j) = rows.map fun r => rankIn rows j (r.getD j 0) := by
  unfold rankdata
  conv_lhs => rw [show colOf rows j = rows.map fun r => r.getD j 0 from rfl]
  rw [List.map_map]
  rfl

theorem covOf_map (rows : List (List K)) (a b : List K → K) :
    covOf (rows.map a) (rows.map b) =
      (rows.map fun r => (a r - (rows.map a).sum / rows.length) * (b r - (rows.map b).sum / rows.length)).sum / ((rows.length : K) - 1) := by
  unfold covOf meanOf
  simp only [List.length_map, List.zipWith_map, List.zipWith_self]

theorem covOf_map_perm {rows rows' : List (List K)} (h : rows.Perm rows') (a b : List K → K) :
    covOf (rows.map a) (rows.map b) = covOf (rows'.map a) (rows'.map b) := by
  rw [covOf_map, covOf_map, (h.map a).sum_eq, (h.map b).sum_eq, h.length_eq]
  rw [(h.map _).sum_eq]

theorem corrOf_perm (s : K → K) {rows rows' : List (List K)} (h : rows.Perm rows') (i j : ℕ) :
    corrOf s (rankdata (colOf rows i)) (rankdata (colOf rows j)) = corrOf s (rankdata (colOf rows' i)) (rankdata (colOf rows' j)) := by
  simp only [rankdata_colOf, rankIn_perm h]
  unfold corrOf
  rw [covOf_map_perm h, covOf_map_perm h, covOf_map_perm h]

theorem constCol_iff (c : List K) : constCol c = true ↔ ∀ x ∈ c, ∀ y ∈ c, x = y := by
  unfold constCol
  cases c with
  | nil => simp
  | cons x c =>
    simp only [List.all_eq_true, decide_eq_true_iff]
    constructor
    · intro h y hy z hz
      rw [← h y hy, ← h z hz]
    · intro h y hy
      exact h _ (List.mem_cons_self ..) _ hy

theorem constCol_perm {rows rows' : List (List K)} (h : rows.Perm rows') (j : ℕ) :
    constCol (colOf rows j) = constCol (colOf rows' j) := by
  rw [Bool.eq_iff_iff, constCol_iff, constCol_iff]
  have : ∀ x, x ∈ colOf rows j ↔ x ∈ colOf rows' j := fun x => (h.map _).mem_iff
  simp only [this]

theorem spearmanr_perm (s : K → K) {rows rows' : List (List K)} (h : rows.Perm rows') (cols : ℕ) :
    spearmanr s rows cols = spearmanr s rows' cols := by
  unfold spearmanr
  simp only [List.map_map, Function.comp_def, corrOf_perm s h, constCol_perm h, h.length_eq]

variable {β : Type} [DecidableEq β] {idx : ℕ → β}

theorem rows_fresh {f : Frame β K} (h : idx f.rows.length ∉ f.rows.map Prod.fst) :
    (f.addDummy idx).rows.map Prod.snd = f.rows.map Prod.snd ++ [List.replicate f.cols 1] := by
  unfold Frame.addDummy locSet
  simp only [if_neg h, List.map_append, List.map_cons, List.map_nil]

/-- **C145.** Neither the names nor the order of the nodes matter, as long as no node is called `n_rows`: frames with the
same rows of counts in any order, labelled in any way, have the same result. -/
theorem C145_order (s : K → K) {f g : Frame β K} (hc : f.cols = g.cols) (hp : (f.rows.map Prod.snd).Perm (g.rows.map Prod.snd))
    (hf : idx f.rows.length ∉ f.rows.map Prod.fst) (hg : idx g.rows.length ∉ g.rows.map Prod.fst) :
    (gcm s idx f).1 = (gcm s idx g).1 := by
  unfold gcm
  dsimp only
  rw [rows_fresh hf, rows_fresh hg, hc]
  exact spearmanr_perm s (hp.append_right _) _

/-! ### What users might expect and does not hold -/

/-- **C146, false: the argument is unchanged.** `GCM` adds a row to the data frame of its caller. -/
theorem C146_false_argument (s : K → K) {f : Frame β K} (h : idx f.rows.length ∉ f.rows.map Prod.fst) :
    (gcm s idx f).2.rows = f.rows ++ [(idx f.rows.length, List.replicate f.cols 1)] := by
  unfold gcm Frame.addDummy locSet
  simp only [if_neg h]

/-- **C146, false: every node counts.** If a node is called `n_rows`, for example the last of nodes called 1, 2, ..., its counts
are overwritten: the result is the same for all counts that this node may have. -/
theorem C146_false_overwritten (s : K → K) {f g : Frame β K} (hc : f.cols = g.cols)
    (hl : f.rows.map Prod.fst = g.rows.map Prod.fst) (h : idx f.rows.length ∈ f.rows.map Prod.fst)
    (hr : ∀ i (hi : i < f.rows.length) (hi' : i < g.rows.length), f.rows[i].1 ≠ idx f.rows.length → f.rows[i] = g.rows[i]) :
    (gcm s idx f).1 = (gcm s idx g).1 ∧ (gcm s idx f).2.rows.length = f.rows.length := by
  have hlen : f.rows.length = g.rows.length := by simpa using congrArg List.length hl
  have hg : idx g.rows.length ∈ g.rows.map Prod.fst := by rw [← hl, ← hlen]; exact h
  have e : (f.addDummy idx).rows = (g.addDummy idx).rows := by
    unfold Frame.addDummy locSet
    simp only [if_pos h, if_pos hg]
    apply List.ext_getElem
    · simpa using hlen
    · intro i h1 h2
      have h1' : i < f.rows.length := by simpa using h1
      have h2' : i < g.rows.length := by simpa using h2
      have el : f.rows[i].1 = g.rows[i].1 := by
        have := List.getElem_of_eq hl (i := i) (by simpa using h1')
        simpa using this
      simp only [List.getElem_map]
      by_cases hh : f.rows[i].1 = idx f.rows.length
      · rw [if_pos hh, if_pos (by rw [← el, hh, hlen])]
        simp only [hlen, hc]
      · rw [if_neg hh, if_neg (by rw [← el, ← hlen]; exact hh)]
        exact hr i h1' h2' hh
  constructor
  · unfold gcm
    dsimp only
    rw [e, hc]
  · unfold gcm Frame.addDummy locSet
    simp only [if_pos h, List.length_map]

/-- **C146, false: the result is a matrix.** If one of the first two orbits has count 1 for all nodes – the degree in a network
of separate pairs – the result is a single `nan`, whatever the other counts. -/
theorem C146_false_ones (s : K → K) {f : Frame β K} (h2 : 2 ≤ f.cols) (hl : idx f.rows.length ∉ f.rows.map Prod.fst)
    (h : (∀ r ∈ f.rows, r.2[0]? = some 1) ∨ ∀ r ∈ f.rows, r.2[1]? = some 1) :
    (gcm s idx f).1 = .ok (.inl none) := by
  have hcol : ∀ j, j < f.cols → (∀ r ∈ f.rows, r.2[j]? = some 1) →
      constCol (colOf (f.rows.map Prod.snd ++ [List.replicate f.cols 1]) j) = true := by
    intro j hj hr
    have : ∀ x ∈ colOf (f.rows.map Prod.snd ++ [List.replicate f.cols 1]) j, x = 1 := by
      intro x hx
      unfold colOf at hx
      simp only [List.map_append, List.map_map, List.mem_append, List.mem_map, Function.comp, List.map_cons, List.map_nil,
        List.mem_singleton] at hx
      rcases hx with ⟨r, hr', rfl⟩ | rfl
      · simp [List.getD_eq_getElem?_getD, hr r hr']
      · simp [List.getD_eq_getElem?_getD, hj]
    rw [constCol_iff]
    intro x hx y hy
    rw [this x hx, this y hy]
  unfold gcm spearmanr
  dsimp only
  rw [rows_fresh hl]
  split
  · rfl
  · rw [if_neg (by omega)]
    rcases h with h | h
    · rw [if_pos (hcol 0 (by omega) h)]
    · split
      · rfl
      · rw [if_neg (by omega), if_pos (hcol 1 (by omega) h)]

/-- **C146, false: the result is a matrix.** With two orbits `GCM` never returns a matrix. -/
theorem C146_false_two (s : K → K) {f : Frame β K} (h : f.cols = 2) : ∃ x, (gcm s idx f).1 = .ok (.inl x) := by
  unfold gcm spearmanr
  dsimp only
  rw [h]
  split
  · exact ⟨_, rfl⟩
  · rw [if_neg (by omega)]
    split
    · exact ⟨_, rfl⟩
    · rw [if_neg (by omega)]
      split
      · exact ⟨_, rfl⟩
      · rw [if_pos rfl]
        exact ⟨_, rfl⟩

end order

/-! ### Examples -/

/-- three nodes with the given names and counts of three orbits -/
def gcmExample (names : ℕ × ℕ × ℕ) : Frame ℕ ℚ where
  rows := [(names.1, [1, 1, 1]), (names.2.1, [1, 1, 2]), (names.2.2, [2, 3, 0])]
  cols := 3
  rect := by simp

/-- the same with real counts -/
def gcmExampleR : Frame ℕ ℝ where
  rows := [(0, [1, 1, 1]), (1, [1, 1, 2]), (2, [2, 3, 0])]
  cols := 3
  rect := by simp

/-- the hypotheses of `C145_matrix` hold -/
example : ∃ m, (gcm Real.sqrt id gcmExampleR).1 = .ok (.inr m) ∧ Spec.IsSpearmanMatrix gcmExampleR m :=
  C145_matrix (by decide) (by decide) ⟨(2, [2, 3, 0]), by simp [gcmExampleR], by simp⟩ ⟨(2, [2, 3, 0]), by simp [gcmExampleR], by simp⟩

/-- nodes in another order and with other names -/
example (s : ℚ → ℚ) : (gcm s id (gcmExample (0, 1, 2))).1 = (gcm s id (gcmExample (7, 8, 9))).1 :=
  C145_order s rfl (.refl _) (by decide) (by decide)

/-- **C146, false: names do not matter.** The nodes 0, 1, 2 have a matrix and the nodes 1, 2, 3 with the same counts have a
single `nan`. -/
theorem C146_false_names (s : ℚ → ℚ) : (∃ m, (gcm s id (gcmExample (0, 1, 2))).1 = .ok (.inr m)) ∧
    (gcm s id (gcmExample (1, 2, 3))).1 = .ok (.inl none) :=
  ⟨⟨_, rfl⟩, rfl⟩

/-- the ranks and covariances are those of a hand computation: counts 1, 1, 2, 1 have ranks 2, 2, 4, 2 -/
example : rankdata ([1, 1, 2, 1] : List ℚ) = [2, 2, 4, 2] ∧ covOf ([2, 2, 4, 2] : List ℚ) [2, 2, 4, 2] = 1 := by
  decide +kernel

/-- `C146_false_overwritten` applies to the nodes 1, 2, 3 -/
example : id (gcmExample (1, 2, 3)).rows.length ∈ (gcmExample (1, 2, 3)).rows.map Prod.fst := by decide

/-- `C146_false_ones` applies to a network of two pairs -/
example (s : ℚ → ℚ) : (gcm s id ⟨[(0, [1, 0, 0]), (1, [1, 0, 0]), (2, [1, 0, 0]), (3, [1, 0, 0])], 3, by simp⟩).1 = .ok (.inl none) :=
  C146_false_ones s (by decide) (by decide) (.inl (by decide))

end Pymnet
