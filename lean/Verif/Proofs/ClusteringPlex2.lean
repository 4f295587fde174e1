import Verif.Proofs.ClusteringPlex
import Verif.Proofs.Checks

/-! `cc_barrett_optimized`, `lcc_brodka` and `lcc_criado`. -/

set_option linter.unusedSectionVars false
set_option linter.unusedSimpArgs false

namespace Pymnet

open Py MPlex

variable {α K : Type} [DecidableEq α] [Field K] [LinearOrder K] [IsStrictOrderedRing K] [IntNames α]
  {p : MPlex α K} {N B : Finset α} {M : α → Finset α} {A : α → α → α → K} {u : View α K} {w : α → α → K}

theorem mem_ofToSet {β : Type} [DecidableEq β] (l : List β) (x : β) : x ∈ toSet l ↔ x ∈ l := mem_toSet

theorem barrettOpt_spec (h : PlexL p N B M A) (hu : Mono u N w) (h0 : u.noEdge = 0) (hself : ∀ x, w x x = 0)
    (hw : ∀ i ∈ N, ∀ j ∈ N, w i j = ∑ l ∈ B, A i j l) (hpos : ∀ i j l, 0 ≤ A i j l) {n : α} (hn : n ∈ N) :
    p.barrettOpt u n = .ok (if (Spec.neighbours N (fun i j => w i j ≠ 0) n).card < 2 then none
      else Spec.quotient (Spec.barrettNom N B A n) (Spec.barrettDen N B A n)) := by
  obtain ⟨l, h1, h2, h3, h4, hc⟩ := hu.neigh0 h0 n
  have hzero : ∀ i ∈ N, ∀ j ∈ N, w i j = 0 → ∀ l ∈ B, A i j l = 0 := by
    intro i hi j hj e l hl
    rw [hw i hi j hj] at e
    exact (Finset.sum_eq_zero_iff_of_nonneg fun l _ => hpos i j l).1 e l hl
  have hsome : ∀ i ∈ N, ∀ j ∈ N, w i j ≠ 0 → ∃ l ∈ B, j ∈ M l := by
    intro i hi j hj e
    rw [hw i hi j hj] at e
    obtain ⟨l, hl, hne⟩ := Finset.exists_ne_zero_of_sum_ne_zero e
    exact ⟨l, hl, h.on i j l hl hne⟩
  unfold barrettOpt
  rw [h4, ok_bind, hc]
  by_cases hk : 2 ≤ l.length
  · have hden : p.optDen u n (l.map fun x => [x]) = .ok (Spec.barrettDen N B A n) := by
      unfold optDen
      rw [forE_sum (g := fun jl => ∑ x ∈ N, w n (jl.headD n) * ∑ l ∈ B, max (A n x l) (A (jl.headD n) x l))]
      · rw [zero_add, List.map_map]
        simp only [Function.comp_def, List.headD_cons]
        rw [sum_neighbor h2 h3 (fun i hi => by simp [hi]), barrettDen_eq hw hn]
      · intro jl hjl s
        simp only [List.mem_map] at hjl
        obtain ⟨j, hj, rfl⟩ := hjl
        have hjN := ((h3 j).1 hj).1
        obtain ⟨lj, j1, j2, j3, -, -⟩ := hu.neigh0 h0 j
        simp only [View.name1, ok_bind, List.headD_cons, j1]
        -- the set of neighbours of `n` or `j`
        have hset : ∀ x, [x] ∈ toSet ((l.map fun x => [x]) ++ lj.map fun x => [x]) ↔ x ∈ N ∧ (w n x ≠ 0 ∨ w j x ≠ 0) := by
          intro x
          rw [mem_toSet]
          simp only [List.mem_append, List.mem_map, List.cons.injEq, and_true, exists_eq_right, h3, j3]
          tauto
        have hsing : ∀ b ∈ toSet ((l.map fun x => [x]) ++ lj.map fun x => [x]), ∃ x, b = [x] := by
          intro b hb
          rw [mem_toSet] at hb
          simp only [List.mem_append, List.mem_map] at hb
          rcases hb with ⟨x, -, rfl⟩ | ⟨x, -, rfl⟩ <;> exact ⟨x, rfl⟩
        have hnd : (toSet ((l.map fun x => [x]) ++ lj.map fun x => [x])).Nodup := nodup_toSet
        generalize toSet ((l.map fun x => [x]) ++ lj.map fun x => [x]) = T at hset hsing hnd
        rw [forE_sum (g := fun hl => w n j * ∑ l ∈ B, max (A n (hl.headD n) l) (A j (hl.headD n) l))]
        · congr 2
          have hTm : T = (T.map fun b => b.headD n).map fun x => [x] := by
            rw [List.map_map]
            refine (List.map_id T).symm.trans (List.map_congr_left fun b hb => ?_)
            obtain ⟨x, rfl⟩ := hsing b hb
            rfl
          have hTn : (T.map fun b => b.headD n).Nodup := by
            rw [hTm] at hnd
            exact List.Nodup.of_map _ hnd
          have e1 : (T.map fun hl => w n j * ∑ l ∈ B, max (A n (hl.headD n) l) (A j (hl.headD n) l)).sum =
              ((T.map fun b => b.headD n).map fun x => w n j * ∑ l ∈ B, max (A n x l) (A j x l)).sum := by
            rw [List.map_map]; rfl
          rw [e1, ← List.sum_toFinset _ hTn]
          have hmem : ∀ x, x ∈ (T.map fun b => b.headD n).toFinset ↔ x ∈ N ∧ (w n x ≠ 0 ∨ w j x ≠ 0) := by
            intro x
            rw [List.mem_toFinset, ← hset x]
            constructor
            · intro hx
              rw [hTm]
              exact List.mem_map.2 ⟨x, hx, rfl⟩
            · intro hx
              exact List.mem_map.2 ⟨[x], hx, rfl⟩
          refine Finset.sum_subset (fun x hx => ((hmem x).1 hx).1) fun x hx hm => ?_
          have : w n x = 0 ∧ w j x = 0 := by
            by_contra hcon
            exact hm ((hmem x).2 ⟨hx, by tauto⟩)
          rw [Finset.sum_eq_zero, mul_zero]
          intro l' hl'
          rw [hzero n hn x hx this.1 l' hl', hzero j hjN x hx this.2 l' hl', max_self]
        · intro b hb s
          obtain ⟨x, rfl⟩ := hsing b hb
          obtain ⟨hx, hx'⟩ := (hset x).1 hb
          simp only [View.name1, ok_bind, List.headD_cons]
          obtain ⟨C, hC, hCm, ls, e1, e2, e3⟩ := h.opt x (by
            rcases hx' with h' | h'
            · exact hsome n hn x hx h'
            · exact hsome j hjN x hx h')
          have e1' : p.optLayers x = .ok ls := e1
          rw [e1', ok_bind, h.lay.maxSum n j x e2 e3 hC, ok_bind, hu.num, ok_bind, pure_eq_ok]
          congr 3
          refine Finset.sum_subset hC fun l' hl' hm => ?_
          have hnm : x ∉ M l' := fun hh => hm (hCm l' hl' hh)
          have z1 : A n x l' = 0 := by by_contra hh; exact hnm (h.on n x l' hl' hh)
          have z2 : A j x l' = 0 := by by_contra hh; exact hnm (h.on j x l' hl' hh)
          rw [z1, z2, max_self]
    rw [if_pos (by exact_mod_cast hk), if_neg (by omega), h1, ok_bind, hu.barrettPairs h0 hself n h2 h3, ok_bind,
      hden, ok_bind, pure_eq_ok, barrettNom_eq hw hn]
    congr 1
    unfold Spec.quotient
    by_cases hd : Spec.barrettDen N B A n = 0
    · rw [if_pos hd, if_neg (by simpa using hd)]
    · rw [if_neg hd, if_pos hd]
      congr 1
      congr 1
      field_simp
  · rw [if_neg (by exact_mod_cast hk), if_pos (by omega)]
    rfl

/-! ### Criado et al. -/

theorem criadoNeigh_spec (h : PlexL p N B M A) (n : α) {ls : List α} (l2 : ls.Nodup) (l3 : ∀ x, x ∈ ls ↔ x ∈ B) :
    ∃ nu : List α, p.criadoNeigh n ls = .ok (nu.map fun x => [x]) ∧ nu.Nodup ∧
      ∀ x, x ∈ nu ↔ x ∈ Spec.someLayer N B (fun i j l => A i j l ≠ 0) n := by
  classical
  have key : ∀ (ls : List α), (∀ x ∈ ls, x ∈ B) → ∀ nu : List α, nu.Nodup →
      ∃ nu' : List α, forE (fun nu a => match p.child? (.el a) with
        | none => Except.error Err.keyError
        | some c => do
          let ns ← c.view.neighbors [n]
          pure (ns.foldl sadd nu)) ls (nu.map fun x => [x]) = .ok (nu'.map fun x => [x]) ∧ nu'.Nodup ∧
        ∀ x, x ∈ nu' ↔ x ∈ nu ∨ (x ∈ N ∧ ∃ a ∈ ls, A n x a ≠ 0) := by
    intro ls
    induction ls with
    | nil => intro _ nu hn; exact ⟨nu, rfl, hn, by simp⟩
    | cons a t ih =>
      intro hB nu hn
      obtain ⟨c, c1, c2, c3⟩ := h.kids a (hB a (by simp))
      obtain ⟨l, k1, k2, k3, -, -⟩ := c2.neigh0 c3 n
      have hf : ∀ (l : List α) (nu : List α), nu.Nodup → ∃ nu' : List α,
          (l.map fun x => [x]).foldl sadd (nu.map fun x => [x]) = nu'.map (fun x => [x]) ∧ nu'.Nodup ∧
          ∀ x, x ∈ nu' ↔ x ∈ nu ∨ x ∈ l := by
        intro l
        induction l with
        | nil => intro nu hn; exact ⟨nu, rfl, hn, by simp⟩
        | cons b l ih =>
          intro nu hn
          rw [List.map_cons, List.foldl_cons]
          by_cases hb : b ∈ nu
          · rw [show sadd (nu.map fun x => [x]) [b] = nu.map fun x => [x] by
              unfold sadd; rw [if_pos (by simpa using hb)]]
            obtain ⟨nu', e1, e2, e3⟩ := ih nu hn
            refine ⟨nu', e1, e2, fun x => ?_⟩
            rw [e3, List.mem_cons]
            constructor
            · rintro (h | h)
              · exact Or.inl h
              · exact Or.inr (Or.inr h)
            · rintro (h | rfl | h)
              · exact Or.inl h
              · exact Or.inl hb
              · exact Or.inr h
          · rw [show sadd (nu.map fun x => [x]) [b] = (nu ++ [b]).map fun x => [x] by
              unfold sadd; rw [if_neg (by simpa using hb)]; simp]
            obtain ⟨nu', e1, e2, e3⟩ := ih (nu ++ [b]) (by
              rw [List.nodup_append]
              refine ⟨hn, by simp, ?_⟩
              intro x hx y hy
              simp at hy; subst hy
              rintro rfl; exact hb hx)
            refine ⟨nu', e1, e2, fun x => ?_⟩
            rw [e3]
            simp only [List.mem_append, List.mem_singleton, List.mem_cons]
            tauto
      obtain ⟨nu1, f1, f2, f3⟩ := hf l nu hn
      obtain ⟨nu', e1, e2, e3⟩ := ih (fun x hx => hB x (by simp [hx])) nu1 f2
      refine ⟨nu', ?_, e2, ?_⟩
      · unfold forE
        simp only [c1, k1, ok_bind, pure_eq_ok, f1]
        exact e1
      · intro x
        rw [e3, f3, k3]
        constructor
        · rintro ((h' | ⟨h', h''⟩) | ⟨h', b, hb, h''⟩)
          · exact Or.inl h'
          · exact Or.inr ⟨h.sub a (hB a (by simp)) h', a, by simp, h''⟩
          · exact Or.inr ⟨h', b, by simp [hb], h''⟩
        · rintro (h' | ⟨h', b, hb, h''⟩)
          · exact Or.inl (Or.inl h')
          · rcases List.mem_cons.1 hb with rfl | hb
            · exact Or.inl (Or.inr ⟨h.on n x b (hB b (by simp)) h'', h''⟩)
            · exact Or.inr ⟨h', b, hb, h''⟩
  obtain ⟨nu, e1, e2, e3⟩ := key ls (fun x hx => (l3 x).1 hx) [] (by simp)
  refine ⟨nu, e1, e2, fun x => ?_⟩
  rw [e3]
  simp only [List.not_mem_nil, false_or, Spec.someLayer, Finset.mem_filter, l3]

theorem criado_loop (h : PlexL p N B M A) {ls : List α} (l2 : ls.Nodup) (l3 : ∀ x, x ∈ ls ↔ x ∈ B) {nu : List α}
    (hnu : nu.Nodup) {X : Finset α} (hX : ∀ x, x ∈ nu ↔ x ∈ X) :
    forE (p.criadoStep (nu.map fun x => [x])) ls (0, 0) =
      .ok (∑ a ∈ B, Spec.linksAmong (X ∩ M a) (fun i j l => A i j l ≠ 0) a,
        ∑ a ∈ B, (((X ∩ M a).card : ℚ) * ((X ∩ M a).card - 1))) := by
  classical
  rw [forE_fin (σ := ℕ × ℚ) l2 l3 (g := fun a => (Spec.linksAmong (X ∩ M a) (fun i j l => A i j l ≠ 0) a,
    ((X ∩ M a).card : ℚ) * ((X ∩ M a).card - 1)))]
  · congr 1
    have : ∀ (B : Finset α) (f : α → ℕ) (g : α → ℚ), ∑ a ∈ B, (f a, g a) = (∑ a ∈ B, f a, ∑ a ∈ B, g a) := by
      intro B f g
      ext
      · simp [Prod.fst_sum]
      · simp [Prod.snd_sum]
    rw [this]
    simp
  · intro a ha s
    obtain ⟨c, c1, c2, c3⟩ := h.kids a ha
    unfold criadoStep
    rw [c1]
    simp only
    -- the nodes of the layer among `nu`
    have hna : ((nu.map fun x => [x]).filter fun x => decide (x ∈ (c.slices.headD []).map fun y => [y])) =
        (nu.filter fun x => decide (x ∈ M a)).map fun x => [x] := by
      rw [List.filter_map]
      have : nu.filter ((fun x => decide (x ∈ (c.slices.headD []).map fun y => [y])) ∘ fun x => [x]) =
          nu.filter fun x => decide (x ∈ M a) := by
        apply List.filter_congr
        intro x _
        have : x ∈ c.slices.headD [] ↔ x ∈ M a := c2.mem x
        simp only [Function.comp, List.mem_map, List.cons.injEq, and_true, exists_eq_right, this]
      rw [this]
    rw [hna]
    set na := nu.filter fun x => decide (x ∈ M a) with hnad
    have hnan : na.Nodup := hnu.filter _
    have hnam : ∀ x, x ∈ na ↔ x ∈ X ∩ M a := by
      intro x; simp [hnad, hX]
    have hnaf : na.toFinset = X ∩ M a := by ext x; rw [List.mem_toFinset, hnam]
    obtain ⟨cnt, hcnt⟩ : ∃ cnt : α → ℕ, ∀ x, cnt x = ((X ∩ M a).filter fun y => A x y a ≠ 0).card := ⟨_, fun _ => rfl⟩
    rw [forE_sum (g := fun b => cnt (b.headD a))]
    · rw [ok_bind, pure_eq_ok]
      have hlen : (na.map fun x => [x]).length = (X ∩ M a).card := by
        rw [List.length_map, ← hnaf, List.toFinset_card_of_nodup hnan]
      rw [hlen]
      congr 1
      ext
      · simp only [Prod.fst_add]
        congr 1
        rw [List.map_map]
        simp only [Function.comp_def, List.headD_cons]
        rw [← List.sum_toFinset _ hnan, hnaf]
        unfold Spec.linksAmong
        rw [Finset.card_filter, Finset.sum_product]
        refine Finset.sum_congr rfl fun x _ => ?_
        rw [hcnt, Finset.card_filter]
        refine Finset.sum_congr rfl fun y _ => ?_
        by_cases hxy : A x y a = 0 <;> simp [hxy]
      · rfl
    · intro b hb t
      simp only [List.mem_map] at hb
      obtain ⟨x, hx, rfl⟩ := hb
      obtain ⟨lx, k1, k2, k3, -, -⟩ := c2.neigh0 c3 x
      rw [k1, ok_bind, pure_eq_ok, List.filter_map, List.length_map]
      congr 2
      rw [← List.toFinset_card_of_nodup (k2.filter _), List.headD_cons, hcnt]
      congr 1
      ext y
      simp only [List.mem_toFinset, List.mem_filter, k3, Function.comp, List.mem_map, List.cons.injEq, and_true,
        exists_eq_right, hnam, decide_eq_true_eq, Finset.mem_filter, List.headD_cons, Finset.mem_inter]
      tauto

theorem criado_spec (h : PlexL p N B M A) (n : α) :
    p.criado none n = .ok (Spec.criado N B M (fun i j l => A i j l ≠ 0) n) := by
  obtain ⟨ls, l1, l2, l3⟩ := h.lay.layers
  obtain ⟨nu, e1, e2, e3⟩ := criadoNeigh_spec h n l2 l3
  unfold criado
  rw [l1, ok_bind]
  simp only
  rw [e1, ok_bind, criado_loop h l2 l3 e2 e3, ok_bind, pure_eq_ok]
  congr 1
  unfold Spec.criado Spec.quotient
  push_cast
  congr!

theorem criado_agg (h : PlexL p N B M A) (hu : Mono u N w) (h0 : u.noEdge = 0)
    (hw : ∀ i ∈ N, ∀ j ∈ N, w i j = ∑ l ∈ B, A i j l) (hpos : ∀ i j l, 0 ≤ A i j l) {n : α} (hn : n ∈ N) :
    p.criado (some u) n = .ok (Spec.criado N B M (fun i j l => A i j l ≠ 0) n) := by
  obtain ⟨ls, l1, l2, l3⟩ := h.lay.layers
  obtain ⟨nu, e1, e2, e3, -, -⟩ := hu.neigh0 h0 n
  unfold criado
  rw [l1, ok_bind]
  simp only
  have e3' : ∀ x, x ∈ nu ↔ x ∈ Spec.someLayer N B (fun i j l => A i j l ≠ 0) n := by
    intro x
    rw [e3]
    simp only [Spec.someLayer, Finset.mem_filter]
    refine and_congr_right fun hx => ?_
    rw [hw n hn x hx, ne_eq, Finset.sum_eq_zero_iff_of_nonneg fun l _ => hpos n x l]
    push Not
    rfl
  rw [e1, ok_bind, criado_loop h l2 l3 e2 e3', ok_bind, pure_eq_ok]
  congr 1
  unfold Spec.criado Spec.quotient
  push_cast
  congr!

theorem linksAmong_le {V L : Type} (X : Finset V) {link : V → V → L → Prop} (hself : ∀ x a, ¬ link x x a) (a : L) :
    (Spec.linksAmong X link a : ℚ) ≤ (X.card : ℚ) * (X.card - 1) := by
  classical
  unfold Spec.linksAmong
  have : ((X ×ˢ X).filter fun p => link p.1 p.2 a) ⊆ X.offDiag := by
    rintro ⟨x, y⟩ hxy
    simp only [Finset.mem_filter, Finset.mem_product, Finset.mem_offDiag] at hxy ⊢
    refine ⟨hxy.1.1, hxy.1.2, ?_⟩
    rintro rfl
    exact hself _ _ hxy.2
  have h2 := Finset.card_le_card this
  rw [Finset.offDiag_card] at h2
  have hle : X.card ≤ X.card * X.card := Nat.le_mul_self _
  have h3 : (((X ×ˢ X).filter fun p => link p.1 p.2 a).card : ℚ) ≤ ((X.card * X.card - X.card : ℕ) : ℚ) := by
    exact_mod_cast h2
  rw [Nat.cast_sub hle] at h3
  push_cast at h3
  refine le_trans (le_of_eq ?_) (h3.trans (le_of_eq (by ring)))
  congr!

theorem criado_range {V L : Type} (N : Finset V) (B : Finset L) (M : L → Finset V) {link : V → V → L → Prop}
    (hself : ∀ x a, ¬ link x x a) (u : V) {q : ℚ} (hq : Spec.criado N B M link u = some q) : 0 ≤ q ∧ q ≤ 1 := by
  unfold Spec.criado at hq
  refine quotient_range ?_ ?_ hq
  · exact Finset.sum_nonneg fun a _ => by positivity
  · exact Finset.sum_le_sum fun a _ => linksAmong_le _ hself a

/-! ### Brodka et al. -/

/-- the counts kept by `lcc_brodka` -/
def Counts (D : Dict α ℕ) (cnt : α → ℕ) : Prop :=
  (Dict.keys D).Nodup ∧ (∀ x, (Dict.get D x).getD 0 = cnt x) ∧ ∀ x, x ∈ Dict.keys D ↔ 1 ≤ cnt x

theorem counts_add {D : Dict α ℕ} {cnt : α → ℕ} (h : Counts D cnt) {l : List α} (hl : l.Nodup) :
    ∃ D', forE (fun D x => do
      let y ← View.name1 x
      pure (Dict.set D y ((Dict.get D y).getD 0 + 1))) (l.map fun x => [x]) D = .ok D' ∧
      Counts D' fun x => cnt x + if x ∈ l then 1 else 0 := by
  induction l generalizing D cnt with
  | nil => exact ⟨D, rfl, by simpa using h⟩
  | cons a t ih =>
    rw [List.nodup_cons] at hl
    obtain ⟨h1, h2, h3⟩ := h
    have hD : Counts (Dict.set D a ((Dict.get D a).getD 0 + 1)) fun x => cnt x + if x = a then 1 else 0 := by
      refine ⟨Dict.nodup_keys_set h1 _ _, fun x => ?_, fun x => ?_⟩
      · rw [Dict.get_set]
        by_cases hx : x = a
        · subst hx; simp [h2]
        · rw [if_neg (fun e => hx e.symm), h2]
          simp [hx]
      · rw [Dict.mem_keys, Dict.get_set]
        by_cases hx : x = a
        · subst hx; simp
        · rw [if_neg (fun e => hx e.symm), ← Dict.mem_keys, h3]
          simp [hx]
    obtain ⟨D', e1, e2⟩ := ih hD hl.2
    refine ⟨D', ?_, ?_⟩
    · rw [List.map_cons]
      unfold forE
      simp only [View.name1, ok_bind, pure_eq_ok]
      exact e1
    · have : (fun x => cnt x + if x ∈ a :: t then 1 else 0) = fun x => (cnt x + if x = a then 1 else 0) + if x ∈ t then 1 else 0 := by
        funext x
        by_cases hx : x = a
        · subst hx; simp [hl.1]
        · simp [hx]
      rw [this]
      exact e2

theorem mem_manyLayers {n x : α} {t : ℕ} : x ∈ Spec.manyLayers N B (fun i j l => A i j l ≠ 0) n t ↔
    x ∈ N ∧ 1 ≤ (B.filter fun a => A n x a ≠ 0).card ∧ t ≤ (B.filter fun a => A n x a ≠ 0).card := by
  classical
  unfold Spec.manyLayers
  rw [Finset.mem_filter]
  refine and_congr_right fun _ => ?_
  have : (@Finset.filter _ (fun a => (fun i j l => A i j l ≠ 0) n x a) (fun _ => Classical.propDecidable _) B) =
      B.filter fun a => A n x a ≠ 0 := by
    ext a; simp
  constructor
  · intro h; rw [this] at h; exact h
  · intro h; rw [this]; exact h

theorem brodkaNeigh_spec (h : PlexL p N B M A) (n : α) {ls : List α} (l2 : ls.Nodup) (l3 : ∀ x, x ∈ ls ↔ x ∈ B) (t : ℕ) :
    ∃ th : List α, p.brodkaNeigh n ls t = .ok th ∧ th.Nodup ∧
      ∀ x, x ∈ th ↔ x ∈ Spec.manyLayers N B (fun i j l => A i j l ≠ 0) n t := by
  classical
  have key : ∀ (ls : List α), (∀ x ∈ ls, x ∈ B) → ls.Nodup → ∀ (D : Dict α ℕ) (cnt : α → ℕ), Counts D cnt →
      ∃ D', forE (p.brodkaCount n) ls D = .ok D' ∧
        Counts D' fun x => cnt x + (ls.toFinset.filter fun a => A n x a ≠ 0).card := by
    intro ls
    induction ls with
    | nil => intro _ _ D cnt hD; exact ⟨D, rfl, by simpa using hD⟩
    | cons a s ih =>
      intro hB hnd D cnt hD
      rw [List.nodup_cons] at hnd
      obtain ⟨c, c1, c2, c3⟩ := h.kids a (hB a (by simp))
      obtain ⟨l, k1, k2, k3, -, -⟩ := c2.neigh0 c3 n
      obtain ⟨D1, f1, f2⟩ := counts_add hD k2
      obtain ⟨D', e1, e2⟩ := ih (fun x hx => hB x (by simp [hx])) hnd.2 D1 _ f2
      refine ⟨D', ?_, ?_⟩
      · unfold forE
        rw [show p.brodkaCount n D a = .ok D1 by unfold brodkaCount; rw [c1]; simp only [k1, ok_bind]; exact f1]
        exact e1
      · have : (fun x => cnt x + ((a :: s).toFinset.filter fun a => A n x a ≠ 0).card) =
            fun x => (cnt x + if x ∈ l then 1 else 0) + (s.toFinset.filter fun a => A n x a ≠ 0).card := by
          funext x
          rw [List.toFinset_cons, Finset.filter_insert]
          by_cases hx : A n x a = 0
          · have : x ∉ l := fun hxl => ((k3 x).1 hxl).2 hx
            simp [hx, this]
          · have : x ∈ l := (k3 x).2 ⟨h.on n x a (hB a (by simp)) hx, hx⟩
            rw [if_pos hx, if_pos this, Finset.card_insert_of_notMem (by simp [hnd.1])]
            omega
        rw [this]
        exact e2
  obtain ⟨D, e1, e2, e3, e4⟩ := key ls (fun x hx => (l3 x).1 hx) l2 [] (fun _ => 0) ⟨by simp [Dict.keys], by simp, by simp [Dict.keys]⟩
  have hB : ls.toFinset = B := by ext x; rw [List.mem_toFinset, l3]
  rw [hB] at e3 e4
  simp only [zero_add] at e3 e4
  unfold brodkaNeigh
  rw [e1, ok_bind]
  refine ⟨_, rfl, e2.filter _, fun x => ?_⟩
  rw [List.mem_filter, e4, decide_eq_true_eq, e3]
  rw [mem_manyLayers]
  constructor
  · rintro ⟨h1, h2⟩
    refine ⟨?_, h1, h2⟩
    obtain ⟨a, ha⟩ := Finset.card_pos.1 h1
    rw [Finset.mem_filter] at ha
    exact h.sub a ha.1 (h.on n x a ha.1 ha.2)
  · rintro ⟨-, h1, h2⟩; exact ⟨h1, h2⟩

theorem card_of_list {l : List α} (hn : l.Nodup) {X : Finset α} (hm : ∀ x, x ∈ l ↔ x ∈ X) : l.length = X.card := by
  rw [← List.toFinset_card_of_nodup hn]
  congr 1; ext x; rw [List.mem_toFinset, hm]

/-- `threshold`, where `'all'` (`none`) is the number of layers -/
noncomputable abbrev brodkaSet (N B : Finset α) (A : α → α → α → K) (n : α) (threshold : Option ℕ) : Finset α :=
  Spec.manyLayers N B (fun i j l => A i j l ≠ 0) n (threshold.getD B.card)

theorem brodkaSet_layers {n : α} {t : Option ℕ} (hX : (brodkaSet N B A n t) ≠ ∅) : B.card ≠ 0 := by
  classical
  obtain ⟨x, hx⟩ := Finset.nonempty_iff_ne_empty.2 hX
  rw [mem_manyLayers] at hx
  have := hx.2.1
  have h2 := Finset.card_filter_le B (fun a => A n x a ≠ 0)
  omega

theorem brodka_spec (h : PlexL p N B M A) (n : α) (threshold : Option ℕ) :
    p.brodka n threshold = .ok (Spec.brodka B (brodkaSet N B A n threshold) A) := by
  obtain ⟨ls, l1, l2, l3⟩ := h.lay.layers
  have hlen := card_of_list l2 l3
  obtain ⟨th, e1, e2, e3⟩ := brodkaNeigh_spec h n l2 l3 (threshold.getD B.card)
  have hth := card_of_list e2 e3
  unfold brodka Spec.brodka
  rw [if_pos h.asp, l1, ok_bind, hlen, e1, ok_bind, hth]
  by_cases hX : brodkaSet N B A n threshold = ∅
  · rw [if_pos (by rw [Finset.card_eq_zero]; exact hX), if_pos hX]; rfl
  · rw [if_neg (by rw [Finset.card_eq_zero]; exact hX), if_neg hX]
    rw [forE_fin l2 l3 fun a ha s => forE_fin e2 e3 (fun x _ s => forE_fin e2 e3 (g := fun y => A y x a + A x y a)
      (fun y _ s => by rw [h.lay.num3 y x a ha, ok_bind, h.lay.num3 x y a ha, ok_bind]; rfl) s) s, ok_bind, zero_add]
    unfold divE
    rw [if_neg]
    have h1 : (((brodkaSet N B A n threshold).card : ℕ) : K) ≠ 0 := by
      rw [Nat.cast_ne_zero, Finset.card_ne_zero, Finset.nonempty_iff_ne_empty]; exact hX
    have h2 : ((B.card : ℕ) : K) ≠ 0 := by rw [Nat.cast_ne_zero]; exact brodkaSet_layers hX
    exact mul_ne_zero (mul_ne_zero two_ne_zero h1) h2

theorem brodka_agg (h : PlexL p N B M A) (hu : Mono u N w) (h0 : u.noEdge = 0)
    (hw : ∀ i ∈ N, ∀ j ∈ N, w i j = ∑ l ∈ B, A i j l) (hA : ∀ i j l, A i j l = 0 ∨ A i j l = 1) {n : α} (hn : n ∈ N)
    (threshold : Option ℕ) :
    p.brodkaAgg u n threshold = .ok (Spec.brodka B (brodkaSet N B A n threshold) A) := by
  classical
  obtain ⟨ls, l1, l2, l3⟩ := h.lay.layers
  have hlen := card_of_list l2 l3
  obtain ⟨l, k1, k2, k3, -, -⟩ := hu.neigh0 h0 n
  have hcnt : ∀ x ∈ N, w n x = ((B.filter fun a => A n x a ≠ 0).card : K) := by
    intro x hx
    rw [hw n hn x hx, Finset.card_filter]
    push_cast
    refine Finset.sum_congr rfl fun a _ => ?_
    rcases hA n x a with e | e <;> simp [e]
  have hloop : ∀ (l acc : List α), forE (fun (th : List α) x => do
      let y ← View.name1 x
      let w ← u.num [n, y]
      pure (if ((threshold.getD B.card : ℕ) : K) ≤ w then th ++ [y] else th)) (l.map fun x => [x]) acc =
      .ok (acc ++ l.filter fun y => decide (((threshold.getD B.card : ℕ) : K) ≤ w n y)) := by
    intro l
    induction l with
    | nil => intro acc; simp [forE]
    | cons a s ih =>
      intro acc
      rw [List.map_cons]
      unfold forE
      have e : ((do
        let y ← View.name1 [a]
        let w ← u.num [n, y]
        pure (if ((threshold.getD B.card : ℕ) : K) ≤ w then acc ++ [y] else acc)) : Except Err (List α)) =
          .ok (if ((threshold.getD B.card : ℕ) : K) ≤ w n a then acc ++ [a] else acc) := by
        simp only [View.name1, ok_bind, hu.num, pure_eq_ok]
      rw [e]
      refine (ih _).trans ?_
      rw [List.filter_cons]
      by_cases hc : ((threshold.getD B.card : ℕ) : K) ≤ w n a
      · simp [hc]
      · simp [hc]
  set th := l.filter fun y => decide (((threshold.getD B.card : ℕ) : K) ≤ w n y) with hthd
  have e2 : th.Nodup := k2.filter _
  have e3 : ∀ x, x ∈ th ↔ x ∈ brodkaSet N B A n threshold := by
    intro x
    rw [mem_manyLayers, hthd, List.mem_filter, k3, decide_eq_true_eq]
    constructor
    · rintro ⟨⟨h1, h2⟩, h3⟩
      rw [hcnt x h1] at h2 h3
      refine ⟨h1, ?_, by exact_mod_cast h3⟩
      exact Nat.one_le_iff_ne_zero.2 (by exact_mod_cast h2)
    · rintro ⟨h1, h2, h3⟩
      rw [hcnt x h1]
      refine ⟨⟨h1, ?_⟩, by exact_mod_cast h3⟩
      exact_mod_cast Nat.one_le_iff_ne_zero.1 h2
  have hsub : ∀ x ∈ brodkaSet N B A n threshold, x ∈ N := by
    intro x hx
    exact (mem_manyLayers.1 hx).1
  have hth := card_of_list e2 e3
  unfold brodkaAgg Spec.brodka
  rw [if_pos h.asp, l1, ok_bind, hlen, k1, ok_bind, hloop, ok_bind, List.nil_append, hth]
  by_cases hX : brodkaSet N B A n threshold = ∅
  · rw [if_pos (by rw [Finset.card_eq_zero]; exact hX), if_pos hX]; rfl
  · rw [if_neg (by rw [Finset.card_eq_zero]; exact hX), if_neg hX]
    rw [forE_fin e2 e3 (fun x _ s => forE_fin e2 e3 (g := fun y => w y x + w x y)
      (fun y _ s => by rw [hu.num, ok_bind, hu.num, ok_bind]; rfl) s), ok_bind, zero_add]
    have hsum : ∑ x ∈ brodkaSet N B A n threshold, ∑ y ∈ brodkaSet N B A n threshold, (w y x + w x y) =
        ∑ a ∈ B, ∑ x ∈ brodkaSet N B A n threshold, ∑ y ∈ brodkaSet N B A n threshold, (A y x a + A x y a) := by
      rw [Finset.sum_comm]
      rw [Finset.sum_comm]
      rw [Finset.sum_comm (s := B)]
      refine Finset.sum_congr rfl fun x hx => ?_
      rw [Finset.sum_comm (s := B)]
      refine Finset.sum_congr rfl fun y hy => ?_
      rw [hw y (hsub y hy) x (hsub x hx), hw x (hsub x hx) y (hsub y hy), ← Finset.sum_add_distrib]
    rw [hsum]
    unfold divE
    rw [if_neg]
    have h1 : (((brodkaSet N B A n threshold).card : ℕ) : K) ≠ 0 := by
      rw [Nat.cast_ne_zero, Finset.card_ne_zero, Finset.nonempty_iff_ne_empty]; exact hX
    have h2 : ((B.card : ℕ) : K) ≠ 0 := by rw [Nat.cast_ne_zero]; exact brodkaSet_layers hX
    exact mul_ne_zero (mul_ne_zero two_ne_zero h1) h2

end Pymnet
