import Verif.Proofs.Prune
import Verif.Spec.Prune
import Verif.Proofs.Subnet
import Verif.Proofs.Diagnostics

/-! The least distances, the sources and the whole of `dijkstra_mlayer_prune`. -/

set_option linter.unusedSectionVars false
set_option linter.unusedSimpArgs false

namespace Pymnet

open Py Spec

variable {α W : Type} [DecidableEq α] [DecidableEq W]

theorem selectAspects_eq (nl : List α) (aasp : List Nat) : selectAspects nl aasp = reduce aasp nl := by
  unfold selectAspects reduce
  have : ∀ (l : List Nat) (acc : List α),
      l.foldl (fun nnl a => if a ∉ aasp then nnl ++ (nl[a]?).toList else nnl) acc =
        acc ++ (l.filter fun i => i ∉ aasp).filterMap fun i => nl[i]? := by
    intro l
    induction l with
    | nil => simp
    | cons i l ih =>
      intro acc
      rw [List.foldl_cons, ih]
      by_cases hi : i ∈ aasp
      · simp [hi]
      · cases h : nl[i]? <;> simp [hi, h, List.filterMap_cons]
  rw [this]; simp

section
variable [CommRing W] [LinearOrder W] [IsStrictOrderedRing W]

theorem leastDist_spec (aasp : List Nat) (D : Dict (List α) W) (u : List α) (t : W) :
    Dict.get (leastDist aasp D) u = some t ↔
      (∃ p ∈ D, reduce aasp p.1 = u ∧ p.2 = t) ∧ ∀ p ∈ D, reduce aasp p.1 = u → t ≤ p.2 := by
  unfold leastDist
  simp only [selectAspects_eq]
  induction D using List.reverseRecOn generalizing t with
  | nil => simp
  | append_singleton l p ih =>
    rw [List.foldl_append, List.foldl_cons, List.foldl_nil]
    set nd := l.foldl _ ([] : Dict (List α) W) with hnd
    have hnone : Dict.get nd u = none → ∀ q ∈ l, reduce aasp q.1 ≠ u := by
      intro hn q hq hqu
      obtain ⟨q', hq', hmin⟩ := Finset.exists_min_image ((l.filter fun q => reduce aasp q.1 = u).toFinset) Prod.snd
        ⟨q, by simp [hq, hqu]⟩
      simp only [List.mem_toFinset, List.mem_filter, decide_eq_true_eq] at hq' hmin
      have := (ih q'.2).2 ⟨⟨q', hq'.1, hq'.2, rfl⟩, fun r hr hru => hmin r ⟨hr, hru⟩⟩
      rw [hn] at this; cases this
    have hother : reduce aasp p.1 ≠ u → ((Dict.get nd u = some t) ↔
        (∃ q ∈ l ++ [p], reduce aasp q.1 = u ∧ q.2 = t) ∧ ∀ q ∈ l ++ [p], reduce aasp q.1 = u → t ≤ q.2) := by
      intro hpu
      rw [ih t]
      simp only [List.mem_append, List.mem_singleton, or_imp, forall_and, forall_eq, or_and_right, exists_or,
        exists_eq_left, hpu, false_and, or_false, false_imp_iff, and_true]
    by_cases hpu : reduce aasp p.1 = u
    · cases hg : Dict.get nd u with
      | none =>
        rw [hpu, hg]
        simp only [Dict.get_set, if_true, Option.some.injEq]
        have hn := hnone hg
        constructor
        · rintro rfl
          exact ⟨⟨p, by simp, hpu, rfl⟩, fun q hq hqu => by
            rcases List.mem_append.1 hq with hq | hq
            · exact absurd hqu (hn q hq)
            · rw [List.mem_singleton.1 hq]⟩
        · rintro ⟨⟨q, hq, hqu, rfl⟩, -⟩
          rcases List.mem_append.1 hq with hq | hq
          · exact absurd hqu (hn q hq)
          · rw [List.mem_singleton.1 hq]
      | some τ =>
        rw [hpu, hg]
        obtain ⟨⟨q0, hq0, hq0u, hq0t⟩, hmin⟩ := (ih τ).1 hg
        simp only
        split
        · rename_i hlt
          simp only [Dict.get_set, if_true, Option.some.injEq]
          constructor
          · rintro rfl
            refine ⟨⟨p, by simp, hpu, rfl⟩, fun q hq hqu => ?_⟩
            rcases List.mem_append.1 hq with hq | hq
            · exact hlt.le.trans (hmin q hq hqu)
            · rw [List.mem_singleton.1 hq]
          · rintro ⟨⟨q, hq, hqu, rfl⟩, hle⟩
            rcases List.mem_append.1 hq with hq | hq
            · exact absurd (hle p (by simp) hpu) (not_le.2 (hlt.trans_le (hmin q hq hqu)))
            · rw [List.mem_singleton.1 hq]
        · rename_i hlt
          rw [hg, Option.some.injEq]
          constructor
          · rintro rfl
            refine ⟨⟨q0, by simp [hq0], hq0u, hq0t⟩, fun q hq hqu => ?_⟩
            rcases List.mem_append.1 hq with hq | hq
            · exact hmin q hq hqu
            · rw [List.mem_singleton.1 hq]; exact not_lt.1 hlt
          · rintro ⟨⟨q, hq, hqu, rfl⟩, hle⟩
            have h1 := hle q0 (by simp [hq0]) hq0u
            rcases List.mem_append.1 hq with hq | hq
            · exact le_antisymm (hmin q hq hqu) (hq0t ▸ h1)
            · rw [List.mem_singleton.1 hq] at h1 ⊢
              exact le_antisymm (not_lt.1 hlt) (hq0t ▸ h1)
    · rw [← hother hpu]
      have : ∀ w, Dict.get (Dict.set nd (reduce aasp p.1) w) u = Dict.get nd u := by
        intro w; rw [Dict.get_set, if_neg hpu]
      split
      · rw [this]
      · split
        · rw [this]
        · rfl

/-! ### The keys of the distances -/

theorem relax_keys {v : View α W} {t : W} {x : List α} {s s' : DState α W} {y : List α} (h : (Dict.keys s.dist).Nodup)
    (e : relax v t x s y = .ok s') : (Dict.keys s'.dist).Nodup := by
  unfold relax at e
  split at e
  · cases e
  · split at e
    · cases e
    · simp only at e
      split at e
      · rw [← Except.ok.inj e]; exact Dict.nodup_keys_set h _ _
      · rw [← Except.ok.inj e]; exact h

theorem relaxes_keys {v : View α W} {t : W} {x : List α} (l : List (List α)) {s s' : DState α W} (h : (Dict.keys s.dist).Nodup)
    (e : forE (relax v t x) l s = .ok s') : (Dict.keys s'.dist).Nodup := by
  induction l generalizing s with
  | nil => rw [← Except.ok.inj e]; exact h
  | cons y l ih =>
    unfold forE at e
    split at e
    · cases e
    · rename_i s1 h1
      exact ih (relax_keys h h1) e

theorem step_keys {v : View α W} {q : QEntry α W} {s s' : DState α W} (h : (Dict.keys s.dist).Nodup)
    (e : dijkstraStep v q s = .ok s') : (Dict.keys s'.dist).Nodup := by
  unfold dijkstraStep at e
  split at e
  · cases e
  · split at e
    · split at e
      · unfold settle at e
        split at e
        · cases e
        · split at e
          · cases e
          · split at e
            · cases e
            · split at e
              · cases e
              · rename_i f _ _ _ _
                exact relaxes_keys _ (by exact h) e
      · cases e
    · rw [← Except.ok.inj e]; exact h

theorem loop_keys {pop : List (QEntry α W) → QEntry α W × List (QEntry α W)} {v : View α W} (n : Nat) {s s' : DState α W}
    (h : (Dict.keys s.dist).Nodup) (e : dijkstraLoop pop v n s = some (.ok s')) : (Dict.keys s'.dist).Nodup := by
  induction n generalizing s with
  | zero =>
    unfold dijkstraLoop at e
    split at e
    · cases e; exact h
    · cases e
  | succ n ih =>
    unfold dijkstraLoop at e
    split at e
    · cases e; exact h
    · split at e
      · cases e
      · rename_i s1 h1
        exact ih (step_keys (by exact h) h1) e

theorem dijkstra_keys {pop : List (QEntry α W) → QEntry α W × List (QEntry α W)} {v : View α W} {src : List (List α)} {n : Nat}
    {D : Dict (List α) W} {F : MNet α W} (e : v.dijkstra pop src n = some (.ok (D, F))) : (Dict.keys D).Nodup := by
  unfold View.dijkstra at e
  split at e
  · cases e
  · cases e
  · rename_i s hs
    cases e
    refine loop_keys n ?_ hs
    change (Dict.keys (src.foldl (fun d s => Dict.set d s 0) ([] : Dict (List α) W))).Nodup
    have : ∀ (d : Dict (List α) W), (Dict.keys d).Nodup → (Dict.keys (src.foldl (fun d s => Dict.set d s 0) d)).Nodup := by
      clear hs
      induction src with
      | nil => intro d hd; exact hd
      | cons x l ih => intro d hd; exact ih _ (Dict.nodup_keys_set hd _ _)
    exact this [] (by simp [Dict.keys])

/-! ### Pruning -/

theorem forest_paths {Step : List α → List α → Prop} {w : List α → List α → W} {src : List (List α)}
    {NL : List α → Prop} {z : W} {R : List α → List α → W}
    (hL : ∀ a b, LinkStep NL z R a b ↔ (a = b ∧ a ∈ src ∧ w a a ≠ z) ∨ OnShortest Step w src a b) (a b : List α) :
    Relation.ReflTransGen (LinkStep NL z R) a b ↔ Relation.ReflTransGen (OnShortest Step w src) a b := by
  constructor
  · intro h
    induction h with
    | refl => exact .refl
    | tail _ hs ih =>
      rcases (hL _ _).1 hs with ⟨rfl, -⟩ | h'
      · exact ih
      · exact ih.tail h'
  · intro h
    exact Relation.ReflTransGen.mono (fun a b hab => (hL a b).2 (Or.inr hab)) _ _ h

open Classical in
theorem pruneForest_spec {Step : List α → List α → Prop} {w : List α → List α → W} {src : List (List α)} {d : Nat}
    (hd : 1 ≤ d) (aasp : List Nat) {D : Dict (List α) W} {F : MNet α W} (hk : (Dict.keys D).Nodup)
    (hD : ∀ x t, Dict.get D x = some t ↔ IsDist Step w src x t)
    (hw : ∀ a b, Step a b → 0 ≤ w a b) (hdist : ∀ x ℓ, Reaches Step w src x ℓ → ∃ t, Dict.get D x = some t)
    (hF : Looks F d (-1) true false (fun k x => ∃ nl t, IsDist Step w src nl t ∧ nl[k]? = some x)
      (fun nl => ∃ t, IsDist Step w src nl t)
      (fun a b => if (a = b ∧ a ∈ src) ∨ OnShortest Step w src a b then w a b else -1))
    {depth : Nat} (hdepth : D.length < depth) :
    ∃ T, pruneForest d aasp depth D F = some (.ok (leastDist aasp D, T)) ∧
      (∀ u t, Dict.get (leastDist aasp D) u = some t ↔ ∃ x, reduce aasp x = u ∧ Nearest Step w src aasp x t) ∧
      Looks T d (-1) true false
        (fun k x => ∃ a b, Pruned Step w src aasp a b ∧ (a[k]? = some x ∨ b[k]? = some x))
        (fun nl => ∃ a b, Pruned Step w src aasp a b ∧ (nl = a ∨ nl = b))
        (fun a b => if Pruned Step w src aasp a b then w a b else -1) := by
  set NL : List α → Prop := fun nl => ∃ t, IsDist Step w src nl t with hNL
  set R : List α → List α → W := fun a b => if (a = b ∧ a ∈ src) ∨ OnShortest Step w src a b then w a b else -1 with hR
  have hmem : ∀ x t, (x, t) ∈ D ↔ IsDist Step w src x t := fun x t =>
    ⟨fun h => (hD x t).1 (Dict.get_of_mem hk h), fun h => Dict.mem_of_get ((hD x t).2 h)⟩
  have hreach : ∀ x, (∃ ℓ, Reaches Step w src x ℓ) → NL x := by
    rintro x ⟨ℓ, hℓ⟩
    obtain ⟨t, ht⟩ := hdist x ℓ hℓ
    exact ⟨t, (hD x t).1 ht⟩
  have hL : ∀ a b, LinkStep NL (-1) R a b ↔ (a = b ∧ a ∈ src ∧ w a a ≠ -1) ∨ OnShortest Step w src a b := by
    intro a b
    constructor
    · rintro ⟨-, -, h3⟩
      by_cases hc : (a = b ∧ a ∈ src) ∨ OnShortest Step w src a b
      · simp only [hR, if_pos hc] at h3
        rcases hc with ⟨rfl, hs⟩ | hc
        · exact Or.inl ⟨rfl, hs, h3⟩
        · exact Or.inr hc
      · simp only [hR, if_neg hc, ne_eq, not_true_eq_false] at h3
    · rintro (⟨rfl, hs, h3⟩ | hc)
      · have : NL a := hreach a ⟨0, a, hs, .nil _⟩
        refine ⟨this, this, ?_⟩
        simp only [hR]; rw [if_pos (Or.inl ⟨trivial, hs⟩)]; exact h3
      · obtain ⟨hs, ℓ, h1, h2⟩ := hc
        refine ⟨hreach a ⟨ℓ, h1⟩, ⟨_, h2⟩, ?_⟩
        simp only [hR]; rw [if_pos (Or.inr ⟨hs, ℓ, h1, h2⟩)]
        have := hw a b hs
        intro hc
        rw [hc] at this
        have : (0 : W) < 0 := lt_of_le_of_lt this (by simp)
        exact lt_irrefl _ this
  have hnd : ∀ u t, Dict.get (leastDist aasp D) u = some t ↔ ∃ x, reduce aasp x = u ∧ Nearest Step w src aasp x t := by
    intro u t
    rw [leastDist_spec]
    constructor
    · rintro ⟨⟨⟨x, t'⟩, hp, hx, rfl⟩, hmin⟩
      refine ⟨x, hx, (hmem _ _).1 hp, fun y t'' hy hyd => hmin (y, t'') ((hmem _ _).2 hyd) (hy.trans hx)⟩
    · rintro ⟨x, hx, h1, h2⟩
      exact ⟨⟨(x, t), (hmem _ _).2 h1, hx, rfl⟩, fun p hp hpu => h2 p.1 p.2 (hpu.trans hx.symm) ((hmem _ _).1 hp)⟩
  have hbest : ∀ p ∈ D, Dict.get (leastDist aasp D) (reduce aasp p.1) = some p.2 ↔ Nearest Step w src aasp p.1 p.2 := by
    intro p hp
    rw [hnd]
    constructor
    · rintro ⟨x, hx, h1, h2⟩
      exact ⟨(hmem _ _).1 hp, fun y t' hy hyd => h2 y t' (hy.trans hx.symm) hyd⟩
    · intro h; exact ⟨p.1, rfl, h⟩
  have hnls : ∀ x, NL x → x ∈ Dict.keys D := by
    rintro x ⟨t, ht⟩
    exact List.mem_map.2 ⟨(x, t), (hmem _ _).2 ht, rfl⟩
  have hlen : ∀ es x, (bare (Dict.keys D) es x).length < depth := by
    intro es x
    refine lt_of_le_of_lt (List.length_filter_le _ _) ?_
    simpa [Dict.keys] using hdepth
  have key := forO_ok (f := pruneStep aasp (leastDist aasp D) F depth) (s := (MNet.init d (-1) true false : MNet α W))
    (P := fun pre T => ∃ es, Growing NL d (-1) R (fun _ => False) T es ∧
      (∀ p ∈ pre, Nearest Step w src aasp p.1 p.2 → Whole NL (-1) R es p.1) ∧
      ∀ p ∈ es, ∃ q ∈ pre, Nearest Step w src aasp q.1 q.2 ∧ Relation.ReflTransGen (LinkStep NL (-1) R) p.2 q.1) D
    ⟨[], ⟨(Built.init d (-1) true false).congr (by simp) (by simp) (by simp), by simp, by simp⟩, by simp, by simp⟩ (by
      rintro pre p post T hl ⟨es, g, w1, r1⟩
      have hp : p ∈ D := by rw [hl]; simp
      unfold pruneStep
      rw [selectAspects_eq]
      have hpN : NL p.1 := ⟨p.2, (hmem _ _).1 hp⟩
      obtain ⟨t, ht⟩ : ∃ t, Dict.get (leastDist aasp D) (reduce aasp p.1) = some t := by
        obtain ⟨q, hq, hmin⟩ := Finset.exists_min_image ((D.filter fun q => reduce aasp q.1 = reduce aasp p.1).toFinset) Prod.snd
          ⟨p, by simp [hp]⟩
        simp only [List.mem_toFinset, List.mem_filter, decide_eq_true_eq] at hq hmin
        exact ⟨q.2, (leastDist_spec ..).2 ⟨⟨q, hq.1, hq.2, rfl⟩, fun r hr hru => hmin r ⟨hr, hru⟩⟩⟩
      rw [ht]
      simp only
      by_cases htp : t = p.2
      · rw [if_pos htp]
        have hn : Nearest Step w src aasp p.1 p.2 := (hbest p hp).1 (htp ▸ ht)
        obtain ⟨T', es', e1, e2, e3, e4, e5⟩ := buildPath_spec hF hd hnls depth (fun _ => False) T es p.1 hpN (hlen es p.1)
          ⟨g.tree, g.real, fun q hq y hy => (g.whole q hq y hy).imp (fun h => h.elim) id⟩
        refine ⟨T', e1, es', e2, ?_, ?_⟩
        · intro q hq hqn
          rcases List.mem_append.1 hq with hq | hq
          · exact (w1 q hq hqn).mono e3
          · rw [List.mem_singleton.1 hq]; exact e4
        · intro q hq
          rcases e5 q hq with h | h
          · obtain ⟨r, hr, h'⟩ := r1 q h
            exact ⟨r, by simp [hr], h'⟩
          · exact ⟨p, by simp, hn, h⟩
      · rw [if_neg htp]
        refine ⟨T, rfl, es, g, ?_, ?_⟩
        · intro q hq hqn
          rcases List.mem_append.1 hq with hq | hq
          · exact w1 q hq hqn
          · rw [List.mem_singleton.1 hq] at hqn
            have := (hbest p hp).2 hqn
            rw [ht] at this
            exact absurd (Option.some.inj this) htp
        · intro q hq
          obtain ⟨r, hr, h'⟩ := r1 q hq
          exact ⟨r, by simp [hr], h'⟩)
  obtain ⟨T, t1, es, g, w1, r1⟩ := key
  have hes : ∀ a b, (a, b) ∈ es ↔ Pruned Step w src aasp a b := by
    intro a b
    rw [growing_final (best := fun x => ∃ t, Nearest Step w src aasp x t) g (fun x ⟨t, hx⟩ => w1 (x, t) ((hmem _ _).2 hx.1) hx)
      (fun p hp => by obtain ⟨q, hq, h1, h2⟩ := r1 p hp; exact ⟨q.1, ⟨q.2, h1⟩, h2⟩)]
    unfold Leading Pruned
    rw [hL]
    refine and_congr_right fun _ => exists_congr fun x => ?_
    rw [forest_paths hL]
    constructor
    · rintro ⟨⟨t, h1⟩, h2⟩; exact ⟨t, h1, h2⟩
    · rintro ⟨t, h1, h2⟩; exact ⟨⟨t, h1⟩, h2⟩
  refine ⟨T, ?_, hnd, ?_⟩
  · unfold pruneForest
    rw [t1]
  · have hreal := g.real
    have hb := Built.looks g.tree (by omega) (by
      rintro - nl ⟨p, hp, rfl | rfl⟩
      · exact hF.nl_length (g.real p hp).1
      · exact hF.nl_length (g.real p hp).2.1)
    refine hb.congr (fun k _ x => ?_) (fun nl => ?_) (fun a b _ _ => ?_)
    · constructor
      · rintro ⟨p, hp, h⟩; exact ⟨p.1, p.2, (hes _ _).1 hp, h⟩
      · rintro ⟨a, b, hp, h⟩; exact ⟨(a, b), (hes _ _).2 hp, h⟩
    · rw [if_neg (by simp)]
      constructor
      · rintro ⟨p, hp, h⟩; exact ⟨p.1, p.2, (hes _ _).1 hp, h⟩
      · rintro ⟨a, b, hp, h⟩; exact ⟨(a, b), (hes _ _).2 hp, h⟩
    · by_cases hp : (a, b) ∈ es
      · rw [if_pos hp, if_pos ((hes _ _).1 hp)]
        simp only [hR]
        rw [if_pos]
        rcases ((hes a b).1 hp).1 with h | h
        · exact Or.inl ⟨h.1, h.2.1⟩
        · exact Or.inr h
      · rw [if_neg hp, if_neg (fun h => hp ((hes _ _).2 h))]

/-! ### The sources -/

theorem addSources_spec {v : View α W} {aasp : List Nat} {s : List (Option α)} (hslen : v.slices.length = v.aspects + 1)
    (hs : SourceFor v.aspects aasp s) {Lnk : List α → Prop}
    (hdeg : ∀ nl, nl.length = v.aspects + 1 → (∀ (i : Nat) x, nl[i]? = some x → (i ∈ aasp → v.inS i x) ∧
      (i ∉ aasp → s[i]? = some (some x))) → ∃ k, v.deg nl none = .ok k ∧ (0 < k ↔ Lnk nl))
    (hLnk : ∀ nl, Lnk nl → nl ∈ product v.slices) (acc : List (List α)) :
    ∃ acc', v.addSources aasp acc s = .ok acc' ∧ ∀ nl, nl ∈ acc' ↔ nl ∈ acc ∨
      (Lnk nl ∧ ∀ (i : Nat) x, i ∉ aasp → nl[i]? = some x → s[i]? = some (some x)) := by
  have h1 := forE_ok (f := v.addChoice aasp s) (s := []) (List.range (v.aspects + 1))
    (P := fun pre ls => ls.length = pre.length ∧ ∀ (i : Nat) l, ls[i]? = some l →
      (i ∈ aasp → v.slices[i]? = some l) ∧ (i ∉ aasp → ∃ x, s[i]? = some x ∧ l = x.toList)) ⟨rfl, by simp⟩ (by
      rintro pre a post ls hl ⟨g1, g2⟩
      have ha : a = pre.length := by
        have := congrArg (fun l => l[pre.length]?) hl
        simp only [List.getElem?_append_right (le_refl _), Nat.sub_self, List.getElem?_cons_zero] at this
        rw [List.getElem?_range] at this
        · exact (Option.some.inj this).symm
        · have := congrArg List.length hl
          simp at this; omega
      have hlt : a < v.aspects + 1 := by
        have := congrArg List.length hl
        simp at this; omega
      obtain ⟨x, hx⟩ : ∃ x, s[a]? = some x := ⟨s[a]'(by have := hs.1; omega), List.getElem?_eq_getElem _⟩
      have hsl : v.slices[a]? = some (v.slices[a]'(by omega)) := List.getElem?_eq_getElem _
      have step : ∀ l, v.choices aasp s a = .ok l → ((a ∈ aasp → v.slices[a]? = some l) ∧
          (a ∉ aasp → ∃ x, s[a]? = some x ∧ l = x.toList)) →
          ∃ s', v.addChoice aasp s ls a = .ok s' ∧ s'.length = (pre ++ [a]).length ∧ ∀ (i : Nat) l, s'[i]? = some l →
      (i ∈ aasp → v.slices[i]? = some l) ∧ (i ∉ aasp → ∃ x, s[i]? = some x ∧ l = x.toList) := by
        intro l hc hl'
        refine ⟨ls ++ [l], by unfold View.addChoice; rw [hc], by simp [g1], fun i l' hi => ?_⟩
        rcases Nat.lt_trichotomy i ls.length with h | h | h
        · rw [List.getElem?_append_left h] at hi
          exact g2 i l' hi
        · rw [h, List.getElem?_append_right (le_refl _)] at hi
          simp only [Nat.sub_self, List.getElem?_cons_zero, Option.some.injEq] at hi
          subst hi
          rw [h, g1, ← ha]
          exact hl'
        · rw [List.getElem?_eq_none (by simp; omega)] at hi
          cases hi
      by_cases haa : a ∈ aasp
      · have hx' : x = none := by
          have := hs.2 a haa (by omega)
          rw [hx] at this
          exact Option.some.inj this
        refine step (v.slices[a]'(by omega)) ?_ ⟨fun _ => hsl, fun h => absurd haa h⟩
        unfold View.choices
        rw [hx, hx']
        simp only [haa, if_true, hsl]
      · refine step x.toList ?_ ⟨fun h => absurd h haa, fun _ => ⟨x, hx, rfl⟩⟩
        unfold View.choices
        rw [hx]
        simp only [haa, if_false])
  obtain ⟨ls, e1, e2, e3⟩ := h1
  rw [List.length_range] at e2
  have hprod : ∀ nl, nl ∈ product ls ↔ nl.length = v.aspects + 1 ∧ ∀ (i : Nat) x, nl[i]? = some x →
      (i ∈ aasp → v.inS i x) ∧ (i ∉ aasp → s[i]? = some (some x)) := by
    intro nl
    rw [mem_product_get, e2]
    refine and_congr_right fun hl => forall_congr' fun i => forall_congr' fun x => ?_
    constructor
    · intro h hi
      have hlt := (List.getElem?_eq_some_iff.1 hi).1
      obtain ⟨l, hl1, hl2⟩ := h hi
      obtain ⟨c1, c2⟩ := e3 i l hl1
      refine ⟨fun ha => ⟨l, c1 ha, hl2⟩, fun ha => ?_⟩
      obtain ⟨y, hy, rfl⟩ := c2 ha
      rw [hy]
      cases y with
      | none => simp at hl2
      | some y => simp at hl2; rw [hl2]
    · intro h hi
      have hlt := (List.getElem?_eq_some_iff.1 hi).1
      have hls : ls[i]? = some (ls[i]'(by omega)) := List.getElem?_eq_getElem _
      obtain ⟨c1, c2⟩ := e3 i _ hls
      refine ⟨_, hls, ?_⟩
      by_cases ha : i ∈ aasp
      · obtain ⟨l, hl1, hl2⟩ := (h hi).1 ha
        rw [c1 ha] at hl1
        rw [Option.some.inj hl1]; exact hl2
      · obtain ⟨y, hy, hyl⟩ := c2 ha
        have := (h hi).2 ha
        rw [hy] at this
        rw [hyl, Option.some.inj this]; simp
  have h2 := forE_ok (f := v.addSource) (s := acc) (product ls)
    (P := fun pre acc' => ∀ nl, nl ∈ acc' ↔ nl ∈ acc ∨ (nl ∈ pre ∧ Lnk nl)) (by simp) (by
      intro pre nl post acc1 hl h
      have hnl := (hprod nl).1 (by rw [hl]; simp)
      obtain ⟨k, k1, k2⟩ := hdeg nl hnl.1 hnl.2
      refine ⟨_, by unfold View.addSource; rw [View.itemDeg_eq hnl.1, k1], fun y => ?_⟩
      split
      · rename_i hk
        simp only [List.mem_append, List.mem_singleton, h]
        constructor
        · rintro ((h' | h') | rfl)
          · exact Or.inl h'
          · exact Or.inr ⟨Or.inl h'.1, h'.2⟩
          · exact Or.inr ⟨Or.inr rfl, k2.1 hk⟩
        · rintro (h' | ⟨h' | h', h''⟩)
          · exact Or.inl (Or.inl h')
          · exact Or.inl (Or.inr ⟨h', h''⟩)
          · exact Or.inr h'
      · rename_i hk
        simp only [List.mem_append, List.mem_singleton, h]
        constructor
        · rintro (h' | h')
          · exact Or.inl h'
          · exact Or.inr ⟨Or.inl h'.1, h'.2⟩
        · rintro (h' | ⟨h' | rfl, h''⟩)
          · exact Or.inl h'
          · exact Or.inr ⟨h', h''⟩
          · exact absurd (k2.2 h'') hk)
  obtain ⟨acc', a1, a2⟩ := h2
  refine ⟨acc', by unfold View.addSources; rw [e1]; exact a1, fun nl => (a2 nl).trans (or_congr_right ?_)⟩
  rw [hprod]
  constructor
  · rintro ⟨⟨-, h⟩, hL⟩
    exact ⟨hL, fun i x hi hx => (h i x hx).2 hi⟩
  · rintro ⟨hL, h⟩
    have hp := hLnk nl hL
    rw [mem_product_get] at hp
    refine ⟨⟨hp.1.trans hslen, fun i x hx => ⟨fun _ => ?_, fun hi => h i x hi hx⟩⟩, hL⟩
    exact hp.2 i x hx

open Classical in
theorem dijkstraPrune_spec {v : View α W} {R : List α → List α → W} (hv : v.Sound R) (hasp : 1 ≤ v.aspects)
    {NL : List α → Prop} {R' : List α → List α → W} {aasp : List Nat} {sources : List (List (Option α))}
    {pop : List (QEntry α W) → QEntry α W × List (QEntry α W)}
    (hNL : ∃ l, v.nodeLayers = .ok l ∧ ∀ nl, nl ∈ l ↔ NL nl) (hR : ∀ a b, NL a → NL b → R a b = R' a b)
    (hn : ∀ a b, NL a → NL b → R' a b ≠ v.noEdge → 0 ≤ R' a b) (hpop : PopsLeast pop)
    (hsrc : ∀ s ∈ sources, SourceFor v.aspects aasp s)
    (hdeg : ∀ s ∈ sources, ∀ nl, nl.length = v.aspects + 1 → (∀ (i : Nat) x, nl[i]? = some x → (i ∈ aasp → v.inS i x) ∧
      (i ∉ aasp → s[i]? = some (some x))) → ∃ k, v.deg nl none = .ok k ∧
        (0 < k ↔ ∃ b, LinkStep NL v.noEdge R' nl b ∨ LinkStep NL v.noEdge R' b nl)) :
    ∃ src, (∀ nl, nl ∈ src ↔ Starts NL v.noEdge R' aasp sources nl) ∧
      (∀ fuel depth r, {nl | NL nl}.ncard < depth → v.dijkstraPrune pop sources aasp fuel depth = some r → ∃ N T, r = .ok (N, T) ∧
        (∀ u t, Dict.get N u = some t ↔
          ∃ x, reduce aasp x = u ∧ Nearest (LinkStep NL v.noEdge R') R' src aasp x t) ∧
        Looks T v.aspects (-1) true false
          (fun k x => ∃ a b, Pruned (LinkStep NL v.noEdge R') R' src aasp a b ∧ (a[k]? = some x ∨ b[k]? = some x))
          (fun nl => ∃ a b, Pruned (LinkStep NL v.noEdge R') R' src aasp a b ∧ (nl = a ∨ nl = b))
          (fun a b => if Pruned (LinkStep NL v.noEdge R') R' src aasp a b then R' a b else -1)) ∧
      ∀ depth, {nl | NL nl}.ncard < depth → ((∃ fuel r, v.dijkstraPrune pop sources aasp fuel depth = some r) ↔
        ∀ x ℓ, Reaches (LinkStep NL v.noEdge R') R' src x ℓ → ¬ OnZeroCycle (LinkStep NL v.noEdge R') R' x) := by
  obtain ⟨l, l1, lnd, l3, -⟩ := hv.nls
  obtain ⟨l', l1', l2⟩ := hNL
  have : l' = l := Except.ok.inj (l1'.symm.trans l1)
  subst this
  have hNprod : ∀ nl, NL nl → nl ∈ product v.slices := fun nl h => l3 nl ((l2 nl).2 h)
  have hLnk : ∀ nl, (∃ b, LinkStep NL v.noEdge R' nl b ∨ LinkStep NL v.noEdge R' b nl) → NL nl := by
    rintro nl ⟨b, h | h⟩
    · exact h.1
    · exact h.2.1
  have h1 := forE_ok (f := v.addSources aasp) (s := []) sources
    (P := fun pre acc => ∀ nl, nl ∈ acc ↔ Starts NL v.noEdge R' aasp pre nl) (by simp [Starts]) (by
      intro pre s post acc hl h
      have hs : s ∈ sources := by rw [hl]; simp
      obtain ⟨acc', a1, a2⟩ := addSources_spec hv.slen (hsrc s hs) (hdeg s hs) (fun nl h => hNprod nl (hLnk nl h)) acc
      refine ⟨acc', a1, fun nl => (a2 nl).trans ?_⟩
      rw [h]
      unfold Starts
      simp only [List.mem_append, List.mem_singleton, or_and_right, exists_or, exists_eq_left, and_or_left])
  obtain ⟨src, s1, s2⟩ := h1
  have hsN : ∀ x ∈ src, NL x := fun x hx => hLnk x ((s2 x).1 hx).1
  obtain ⟨d1, d2⟩ := dijkstra_spec (v := v) (NL := NL) (R' := R') hv ⟨l', l1', l2⟩ hR hn hsN hpop
  have hcard : {nl | NL nl}.ncard = l'.length := MNet.ncard_of_list lnd (by intro a; exact l2 a)
  have hreachN : ∀ x ℓ, Reaches (LinkStep NL v.noEdge R') R' src x ℓ → NL x := by
    rintro x ℓ ⟨a, ha, hw⟩
    cases hw with
    | nil => exact hsN _ ha
    | snoc _ h => exact h.2.1
  have run : ∀ fuel depth r, {nl | NL nl}.ncard < depth → v.dijkstra pop src fuel = some r → ∃ N T,
      v.dijkstraPrune pop sources aasp fuel depth = some (.ok (N, T)) ∧
        (∀ u t, Dict.get N u = some t ↔
          ∃ x, reduce aasp x = u ∧ Nearest (LinkStep NL v.noEdge R') R' src aasp x t) ∧
        Looks T v.aspects (-1) true false
          (fun k x => ∃ a b, Pruned (LinkStep NL v.noEdge R') R' src aasp a b ∧ (a[k]? = some x ∨ b[k]? = some x))
          (fun nl => ∃ a b, Pruned (LinkStep NL v.noEdge R') R' src aasp a b ∧ (nl = a ∨ nl = b))
          (fun a b => if Pruned (LinkStep NL v.noEdge R') R' src aasp a b then R' a b else -1) := by
    intro fuel depth r hdepth hr
    obtain ⟨D, F, rfl, e1, e2, e3⟩ := d1 fuel r hr
    have hk := dijkstra_keys hr
    have hlen : D.length < depth := by
      refine lt_of_le_of_lt ?_ (hcard ▸ hdepth)
      have : (Dict.keys D).length ≤ l'.length := by
        refine (List.Nodup.subperm hk ?_).length_le
        intro x hx
        obtain ⟨t, ht⟩ := Option.isSome_iff_exists.1 (Dict.mem_keys.1 hx)
        exact (l2 x).2 (hreachN x t ((e1 x t).1 ht).1)
      simpa [Dict.keys] using this
    have h0 : decide (v.aspects = 0) = false := by simp; omega
    rw [h0] at e3
    obtain ⟨T, t1, t2, t3⟩ := pruneForest_spec hasp aasp hk e1 (fun a b h => hn a b h.1 h.2.1 h.2.2) e2 e3 hlen
    refine ⟨_, T, ?_, t2, t3⟩
    unfold View.dijkstraPrune
    rw [s1]
    simp only [hr]
    exact t1
  refine ⟨src, s2, fun fuel depth r hdepth hr => ?_, fun depth hdepth => ?_⟩
  · cases hdj : v.dijkstra pop src fuel with
    | none =>
      unfold View.dijkstraPrune at hr
      rw [s1] at hr
      simp only [hdj] at hr
      cases hr
    | some r' =>
      obtain ⟨N, T, n1, n2, n3⟩ := run fuel depth r' hdepth hdj
      rw [hr] at n1
      exact ⟨N, T, Option.some.inj n1, n2, n3⟩
  · rw [← d2]
    constructor
    · rintro ⟨fuel, r, hr⟩
      cases hdj : v.dijkstra pop src fuel with
      | none =>
        unfold View.dijkstraPrune at hr
        rw [s1] at hr
        simp only [hdj] at hr
        cases hr
      | some r' => exact ⟨fuel, r', hdj⟩
    · rintro ⟨fuel, r, hr⟩
      obtain ⟨N, T, n1, -⟩ := run fuel depth r hdepth hr
      exact ⟨fuel, _, n1⟩

end

end Pymnet
