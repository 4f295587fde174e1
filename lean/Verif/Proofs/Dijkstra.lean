import Verif.Spec.Diagnostics
import Verif.Proofs.Edges
import Verif.Proofs.Looks
import Mathlib.Tactic.Linarith

/-! `dijkstra`: invariant, partial correctness, termination and non-termination. -/

set_option linter.unusedSectionVars false
set_option linter.unusedSimpArgs false

namespace Pymnet

open Py

namespace Spec.Walk

variable {V W : Type} [CommRing W] [LinearOrder W] [IsStrictOrderedRing W] {Step : V → V → Prop} {w : V → V → W}

theorem trans {a b c : V} {ℓ m : W} (h : Walk Step w a b ℓ) (h' : Walk Step w b c m) : Walk Step w a c (ℓ + m) := by
  induction h' with
  | nil => simpa using h
  | snoc _ hs ih => have := ih.snoc hs; rwa [add_assoc] at this

theorem single {a b : V} (h : Step a b) : Walk Step w a b (w a b) := by
  have := (Walk.nil (Step := Step) (w := w) a).snoc h; rwa [zero_add] at this

theorem nonneg (hn : ∀ a b, Step a b → 0 ≤ w a b) {a b : V} {ℓ : W} (h : Walk Step w a b ℓ) : 0 ≤ ℓ := by
  induction h with
  | nil => exact le_refl _
  | snoc _ hs ih => exact add_nonneg ih (hn _ _ hs)

theorem uncons {a b : V} {ℓ : W} (h : Walk Step w a b ℓ) :
    (a = b ∧ ℓ = 0) ∨ ∃ c m, Step a c ∧ Walk Step w c b m ∧ ℓ = w a c + m := by
  induction h with
  | nil => exact Or.inl ⟨rfl, rfl⟩
  | @snoc b c ℓ h' hs ih =>
    rcases ih with ⟨rfl, rfl⟩ | ⟨e, m, h1, h2, rfl⟩
    · exact Or.inr ⟨c, 0, hs, .nil c, by ring⟩
    · exact Or.inr ⟨e, _, h1, h2.snoc hs, by ring⟩

end Spec.Walk

open Spec (Walk Reaches IsDist OnShortest OnZeroCycle)

variable {α W : Type} [DecidableEq α] [DecidableEq W] [CommRing W] [LinearOrder W] [IsStrictOrderedRing W]

/-- A step of the network. -/
def View.Step (v : View α W) (R : List α → List α → W) (a b : List α) : Prop :=
  a ∈ product v.slices ∧ b ∈ product v.slices ∧ R a b ≠ v.noEdge

theorem IsDist.unique {V : Type} {Step : V → V → Prop} {w : V → V → W} {src : List V} {x : V} {t t' : W}
    (h : IsDist Step w src x t) (h' : IsDist Step w src x t') : t = t' :=
  le_antisymm (h.2 _ h'.1) (h'.2 _ h.1)

variable {v : View α W} {R : List α → List α → W} {src : List (List α)}

theorem View.Sound.nodeGet (h : v.Sound R) {a b : List α} (ha : a ∈ product v.slices) (hb : b ∈ product v.slices)
    (hR : a = b ∨ R a b ≠ v.noEdge) : v.nodeGet a (b.map .val) = .ok (.weight (R a b)) := by
  have la := h.length_of_mem ha
  have lb := h.length_of_mem hb
  have key : nodesToLink (a.map Idx.val) (b.map Idx.val) = .ok ((interleave a b).map .val) := by
    unfold nodesToLink
    rw [if_pos (by simp [la, lb])]
    congr 1
    clear la lb hR ha hb
    induction a generalizing b with
    | nil => simp [interleave]
    | cons x a ih => cases b with
      | nil => simp [interleave]
      | cons y b => simp [interleave, ih]
  unfold View.nodeGet
  rw [key]
  exact View.getItem_addresses (v := v) (item := interleave a b) ⟨la, lb, Or.inl (interleave_eq_link a b)⟩
    (h.link a ha b hb hR)

/-- The invariant of the loop; `fs` are the pairs written to the forest so far. -/
structure DInv (v : View α W) (R : List α → List α → W) (src : List (List α)) (s : DState α W)
    (fs : List (List α × List α)) : Prop where
  source : ∀ x ∈ src, ∃ t, Dict.get s.dist x = some t ∧ t ≤ 0
  real : ∀ x t, Dict.get s.dist x = some t → x ∈ product v.slices ∧ Reaches (v.Step R) R src x t
  q : ∀ e ∈ s.queue, e.2.2 ∈ product v.slices ∧ (∃ t, Dict.get s.dist e.2.2 = some t ∧ t ≤ e.1) ∧
    ((e.2.1 = e.2.2 ∧ e.2.1 ∈ src ∧ e.1 = 0) ∨
      (v.Step R e.2.1 e.2.2 ∧ ∃ ℓ, IsDist (v.Step R) R src e.2.1 ℓ ∧ e.1 = ℓ + R e.2.1 e.2.2))
  rel : ∀ x t, Dict.get s.dist x = some t → (∃ c, (t, c, x) ∈ s.queue) ∨
    ∀ y, v.Step R x y → ∃ t', Dict.get s.dist y = some t' ∧ t' ≤ t + R x y ∧
      (t' = t + R x y → (t', x, y) ∈ s.queue ∨ (x, y) ∈ fs)
  srcf : ∀ x ∈ src, (0, x, x) ∈ s.queue ∨ (x, x) ∈ fs
  built : Built s.forest v.aspects (-1) true false
    (fun k x => ∃ p ∈ fs, p.1[k]? = some x ∨ p.2[k]? = some x)
    (fun nl => ∃ p ∈ fs, nl = p.1 ∨ nl = p.2) (fun a b => if (a, b) ∈ fs then R a b else -1)
  fdist : ∀ p ∈ fs, p.1 ∈ product v.slices ∧ p.2 ∈ product v.slices ∧ ((p.1 = p.2 ∧ p.1 ∈ src) ∨ OnShortest (v.Step R) R src p.1 p.2)

/-- every walk is covered by the queue or by the distances -/
theorem DInv.cover {s : DState α W} {fs} (h : DInv v R src s fs) (hn : ∀ a b, v.Step R a b → 0 ≤ R a b)
    {x : List α} {ℓ : W} (hw : Reaches (v.Step R) R src x ℓ) :
    (∃ e ∈ s.queue, e.1 ≤ ℓ) ∨ ∃ t, Dict.get s.dist x = some t ∧ t ≤ ℓ := by
  obtain ⟨a, ha, hw⟩ := hw
  induction hw with
  | nil => exact Or.inr (h.source a ha)
  | @snoc b c ℓ _ hs ih =>
    have hR := hn _ _ hs
    rcases ih with ⟨e, he, hle⟩ | ⟨t, ht, hle⟩
    · exact Or.inl ⟨e, he, by linarith⟩
    · rcases h.rel _ _ ht with ⟨c', hc⟩ | hy
      · exact Or.inl ⟨_, hc, by simp only; linarith⟩
      · obtain ⟨t', h1, h2, -⟩ := hy c hs
        exact Or.inr ⟨t', h1, by linarith⟩

theorem DInv.exact {s : DState α W} {fs} (h : DInv v R src s fs) (hn : ∀ a b, v.Step R a b → 0 ≤ R a b)
    {x : List α} {t : W} (hd : Dict.get s.dist x = some t) (hmin : ∀ e ∈ s.queue, t ≤ e.1) :
    IsDist (v.Step R) R src x t := by
  refine ⟨(h.real x t hd).2, fun ℓ hℓ => ?_⟩
  rcases h.cover hn hℓ with ⟨e, he, hle⟩ | ⟨t', ht', hle⟩
  · exact (hmin e he).trans hle
  · rw [hd] at ht'; cases ht'; exact hle

/-- what the loop over the neighbours of `x` (distance `t`) does -/
structure RInv (v : View α W) (R : List α → List α → W) (s0 : DState α W) (t : W) (x : List α)
    (pre : List (List α)) (s : DState α W) : Prop where
  forest : s.forest = s0.forest
  mono : ∀ y τ, Dict.get s0.dist y = some τ → ∃ τ', Dict.get s.dist y = some τ' ∧ τ' ≤ τ
  added : ∃ ad, s.queue = ad ++ s0.queue ∧ ad.length ≤ pre.length ∧
    (∀ e ∈ ad, v.Step R x e.2.2 ∧ e = (t + R x e.2.2, x, e.2.2) ∧ ∃ τ, Dict.get s.dist e.2.2 = some τ ∧ τ ≤ e.1) ∧
    (∀ y τ, Dict.get s.dist y = some τ → Dict.get s0.dist y = some τ ∨ (τ, x, y) ∈ ad) ∧
    ∀ y ∈ pre, ∃ τ, Dict.get s.dist y = some τ ∧ τ ≤ t + R x y ∧ (τ = t + R x y → (τ, x, y) ∈ ad)

theorem relax_loop (h : v.Sound R) (s0 : DState α W) (t : W) {x : List α} (hx : x ∈ product v.slices)
    {ns : List (List α)} (hns : ∀ y ∈ ns, v.Step R x y) :
    ∃ s, forE (relax v t x) ns s0 = .ok s ∧ RInv v R s0 t x ns s := by
  refine forE_ok (P := RInv v R s0 t x) ns ?_ ?_
  · exact ⟨rfl, fun y τ hy => ⟨τ, hy, le_refl _⟩, [], rfl, by simp, by simp, fun y τ hy => Or.inl hy, by simp⟩
  · intro pre b post s hl hs
    have hb := hns b (by rw [hl]; simp)
    obtain ⟨ad, a1, a2, a3, a4, a5⟩ := hs.added
    have hget : v.nodeGet x (b.map .val) = .ok (.weight (R x b)) := h.nodeGet hx hb.2.1 (Or.inr hb.2.2)
    by_cases hi : improves s.dist b (t + R x b) = true
    · refine ⟨{ s with dist := Dict.set s.dist b (t + R x b), queue := (t + R x b, x, b) :: s.queue }, by
        simp only [relax, hget, Item.num, hi, if_true], ?_⟩
      have hold : ∀ τ, Dict.get s.dist b = some τ → t + R x b ≤ τ := by
        intro τ hτ
        unfold improves at hi; rw [hτ] at hi; simpa using hi
      refine ⟨hs.forest, fun y τ hy => ?_, (t + R x b, x, b) :: ad, by simp [a1], by simp; omega, ?_, ?_, ?_⟩
      · obtain ⟨τ', h1, h2⟩ := hs.mono y τ hy
        simp only [Dict.get_set]
        split
        · rename_i e; subst e
          exact ⟨_, rfl, (hold τ' h1).trans h2⟩
        · exact ⟨τ', h1, h2⟩
      · intro e he
        simp only [List.mem_cons] at he
        simp only [Dict.get_set]
        rcases he with rfl | he
        · exact ⟨hb, rfl, _, by simp, le_refl _⟩
        · obtain ⟨e1, e2, τ, e3, e4⟩ := a3 e he
          refine ⟨e1, e2, ?_⟩
          split
          · rename_i eq
            exact ⟨_, rfl, by rw [← eq] at e3; exact (hold _ e3).trans e4⟩
          · exact ⟨τ, e3, e4⟩
      · intro y τ
        simp only [Dict.get_set]
        split
        · rename_i e; subst e; intro e; cases e; exact Or.inr (by simp)
        · intro hy
          rcases a4 y τ hy with h1 | h1
          · exact Or.inl h1
          · exact Or.inr (by simp [h1])
      · intro y hy
        simp only [Dict.get_set]
        split
        · rename_i e; subst e; exact ⟨_, rfl, le_refl _, fun _ => by simp⟩
        · rename_i hne
          simp only [List.mem_append, List.mem_singleton] at hy
          rcases hy with hy | rfl
          · obtain ⟨τ, h1, h2, h3⟩ := a5 y hy
            exact ⟨τ, h1, h2, fun e => by simp [h3 e]⟩
          · exact absurd rfl hne
    · refine ⟨s, by simp only [relax, hget, Item.num, hi]; simp, hs.forest, hs.mono, ad, a1, by simp; omega, a3, a4, ?_⟩
      intro y hy
      simp only [List.mem_append, List.mem_singleton] at hy
      rcases hy with hy | rfl
      · exact a5 y hy
      · unfold improves at hi
        split at hi
        · simp at hi
        · rename_i τ hτ
          simp only [decide_eq_true_eq, not_le] at hi
          exact ⟨τ, hτ, hi.le, fun e => absurd e hi.ne⟩

/-- the queue after one pass through the `while` loop body -/
inductive Passed (v : View α W) (R : List α → List α → W) (src : List (List α)) (e : QEntry α W) (s s' : DState α W) : Prop
  | stale (hd : Dict.get s.dist e.2.2 ≠ some e.1) (hs : s' = s)
  | settled (hd : IsDist (v.Step R) R src e.2.2 e.1) (ad : List (QEntry α W)) (hq : s'.queue = ad ++ s.queue)
      (hlen : ad.length ≤ (product v.slices).length)
      (had : ∀ f ∈ ad, v.Step R e.2.2 f.2.2 ∧ f = (e.1 + R e.2.2 f.2.2, e.2.2, f.2.2))
      (hnew : ∀ y τ, Dict.get s'.dist y = some τ → Dict.get s.dist y = some τ ∨ (τ, e.2.2, y) ∈ ad)
      (hall : ∀ y, v.Step R e.2.2 y → ∃ τ, Dict.get s'.dist y = some τ ∧ τ ≤ e.1 + R e.2.2 y ∧
        (τ = e.1 + R e.2.2 y → (τ, e.2.2, y) ∈ ad))

theorem DInv.pass {s : DState α W} {fs} (h : DInv v R src s fs) (hv : v.Sound R)
    (hn : ∀ a b, v.Step R a b → 0 ≤ R a b) (hsrc : ∀ x ∈ src, x ∈ product v.slices) {e : QEntry α W}
    {q : List (QEntry α W)} (hp : (e :: q).Perm s.queue) (hmin : ∀ f ∈ s.queue, e.1 ≤ f.1) :
    ∃ s' fs', dijkstraStep v e { s with queue := q } = .ok s' ∧ DInv v R src s' fs' ∧
      Passed v R src e { s with queue := q } s' := by
  have hmem : ∀ f, f ∈ s.queue ↔ f = e ∨ f ∈ q := fun f => by rw [← hp.mem_iff]; simp
  obtain ⟨hP, ⟨t, ht, hle⟩, hkind⟩ := h.q e ((hmem e).2 (Or.inl rfl))
  by_cases heq : t = e.1
  · subst heq
    have hdist : IsDist (v.Step R) R src e.2.2 e.1 := h.exact hn ht hmin
    have hP1 : e.2.1 ∈ product v.slices := by
      rcases hkind with ⟨h1, -, -⟩ | ⟨h1, -⟩
      · rw [h1]; exact hP
      · exact h1.1
    have hget : v.nodeGet e.2.1 (e.2.2.map .val) = .ok (.weight (R e.2.1 e.2.2)) := by
      refine hv.nodeGet hP1 hP ?_
      rcases hkind with ⟨h1, -, -⟩ | ⟨h1, -⟩
      · exact Or.inl h1
      · exact Or.inr h1.2.2
    have l1 := hv.length_of_mem hP1
    have l2 := hv.length_of_mem hP
    obtain ⟨f', hf1, hf2⟩ := h.built.setItem (item := interleave e.2.1 e.2.2) (u := e.2.1) (v := e.2.2)
      ⟨l1, l2, Or.inl (interleave_eq_link ..)⟩ (R e.2.1 e.2.2) (by simp)
    have hns : s.forest.nodeSet e.2.1 e.2.2 (R e.2.1 e.2.2) = s.forest.setItem (interleave e.2.1 e.2.2) (R e.2.1 e.2.2) := by
      unfold MNet.nodeSet nodesToLink
      rw [if_pos (by rw [l1, l2])]
    obtain ⟨ns, n1, n2, n3⟩ := hv.out e.2.2 hP
    obtain ⟨s', hs', hR⟩ := relax_loop hv { s with queue := q, forest := f' } e.1 hP
      (ns := ns) (fun y hy => ⟨hP, ((n3 y).1 hy).1, ((n3 y).1 hy).2⟩)
    have hnsStep : ∀ y, v.Step R e.2.2 y → y ∈ ns := fun y hy => (n3 y).2 ⟨hy.2.1, hy.2.2⟩
    obtain ⟨ad, a1, a2, a3, a4, a5⟩ := hR.added
    have hselfd : ∀ τ, Dict.get s'.dist e.2.2 = some τ → τ = e.1 := by
      intro τ hτ
      rcases a4 _ _ hτ with h1 | h1
      · simp only at h1; rw [ht] at h1; cases h1; rfl
      · obtain ⟨b1, b2, -⟩ := a3 _ h1
        obtain ⟨τ', c1, c2⟩ := hR.mono _ _ ht
        rw [hτ] at c1; cases c1
        simp only [Prod.mk.injEq, true_and] at b2
        have := hn _ _ b1
        simp only at this
        linarith [b2.1]
    refine ⟨s', (e.2.1, e.2.2) :: fs, ?_, ?_, ?_⟩
    · simp only [dijkstraStep, ht, le_refl, if_true, settle, hget, Item.num, hns, hf1, n1]
      exact hs'
    · refine ⟨fun x hx => ?_, fun x τ hx => ?_, fun f hf => ?_, fun x τ hx => ?_, fun x hx => ?_, ?_, fun p hp => ?_⟩
      · obtain ⟨τ, h1, h2⟩ := h.source x hx
        obtain ⟨τ', h3, h4⟩ := hR.mono x τ h1
        exact ⟨τ', h3, h4.trans h2⟩
      · rcases a4 x τ hx with h1 | h1
        · exact h.real x τ h1
        · obtain ⟨b1, b2, -⟩ := a3 _ h1
          simp only [Prod.mk.injEq, true_and] at b2
          refine ⟨b1.2.1, ?_⟩
          obtain ⟨a, ha, hw⟩ := hdist.1
          exact ⟨a, ha, by rw [b2.1]; exact hw.snoc b1⟩
      · rw [a1] at hf
        simp only [List.mem_append] at hf
        rcases hf with hf | hf
        · obtain ⟨b1, b2, b3⟩ := a3 f hf
          refine ⟨b1.2.1, b3, Or.inr ?_⟩
          rw [b2]
          exact ⟨b1, e.1, hdist, rfl⟩
        · obtain ⟨c1, ⟨τ, c2, c3⟩, c4⟩ := h.q f ((hmem f).2 (Or.inr hf))
          obtain ⟨τ', h3, h4⟩ := hR.mono _ τ c2
          exact ⟨c1, ⟨τ', h3, h4.trans c3⟩, c4⟩
      · by_cases hxe : x = e.2.2
        · subst hxe
          have := hselfd τ hx; subst this
          right
          intro y hy
          obtain ⟨τ, b1, b2, b3⟩ := a5 y (hnsStep y hy)
          exact ⟨τ, b1, b2, fun he => Or.inl (by rw [a1]; simp [b3 he])⟩
        · rcases a4 x τ hx with h1 | h1
          · rcases h.rel x τ h1 with ⟨c, hc⟩ | hy
            · left
              rcases (hmem _).1 hc with rfl | hc
              · exact absurd rfl hxe
              · exact ⟨c, by rw [a1]; simp [hc]⟩
            · right
              intro y hs
              obtain ⟨t', b1, b2, b3⟩ := hy y hs
              obtain ⟨t'', c1, c2⟩ := hR.mono y t' b1
              refine ⟨t'', c1, c2.trans b2, fun he => ?_⟩
              have : t' = t'' := le_antisymm (by rw [he]; exact b2) c2
              subst this
              rcases b3 he with d1 | d1
              · rcases (hmem _).1 d1 with d2 | d2
                · right; rw [← d2]; simp
                · left; rw [a1]; simp [d2]
              · right; simp [d1]
          · left; exact ⟨e.2.2, by rw [a1]; simp [h1]⟩
      · rcases h.srcf x hx with h1 | h1
        · rcases (hmem _).1 h1 with d2 | d2
          · right; rw [← d2]; simp
          · left; rw [a1]; simp [d2]
        · right; simp [h1]
      · rw [hR.forest]
        refine hf2.congr (fun k x => ?_) (fun nl => ?_) (fun a b => ?_)
        · simp only [List.mem_cons, exists_eq_or_imp]; exact or_comm
        · simp only [List.mem_cons, exists_eq_or_imp]; exact or_comm
        · simp only [List.mem_cons, Prod.mk.injEq, Bool.true_eq_false, false_and, or_false]
          by_cases hc : a = e.2.1 ∧ b = e.2.2
          · rw [if_pos hc, if_pos (Or.inl hc), hc.1, hc.2]
          · simp only [hc, if_false, false_or]
      · simp only [List.mem_cons] at hp
        rcases hp with rfl | hp
        · refine ⟨hP1, hP, ?_⟩
          rcases hkind with ⟨h1, h2, h3⟩ | ⟨h1, ℓ, h2, h3⟩
          · exact Or.inl ⟨h1, h2⟩
          · exact Or.inr ⟨h1, ℓ, h2.1, by rw [← h3]; exact hdist⟩
        · exact h.fdist p hp
    · refine .settled hdist ad a1 (a2.trans ?_) (fun f hf => ⟨(a3 f hf).1, (a3 f hf).2.1⟩) a4
        (fun y hy => a5 y (hnsStep y hy))
      exact (n2.subperm fun y hy => ((n3 y).1 hy).1).length_le
  · have hlt : t < e.1 := lt_of_le_of_ne hle heq
    refine ⟨{ s with queue := q }, fs, ?_, ?_, .stale ?_ rfl⟩
    · simp only [dijkstraStep, ht, not_le.2 hlt, if_false]
    · refine ⟨h.source, h.real, fun f hf => h.q f ((hmem f).2 (Or.inr hf)), fun x τ hx => ?_, fun x hx => ?_, h.built, h.fdist⟩
      · rcases h.rel x τ hx with ⟨c, hc⟩ | hy
        · left
          rcases (hmem _).1 hc with rfl | hc
          · simp only at ht; rw [hx] at ht; cases ht; exact absurd rfl heq
          · exact ⟨c, hc⟩
        · right
          intro y hs
          obtain ⟨t', b1, b2, b3⟩ := hy y hs
          refine ⟨t', b1, b2, fun he => ?_⟩
          rcases b3 he with d1 | d1
          · rcases (hmem _).1 d1 with rfl | d2
            · simp only at ht; rw [b1] at ht; cases ht; exact absurd rfl heq
            · exact Or.inl d2
          · exact Or.inr d1
      · rcases h.srcf x hx with h1 | h1
        · rcases (hmem _).1 h1 with rfl | d2
          · obtain ⟨-, t0, -, e2⟩ := h.real x t ht
            exact absurd (e2.nonneg hn) (not_le.2 hlt)
          · exact Or.inl d2
        · exact Or.inr h1
    · rw [ht]; intro e; cases e; exact heq rfl

/-! ### The initial state -/

theorem sources_dist (l : List (List α)) (d : Dict (List α) W) (x : List α) :
    Dict.get (l.foldl (fun d s => Dict.set d s (0 : W)) d) x = if x ∈ l then some 0 else Dict.get d x := by
  induction l generalizing d with
  | nil => simp
  | cons a l ih =>
    rw [List.foldl_cons, ih, Dict.get_set]
    by_cases h : x ∈ l
    · simp [h]
    · by_cases h' : a = x
      · subst h'; simp
      · simp [h, h', Ne.symm h']

theorem sources_queue (l : List (List α)) (q : List (QEntry α W)) (e : QEntry α W) :
    e ∈ l.foldl (fun q s => ((0 : W), s, s) :: q) q ↔ (∃ s ∈ l, e = (0, s, s)) ∨ e ∈ q := by
  induction l generalizing q with
  | nil => simp
  | cons a l ih =>
    rw [List.foldl_cons, ih]
    simp only [List.mem_cons, exists_eq_or_imp]
    rw [or_left_comm, or_assoc]

theorem dijkstraInit_inv (hsrc : ∀ x ∈ src, x ∈ product v.slices) :
    DInv v R src (dijkstraInit v.aspects src) [] := by
  have hd : ∀ x t, Dict.get (dijkstraInit v.aspects src : DState α W).dist x = some t ↔ x ∈ src ∧ t = 0 := by
    intro x t
    unfold dijkstraInit
    rw [sources_dist]
    by_cases h : x ∈ src
    · simp [h, eq_comm]
    · simp [h]
  have hq : ∀ e, e ∈ (dijkstraInit v.aspects src : DState α W).queue ↔ ∃ s ∈ src, e = (0, s, s) := by
    intro e
    unfold dijkstraInit
    rw [sources_queue]; simp
  refine ⟨fun x hx => ⟨0, (hd x 0).2 ⟨hx, rfl⟩, le_refl _⟩, fun x t h => ?_, fun e he => ?_, fun x t h => ?_,
    fun x hx => Or.inl ((hq _).2 ⟨x, hx, rfl⟩), ?_, by simp⟩
  · obtain ⟨h1, rfl⟩ := (hd x t).1 h
    exact ⟨hsrc x h1, x, h1, .nil x⟩
  · obtain ⟨s, h1, rfl⟩ := (hq e).1 he
    exact ⟨hsrc s h1, ⟨0, (hd s 0).2 ⟨h1, rfl⟩, le_refl _⟩, Or.inl ⟨rfl, h1, rfl⟩⟩
  · obtain ⟨h1, rfl⟩ := (hd x t).1 h
    exact Or.inl ⟨x, (hq _).2 ⟨x, h1, rfl⟩⟩
  · refine (Built.init (α := α) v.aspects (-1 : W) true false).congr (by simp) (by simp) (by simp)

/-! ### The end of the loop -/

theorem DInv.done {s : DState α W} {fs} (h : DInv v R src s fs) (hn : ∀ a b, v.Step R a b → 0 ≤ R a b)
    (hq : s.queue = []) :
    (∀ x t, Dict.get s.dist x = some t ↔ IsDist (v.Step R) R src x t) ∧
    (∀ x, (∃ ℓ, Reaches (v.Step R) R src x ℓ) → ∃ t, Dict.get s.dist x = some t) ∧
    ∀ a b, (a, b) ∈ fs ↔ (a = b ∧ a ∈ src) ∨ OnShortest (v.Step R) R src a b := by
  have hex : ∀ x t, Dict.get s.dist x = some t → IsDist (v.Step R) R src x t :=
    fun x t ht => h.exact hn ht (by simp [hq])
  have hcov : ∀ x ℓ, Reaches (v.Step R) R src x ℓ → ∃ t, Dict.get s.dist x = some t := by
    intro x ℓ hℓ
    rcases h.cover hn hℓ with ⟨e, he, -⟩ | ⟨t, ht, -⟩
    · rw [hq] at he; cases he
    · exact ⟨t, ht⟩
  refine ⟨fun x t => ⟨hex x t, fun hd => ?_⟩, fun x ⟨ℓ, hℓ⟩ => hcov x ℓ hℓ, fun a b => ⟨fun hab => (h.fdist _ hab).2.2, ?_⟩⟩
  · obtain ⟨t', ht'⟩ := hcov x t hd.1
    rw [ht', IsDist.unique (hex x t' ht') hd]
  · rintro (⟨rfl, ha⟩ | ⟨hs, ℓ, hr, hd⟩)
    · rcases h.srcf a ha with h1 | h1
      · rw [hq] at h1; cases h1
      · exact h1
    · obtain ⟨t, ht⟩ := hcov a ℓ hr
      rcases h.rel a t ht with ⟨c, hc⟩ | hy
      · rw [hq] at hc; cases hc
      · obtain ⟨t', b1, b2, b3⟩ := hy b hs
        have e1 : t' = ℓ + R a b := IsDist.unique (hex b t' b1) hd
        have e2 : t ≤ ℓ := (hex a t ht).2 ℓ hr
        rcases b3 (le_antisymm b2 (by rw [e1]; linarith)) with d1 | d1
        · rw [hq] at d1; cases d1
        · exact d1

variable {pop : List (QEntry α W) → QEntry α W × List (QEntry α W)}

/-- The loop never raises, and what it returns is right. -/
theorem loop_correct (hv : v.Sound R) (hn : ∀ a b, v.Step R a b → 0 ≤ R a b) (hsrc : ∀ x ∈ src, x ∈ product v.slices)
    (hpop : Spec.PopsLeast pop) (n : Nat) {s : DState α W} {fs} (h : DInv v R src s fs) {r}
    (hr : dijkstraLoop pop v n s = some r) : ∃ s' fs', r = .ok s' ∧ s'.queue = [] ∧ DInv v R src s' fs' := by
  induction n generalizing s fs with
  | zero =>
    unfold dijkstraLoop at hr
    split at hr
    · rename_i hq; cases hr; exact ⟨s, fs, rfl, hq, h⟩
    · cases hr
  | succ n ih =>
    unfold dijkstraLoop at hr
    split at hr
    · rename_i hq; cases hr; exact ⟨s, fs, rfl, hq, h⟩
    · rename_i hq
      obtain ⟨p1, p2⟩ := hpop s.queue hq
      obtain ⟨s', fs', e1, e2, -⟩ := h.pass hv hn hsrc p1 p2
      rw [e1] at hr
      exact ih e2 hr

/-! ### Termination -/

open Classical in
/-- the node-layers whose shortest walks may still pass through an entry -/
noncomputable def ahead (v : View α W) (R : List α → List α → W) (src : List (List α)) (e : QEntry α W) :
    Finset (List α) :=
  (product v.slices).toFinset.filter fun y =>
    ∃ ℓ δ, Walk (v.Step R) R e.2.2 y ℓ ∧ IsDist (v.Step R) R src y δ ∧ e.1 + ℓ ≤ δ

/-- the measure of a queue -/
noncomputable def measure (v : View α W) (R : List α → List α → W) (src : List (List α)) (q : List (QEntry α W)) : Nat :=
  (q.map fun e => ((product v.slices).length + 1) ^ (ahead v R src e).card).sum

theorem measure_perm {q q' : List (QEntry α W)} (h : q.Perm q') : measure v R src q = measure v R src q' :=
  (h.map _).sum_eq

theorem measure_append (q q' : List (QEntry α W)) :
    measure v R src (q ++ q') = measure v R src q + measure v R src q' := by
  simp [measure]

theorem ahead_lt (hn : ∀ a b, v.Step R a b → 0 ≤ R a b)
    (hz : ∀ x ℓ, Reaches (v.Step R) R src x ℓ → ¬ OnZeroCycle (v.Step R) R x) {e f : QEntry α W}
    (hP : e.2.2 ∈ product v.slices)
    (hd : IsDist (v.Step R) R src e.2.2 e.1) (hs : v.Step R e.2.2 f.2.2) (hf : f = (e.1 + R e.2.2 f.2.2, e.2.2, f.2.2)) :
    (ahead v R src f).card < (ahead v R src e).card := by
  have h1 : f.1 = e.1 + R e.2.2 f.2.2 := congrArg Prod.fst hf
  apply Finset.card_lt_card
  rw [Finset.ssubset_iff_of_subset]
  · refine ⟨e.2.2, ?_, ?_⟩
    · simp only [ahead, Finset.mem_filter, List.mem_toFinset]
      exact ⟨hP, 0, e.1, .nil _, hd, by simp⟩
    · simp only [ahead, Finset.mem_filter, List.mem_toFinset, not_and, not_exists]
      intro _ ℓ δ hw hδ hle
      have := IsDist.unique hd hδ
      subst this
      have hℓ := hw.nonneg hn
      have hR := hn _ _ hs
      refine hz e.2.2 e.1 hd.1 ⟨f.2.2, ℓ, hs, hw, ?_⟩
      rw [h1] at hle
      linarith
  · intro y hy
    simp only [ahead, Finset.mem_filter, List.mem_toFinset] at hy ⊢
    obtain ⟨h2, ℓ, δ, h3, h4, h5⟩ := hy
    refine ⟨h2, _, δ, (Walk.single hs).trans h3, h4, ?_⟩
    rw [h1] at h5
    linarith

theorem measure_lt (hn : ∀ a b, v.Step R a b → 0 ≤ R a b)
    (hz : ∀ x ℓ, Reaches (v.Step R) R src x ℓ → ¬ OnZeroCycle (v.Step R) R x) {e : QEntry α W} {s s' : DState α W}
    (hP : e.2.2 ∈ product v.slices) (hp : Passed v R src e s s') :
    measure v R src s'.queue < measure v R src (e :: s.queue) := by
  have hpos : ∀ e : QEntry α W, 0 < ((product v.slices).length + 1) ^ (ahead v R src e).card :=
    fun e => Nat.pow_pos (Nat.succ_pos _)
  have hcons : measure v R src (e :: s.queue) = ((product v.slices).length + 1) ^ (ahead v R src e).card + measure v R src s.queue := by
    simp [measure]
  cases hp with
  | stale hd hs => subst hs; rw [hcons]; have := hpos e; omega
  | settled hd ad hq hlen had hnew hall =>
    rw [hq, measure_append, hcons]
    apply Nat.add_lt_add_right
    set N := (product v.slices).length with hN
    rcases Nat.eq_zero_or_pos (ahead v R src e).card with hc | hc
    · have : ad = [] := by
        rcases ad with _ | ⟨f, ad⟩
        · rfl
        · have := ahead_lt hn hz hP hd (had f (by simp)).1 (had f (by simp)).2
          omega
      subst this
      simp only [measure, List.map_nil, List.sum_nil]
      exact hpos e
    · obtain ⟨c, hc'⟩ : ∃ c, (ahead v R src e).card = c + 1 := ⟨_, (Nat.succ_pred_eq_of_pos hc).symm⟩
      have hb : measure v R src ad ≤ ad.length * (N + 1) ^ c := by
        unfold measure
        have : ∀ x ∈ ad.map fun e => ((product v.slices).length + 1) ^ (ahead v R src e).card, x ≤ (N + 1) ^ c := by
          intro x hx
          simp only [List.mem_map] at hx
          obtain ⟨f, hf, rfl⟩ := hx
          have := ahead_lt hn hz hP hd (had f hf).1 (had f hf).2
          exact Nat.pow_le_pow_right (Nat.succ_pos _) (by omega)
        have := List.sum_le_card_nsmul _ _ this
        simpa using this
      have h2 : ad.length * (N + 1) ^ c ≤ N * (N + 1) ^ c := Nat.mul_le_mul_right _ hlen
      rw [hc', pow_succ]
      have : 0 < (N + 1) ^ c := Nat.pow_pos (Nat.succ_pos _)
      nlinarith

theorem loop_terminates (hv : v.Sound R) (hn : ∀ a b, v.Step R a b → 0 ≤ R a b)
    (hsrc : ∀ x ∈ src, x ∈ product v.slices) (hpop : Spec.PopsLeast pop)
    (hz : ∀ x ℓ, Reaches (v.Step R) R src x ℓ → ¬ OnZeroCycle (v.Step R) R x) (n : Nat) {s : DState α W} {fs}
    (h : DInv v R src s fs) (hm : measure v R src s.queue ≤ n) : ∃ r, dijkstraLoop pop v n s = some r := by
  induction n generalizing s fs with
  | zero =>
    have : s.queue = [] := by
      rcases hq : s.queue with _ | ⟨e, q⟩
      · rfl
      · rw [hq] at hm
        have : 0 < ((product v.slices).length + 1) ^ (ahead v R src e).card := Nat.pow_pos (Nat.succ_pos _)
        simp [measure] at hm
    exact ⟨_, by unfold dijkstraLoop; rw [if_pos this]⟩
  | succ n ih =>
    by_cases hq : s.queue = []
    · exact ⟨_, by unfold dijkstraLoop; rw [if_pos hq]⟩
    · obtain ⟨p1, p2⟩ := hpop s.queue hq
      obtain ⟨s', fs', e1, e2, e3⟩ := h.pass hv hn hsrc p1 p2
      have hP := (h.q (pop s.queue).1 (p1.mem_iff.1 (by simp))).1
      have hlt := measure_lt hn hz hP e3
      simp only at hlt
      rw [measure_perm p1] at hlt
      obtain ⟨r, hr⟩ := ih e2 (by omega)
      exact ⟨r, by unfold dijkstraLoop; rw [if_neg hq, e1]; exact hr⟩

/-! ### Zero-weight cycles -/

/-- either an entry of a node-layer on a zero-weight cycle is waiting at its distance, or none of them
has its distance yet -/
def Waiting (v : View α W) (R : List α → List α → W) (src : List (List α)) (s : DState α W) : Prop :=
  (∃ x t c, OnZeroCycle (v.Step R) R x ∧ IsDist (v.Step R) R src x t ∧ (t, c, x) ∈ s.queue) ∨
  ∀ x t, OnZeroCycle (v.Step R) R x → IsDist (v.Step R) R src x t → Dict.get s.dist x ≠ some t

theorem next_on_cycle (hn : ∀ a b, v.Step R a b → 0 ≤ R a b) {x : List α} (h : OnZeroCycle (v.Step R) R x) {t : W}
    (hd : IsDist (v.Step R) R src x t) :
    ∃ y, v.Step R x y ∧ R x y = 0 ∧ OnZeroCycle (v.Step R) R y ∧ IsDist (v.Step R) R src y t := by
  obtain ⟨y, ℓ, hs, hw, h0⟩ := h
  have h1 := hn _ _ hs
  have h2 := hw.nonneg hn
  have hR : R x y = 0 := by linarith
  have hℓ : ℓ = 0 := by linarith
  refine ⟨y, hs, hR, ?_, ?_, ?_⟩
  · rcases hw.uncons with ⟨rfl, -⟩ | ⟨c, m, k1, k2, k3⟩
    · exact ⟨y, 0, hs, .nil y, by rw [hR, add_zero]⟩
    · exact ⟨c, _, k1, k2.snoc hs, by rw [hR]; linarith⟩
  · obtain ⟨a, ha, hw'⟩ := hd.1
    have := hw'.snoc hs
    rw [hR, add_zero] at this
    exact ⟨a, ha, this⟩
  · rintro ℓ' ⟨a, ha, hw'⟩
    have := hd.2 _ ⟨a, ha, hw'.trans hw⟩
    linarith

theorem Waiting.pass {s s' : DState α W} {fs} (h : DInv v R src s fs)
    (hn : ∀ a b, v.Step R a b → 0 ≤ R a b) {e : QEntry α W} {q : List (QEntry α W)} (hp : (e :: q).Perm s.queue)
    {fs'} (h' : DInv v R src s' fs') (hps : Passed v R src e { s with queue := q } s') (hw : Waiting v R src s) :
    Waiting v R src s' := by
  have hmem : ∀ f, f ∈ s.queue ↔ f = e ∨ f ∈ q := fun f => by rw [← hp.mem_iff]; simp
  rcases hw with ⟨x, t, c, h1, h2, h3⟩ | hw
  · rcases (hmem _).1 h3 with rfl | h4
    · left
      cases hps with
      | stale hd hs =>
        exfalso
        obtain ⟨-, ⟨t', ht', hle⟩, -⟩ := h.q _ h3
        have := h2.2 _ (h.real _ _ ht').2
        simp only at ht' hle hd
        rw [ht'] at hd
        exact hd (by rw [le_antisymm hle this])
      | settled hd ad hq hlen had hnew hall =>
        obtain ⟨y, y1, y2, y3, y4⟩ := next_on_cycle hn h1 h2
        obtain ⟨τ, k1, k2, k3⟩ := hall y y1
        have k4 := y4.2 _ (h'.real _ _ k1).2
        simp only [y2, add_zero] at k2 k3
        have : τ = t := le_antisymm k2 k4
        subst this
        exact ⟨y, τ, x, y3, y4, by rw [hq]; simp [k3 rfl]⟩
    · left
      cases hps with
      | stale hd hs => subst hs; exact ⟨x, t, c, h1, h2, h4⟩
      | settled hd ad hq hlen had hnew hall => exact ⟨x, t, c, h1, h2, by rw [hq]; simp [h4]⟩
  · cases hps with
    | stale hd hs => subst hs; exact Or.inr hw
    | settled hd ad hq hlen had hnew hall =>
      by_cases hc : ∃ x t, OnZeroCycle (v.Step R) R x ∧ IsDist (v.Step R) R src x t ∧ Dict.get s'.dist x = some t
      · obtain ⟨x, t, h1, h2, h3⟩ := hc
        rcases hnew x t h3 with h4 | h4
        · exact absurd h4 (hw x t h1 h2)
        · exact Or.inl ⟨x, t, _, h1, h2, by rw [hq]; exact List.mem_append_left _ h4⟩
      · right
        intro x t h1 h2 h3
        exact hc ⟨x, t, h1, h2, h3⟩

theorem init_waiting (hsrc : ∀ x ∈ src, x ∈ product v.slices) :
    Waiting v R src (dijkstraInit v.aspects src) := by
  by_cases hc : ∃ x t, OnZeroCycle (v.Step R) R x ∧ IsDist (v.Step R) R src x t ∧
      Dict.get (dijkstraInit v.aspects src : DState α W).dist x = some t
  · obtain ⟨x, t, h1, h2, h3⟩ := hc
    rcases (dijkstraInit_inv (R := R) hsrc).rel x t h3 with ⟨c, hc⟩ | h4
    · exact Or.inl ⟨x, t, c, h1, h2, hc⟩
    · have h5 : x ∈ src ∧ t = 0 := by
        unfold dijkstraInit at h3
        rw [sources_dist] at h3
        split at h3
        · rename_i hx; cases h3; exact ⟨hx, rfl⟩
        · cases h3
      refine Or.inl ⟨x, t, x, h1, h2, ?_⟩
      unfold dijkstraInit
      rw [sources_queue]
      exact Or.inl ⟨x, h5.1, by rw [h5.2]⟩
  · right
    intro x t h1 h2 h3
    exact hc ⟨x, t, h1, h2, h3⟩

theorem loop_diverges (hv : v.Sound R) (hn : ∀ a b, v.Step R a b → 0 ≤ R a b) (hsrc : ∀ x ∈ src, x ∈ product v.slices)
    (hpop : Spec.PopsLeast pop) {x : List α} {ℓ : W} (hx : Reaches (v.Step R) R src x ℓ) (hz : OnZeroCycle (v.Step R) R x)
    (n : Nat) {s : DState α W} {fs} (h : DInv v R src s fs) (hw : Waiting v R src s) :
    dijkstraLoop pop v n s = none := by
  have hne : ∀ {s : DState α W} {fs}, DInv v R src s fs → Waiting v R src s → s.queue ≠ [] := by
    intro s fs h hw hq
    obtain ⟨d1, d2, -⟩ := h.done hn hq
    rcases hw with ⟨x, t, c, -, -, h3⟩ | hw
    · rw [hq] at h3; cases h3
    · obtain ⟨t, ht⟩ := d2 x ⟨ℓ, hx⟩
      exact hw x t hz ((d1 x t).1 ht) ht
  induction n generalizing s fs with
  | zero => unfold dijkstraLoop; rw [if_neg (hne h hw)]
  | succ n ih =>
    unfold dijkstraLoop
    rw [if_neg (hne h hw)]
    obtain ⟨p1, p2⟩ := hpop s.queue (hne h hw)
    obtain ⟨s', fs', e1, e2, e3⟩ := h.pass hv hn hsrc p1 p2
    rw [e1]
    exact ih e2 (Waiting.pass h hn p1 e2 e3 hw)

/-! ### Restatement over the node-layers -/

section Restate

variable {V : Type} {S T : V → V → Prop} {w w' : V → V → W} {l : List V}

theorem walk_congr (hS : ∀ a b, S a b → T a b ∧ w a b = w' a b) {a b : V} {ℓ : W} (h : Walk S w a b ℓ) :
    Walk T w' a b ℓ := by
  induction h with
  | nil => exact .nil _
  | snoc _ hs ih => rw [(hS _ _ hs).2]; exact ih.snoc (hS _ _ hs).1

theorem walk_iff (hS : ∀ a b, S a b ↔ T a b) (hw : ∀ a b, S a b → w a b = w' a b) (a b : V) (ℓ : W) :
    Walk S w a b ℓ ↔ Walk T w' a b ℓ :=
  ⟨walk_congr fun a b h => ⟨(hS a b).1 h, hw a b h⟩,
    walk_congr fun a b h => ⟨(hS a b).2 h, (hw a b ((hS a b).2 h)).symm⟩⟩

theorem reaches_iff (hS : ∀ a b, S a b ↔ T a b) (hw : ∀ a b, S a b → w a b = w' a b) (x : V) (ℓ : W) :
    Reaches S w l x ℓ ↔ Reaches T w' l x ℓ := by
  unfold Reaches; simp only [walk_iff hS hw]

theorem isDist_iff (hS : ∀ a b, S a b ↔ T a b) (hw : ∀ a b, S a b → w a b = w' a b) (x : V) (t : W) :
    IsDist S w l x t ↔ IsDist T w' l x t := by
  unfold IsDist; simp only [reaches_iff hS hw]

theorem onShortest_iff (hS : ∀ a b, S a b ↔ T a b) (hw : ∀ a b, S a b → w a b = w' a b) (a b : V) :
    OnShortest S w l a b ↔ OnShortest T w' l a b := by
  unfold OnShortest
  simp only [reaches_iff hS hw, isDist_iff hS hw]
  constructor
  · rintro ⟨h1, ℓ, h2, h3⟩; exact ⟨(hS a b).1 h1, ℓ, h2, by rw [← hw a b h1]; exact h3⟩
  · rintro ⟨h1, ℓ, h2, h3⟩; exact ⟨(hS a b).2 h1, ℓ, h2, by rw [hw a b ((hS a b).2 h1)]; exact h3⟩

theorem onZeroCycle_iff (hS : ∀ a b, S a b ↔ T a b) (hw : ∀ a b, S a b → w a b = w' a b) (x : V) :
    OnZeroCycle S w x ↔ OnZeroCycle T w' x := by
  unfold OnZeroCycle
  simp only [walk_iff hS hw]
  constructor
  · rintro ⟨y, ℓ, h1, h2, h3⟩; exact ⟨y, ℓ, (hS _ _).1 h1, h2, by rw [← hw _ _ h1]; exact h3⟩
  · rintro ⟨y, ℓ, h1, h2, h3⟩; exact ⟨y, ℓ, (hS _ _).2 h1, h2, by rw [hw _ _ ((hS _ _).2 h1)]; exact h3⟩

end Restate

/-- the forest as the user sees it -/
theorem forest_looks {s : DState α W} {fs} (hv : v.Sound R) (h : DInv v R src s fs)
    (hsrc : ∀ x ∈ src, x ∈ product v.slices) (hn : ∀ a b, v.Step R a b → 0 ≤ R a b)
    (hq : s.queue = []) {f : List α → List α → W}
    (hf : ∀ a b, ((a = b ∧ a ∈ src) ∨ OnShortest (v.Step R) R src a b) → f a b = R a b)
    (hf' : ∀ a b, ¬ ((a = b ∧ a ∈ src) ∨ OnShortest (v.Step R) R src a b) → f a b = -1) :
    Spec.Looks s.forest v.aspects (-1) true (decide (v.aspects = 0))
      (fun k x => ∃ nl t, IsDist (v.Step R) R src nl t ∧ nl[k]? = some x)
      (fun nl => ∃ t, IsDist (v.Step R) R src nl t) f := by
  obtain ⟨d1, d2, d3⟩ := h.done hn hq
  have hreach : ∀ nl, (∃ p ∈ fs, nl = p.1 ∨ nl = p.2) ↔ ∃ t, IsDist (v.Step R) R src nl t := by
    intro nl
    constructor
    · rintro ⟨⟨a, b⟩, hp, hnl⟩
      have : ∃ ℓ, Reaches (v.Step R) R src nl ℓ := by
        rcases (d3 a b).1 hp with ⟨rfl, ha⟩ | ⟨-, ℓ, h1, h2⟩
        · rcases hnl with rfl | rfl <;> exact ⟨0, nl, ha, .nil _⟩
        · rcases hnl with rfl | rfl
          · exact ⟨ℓ, h1⟩
          · exact ⟨_, h2.1⟩
      obtain ⟨t, ht⟩ := d2 nl this
      exact ⟨t, (d1 nl t).1 ht⟩
    · rintro ⟨t, ht⟩
      obtain ⟨a, ha, hw⟩ := ht.1
      cases hw with
      | nil => exact ⟨(nl, nl), (d3 nl nl).2 (Or.inl ⟨rfl, ha⟩), Or.inl rfl⟩
      | snoc hw' hs => exact ⟨(_, nl), (d3 _ _).2 (Or.inr ⟨hs, _, ⟨a, ha, hw'⟩, ht⟩), Or.inr rfl⟩
  have hlen : ∀ nl, (∃ t, IsDist (v.Step R) R src nl t) → nl.length = v.aspects + 1 := by
    rintro nl ⟨t, ht⟩
    exact hv.length_of_mem (h.real nl t ((d1 nl t).2 ht)).1
  have hb : Built s.forest v.aspects (-1) true false
      (fun k x => ∃ nl t, IsDist (v.Step R) R src nl t ∧ nl[k]? = some x)
      (fun nl => ∃ t, IsDist (v.Step R) R src nl t) f := by
    refine h.built.congr (fun k x => ?_) hreach (fun a b => ?_)
    · constructor
      · rintro ⟨p, hp, hx⟩
        rcases hx with hx | hx
        · obtain ⟨t, ht⟩ := (hreach p.1).1 ⟨p, hp, Or.inl rfl⟩
          exact ⟨p.1, t, ht, hx⟩
        · obtain ⟨t, ht⟩ := (hreach p.2).1 ⟨p, hp, Or.inr rfl⟩
          exact ⟨p.2, t, ht, hx⟩
      · rintro ⟨nl, t, ht, hx⟩
        obtain ⟨p, hp, h1⟩ := (hreach nl).2 ⟨t, ht⟩
        rcases h1 with rfl | rfl
        · exact ⟨p, hp, Or.inl hx⟩
        · exact ⟨p, hp, Or.inr hx⟩
    · split
      · rename_i hab; exact (hf a b ((d3 a b).1 hab)).symm
      · rename_i hab; exact (hf' a b (fun hc => hab ((d3 a b).2 hc))).symm
  rcases Nat.eq_zero_or_pos v.aspects with h0 | h0
  · have hb0 : Built s.forest v.aspects (-1) true true
      (fun k x => ∃ nl t, IsDist (v.Step R) R src nl t ∧ nl[k]? = some x)
      (fun nl => ∃ t, IsDist (v.Step R) R src nl t) f := by
      refine ⟨?_, hb.sl, by simp, hb.rd⟩
      obtain ⟨ops, hops⟩ := hb.reach
      refine ⟨ops, hops.trans ?_⟩
      rw [h0]; rfl
    have := hb0.looks (fun _ => rfl) (by simp)
    rw [show decide (v.aspects = 0) = true by simp [h0]]
    refine this.congr (fun _ _ _ => Iff.rfl) (fun nl => ?_) (fun _ _ _ _ => rfl)
    rw [if_pos rfl]
    unfold Spec.AllNodeLayers
    constructor
    · rintro ⟨hl, hx⟩
      rw [h0] at hl
      match nl, hl with
      | [y], _ =>
        obtain ⟨nl', t, ht, hy⟩ := hx 0 y rfl
        have hl' := hlen nl' ⟨t, ht⟩
        rw [h0] at hl'
        match nl', hl' with
        | [y'], _ => simp at hy; subst hy; exact ⟨t, ht⟩
    · intro hnl
      refine ⟨hlen nl hnl, fun i x hx => ?_⟩
      obtain ⟨t, ht⟩ := hnl
      exact ⟨nl, t, ht, hx⟩
  · have := hb.looks (by omega) (fun _ => hlen)
    rw [show decide (v.aspects = 0) = false by simp; omega]
    exact this.congr (fun _ _ _ => Iff.rfl) (fun nl => by simp) (fun _ _ _ _ => rfl)

open Classical in
/-- `dijkstra` on any network whose dispatch table is sound, stated over the node-layers `NL` and their link
values `R'`. -/
theorem dijkstra_spec (hv : v.Sound R) {NL : List α → Prop} {R' : List α → List α → W}
    (hNL : ∃ l, v.nodeLayers = .ok l ∧ ∀ nl, nl ∈ l ↔ NL nl) (hR : ∀ a b, NL a → NL b → R a b = R' a b)
    (hn : ∀ a b, NL a → NL b → R' a b ≠ v.noEdge → 0 ≤ R' a b) (hsrc : ∀ x ∈ src, NL x) (hpop : Spec.PopsLeast pop) :
    (∀ fuel r, v.dijkstra pop src fuel = some r → ∃ D F, r = .ok (D, F) ∧
      (∀ x t, Dict.get D x = some t ↔ IsDist (Spec.LinkStep NL v.noEdge R') R' src x t) ∧
      (∀ x ℓ, Reaches (Spec.LinkStep NL v.noEdge R') R' src x ℓ → ∃ t, Dict.get D x = some t) ∧
      Spec.Looks F v.aspects (-1) true (decide (v.aspects = 0))
        (fun k x => ∃ nl t, IsDist (Spec.LinkStep NL v.noEdge R') R' src nl t ∧ nl[k]? = some x)
        (fun nl => ∃ t, IsDist (Spec.LinkStep NL v.noEdge R') R' src nl t)
        (fun a b => if (a = b ∧ a ∈ src) ∨ OnShortest (Spec.LinkStep NL v.noEdge R') R' src a b then R' a b else -1)) ∧
    ((∃ fuel r, v.dijkstra pop src fuel = some r) ↔
      ∀ x ℓ, Reaches (Spec.LinkStep NL v.noEdge R') R' src x ℓ → ¬ OnZeroCycle (Spec.LinkStep NL v.noEdge R') R' x) := by
  obtain ⟨l, l1, -, l3, l4⟩ := hv.nls
  obtain ⟨l', l1', l2'⟩ := hNL
  rw [l1] at l1'; cases l1'
  have hS : ∀ a b, v.Step R a b ↔ Spec.LinkStep NL v.noEdge R' a b := by
    intro a b
    constructor
    · rintro ⟨h1, h2, h3⟩
      have := l4 a h1 b h2 h3
      rw [l2', l2'] at this
      exact ⟨this.1, this.2, by rw [← hR a b this.1 this.2]; exact h3⟩
    · rintro ⟨h1, h2, h3⟩
      exact ⟨l3 a ((l2' a).2 h1), l3 b ((l2' b).2 h2), by rw [hR a b h1 h2]; exact h3⟩
  have hw : ∀ a b, v.Step R a b → R a b = R' a b := fun a b h => hR a b ((hS a b).1 h).1 ((hS a b).1 h).2.1
  have hn' : ∀ a b, v.Step R a b → 0 ≤ R a b := by
    intro a b h
    rw [hw a b h]
    exact hn a b ((hS a b).1 h).1 ((hS a b).1 h).2.1 ((hS a b).1 h).2.2
  have hsrc' : ∀ x ∈ src, x ∈ product v.slices := fun x hx => l3 x ((l2' x).2 (hsrc x hx))
  have hinit := dijkstraInit_inv (R := R) hsrc'
  refine ⟨fun fuel r hr => ?_, ⟨?_, ?_⟩⟩
  · unfold View.dijkstra at hr
    split at hr
    · cases hr
    · rename_i e he
      obtain ⟨s', fs', h1, -⟩ := loop_correct hv hn' hsrc' hpop fuel hinit he
      cases h1
    · rename_i s he
      cases hr
      obtain ⟨s', fs', h1, h2, h3⟩ := loop_correct hv hn' hsrc' hpop fuel hinit he
      cases h1
      obtain ⟨d1, d2, d3⟩ := h3.done hn' h2
      refine ⟨_, _, rfl, fun x t => (d1 x t).trans (isDist_iff hS hw x t), fun x ℓ hx => d2 x ⟨ℓ, ?_⟩, ?_⟩
      · exact (reaches_iff hS hw x ℓ).2 hx
      · simp only [← isDist_iff hS hw]
        refine forest_looks hv h3 hsrc' hn' h2 (fun a b hab => ?_) (fun a b hab => ?_)
        · have hab' := hab
          rw [onShortest_iff hS hw] at hab'
          rw [if_pos hab']
          rcases hab with ⟨rfl, ha⟩ | hab
          · exact (hR _ _ (hsrc _ ha) (hsrc _ ha)).symm
          · exact (hw a b hab.1).symm
        · rw [onShortest_iff hS hw] at hab
          rw [if_neg hab]
  · rintro ⟨fuel, r, hr⟩ x ℓ hx hz
    unfold View.dijkstra at hr
    rw [loop_diverges hv hn' hsrc' hpop ((reaches_iff hS hw x ℓ).2 hx) ((onZeroCycle_iff hS hw x).2 hz) fuel hinit
      (init_waiting hsrc')] at hr
    cases hr
  · intro hz
    obtain ⟨r, hr⟩ := loop_terminates (pop := pop) hv hn' hsrc' hpop (fun x ℓ hx hz' => hz x ℓ ((reaches_iff hS hw x ℓ).1 hx)
      ((onZeroCycle_iff hS hw x).1 hz')) _ hinit (le_refl _)
    refine ⟨measure v R src (dijkstraInit v.aspects src).queue, ?_⟩
    unfold View.dijkstra
    rw [hr]
    cases r
    · exact ⟨_, rfl⟩
    · exact ⟨_, rfl⟩

end Pymnet
