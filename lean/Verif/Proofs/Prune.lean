import Verif.Model.Prune
import Verif.Proofs.Dijkstra
import Mathlib.Logic.Relation

/-! The pruned forest of shortest paths. -/

set_option linter.unusedSectionVars false
set_option linter.unusedSimpArgs false

namespace Pymnet

open Py Spec

variable {α W : Type} [DecidableEq α] [DecidableEq W]

theorem itemDegIn_eq {v : View α W} {nl : List α} (hl : nl.length = v.aspects + 1) : v.itemDegIn nl = v.degIn nl none := by
  have hv : View.vals? (nl.map Idx.val) = some nl := by
    clear hl
    induction nl with
    | nil => rfl
    | cons a t ih => simp [View.vals?, ih]
  unfold View.itemDegIn View.getItem
  simp only [List.length_map, hl, if_true, hv]

section Tree

variable [CommRing W] [LinearOrder W] [IsStrictOrderedRing W] {F : MNet α W} {d : Nat} {z : W} {al : Bool} {S : Nat → α → Prop} {NL : List α → Prop}
  {R : List α → List α → W}

theorem tree_inn (h : Looks F d z true al S NL R) {x : List α} (hx : NL x) :
    ∃ l, F.view.iterIn x none = .ok l ∧ ∀ b, b ∈ l ↔ LinkStep NL z R b x := by
  have hz : F.view.noEdge = z := h.noEdge_eq
  obtain ⟨l, l1, -, l3⟩ := h.sound.inn x (h.nl_product hx)
  refine ⟨l, l1, fun b => (l3 b).trans ?_⟩
  rw [hz]
  obtain ⟨nls, n1, -, n3, n4⟩ := h.sound.nls
  have hn : ∀ a, a ∈ nls ↔ NL a := by
    have : nls = F.nodeLayers := (Except.ok.inj n1).symm
    rw [this]; exact h.nodeLayers.2
  constructor
  · rintro ⟨hb, hR⟩
    have hbn := (hn b).1 (n4 b hb x (h.nl_product hx) (by rw [hz]; exact hR)).1
    refine ⟨hbn, hx, ?_⟩
    rwa [← h.reads_eq (h.nl_length hbn) (h.nl_length hx)]
  · rintro ⟨hb, -, hR⟩
    refine ⟨h.nl_product hb, ?_⟩
    rwa [h.reads_eq (h.nl_length hb) (h.nl_length hx)]

/-- The network `T` consists of the links `es`, with the weights they have in `R`. -/
def TreeIs (d : Nat) (z : W) (R : List α → List α → W) (T : MNet α W) (es : List (List α × List α)) : Prop :=
  Built T d z true false (fun k x => ∃ p ∈ es, p.1[k]? = some x ∨ p.2[k]? = some x)
    (fun nl => ∃ p ∈ es, nl = p.1 ∨ nl = p.2) (fun a b => if (a, b) ∈ es then R a b else z)

theorem copyTreeLink_spec (h : Looks F d z true al S NL R) {T : MNet α W} {es : List (List α × List α)}
    (hT : TreeIs d z R T es) {a b : List α} (hab : LinkStep NL z R a b) :
    ∃ T', copyTreeLink F T a b = .ok T' ∧ TreeIs d z R T' ((a, b) :: es) := by
  have la := h.nl_length hab.1
  have lb := h.nl_length hab.2.1
  have hr := h.reads_eq la lb
  have hg := h.sound.nodeGet (h.nl_product hab.1) (h.nl_product hab.2.1)
    (Or.inr (by rw [hr, show F.view.noEdge = z from h.noEdge_eq]; exact hab.2.2))
  obtain ⟨T', t1, t2⟩ := Built.setItem hT (item := interleave a b) (u := a) (v := b)
    ⟨la, lb, Or.inl (interleave_eq_link ..)⟩ (R a b) (by simp)
  refine ⟨T', ?_, ?_⟩
  · unfold copyTreeLink
    rw [hg]
    simp only [Item.num, hr]
    unfold MNet.nodeSet nodesToLink
    rw [if_pos (by rw [la, lb])]
    exact t1
  · refine Built.congr t2 (fun k x => ?_) (fun nl => ?_) (fun u v => ?_)
    · simp only [List.mem_cons, exists_eq_or_imp]; exact or_comm
    · simp only [List.mem_cons, exists_eq_or_imp]; exact or_comm
    · by_cases hc : u = a ∧ v = b
      · obtain ⟨rfl, rfl⟩ := hc; simp
      · have : ¬ ((u, v) = (a, b)) := by simpa using hc
        simp [hc, this]

theorem treeDegIn_spec (hd : 1 ≤ d) {T : MNet α W} {es : List (List α × List α)} (hT : TreeIs d z R T es)
    (hes : ∀ p ∈ es, p.1.length = d + 1 ∧ p.2.length = d + 1 ∧ R p.1 p.2 ≠ z) {y : List α} (hy : ∃ p ∈ es, y = p.1 ∨ y = p.2) :
    ∃ k, T.view.itemDegIn y = .ok k ∧ (k = 0 ↔ ∀ a, (a, y) ∉ es) := by
  have hL := Built.looks hT (by omega) (by
    rintro - nl ⟨p, hp, rfl | rfl⟩
    · exact (hes p hp).1
    · exact (hes p hp).2.1)
  have hyN : (if false = true then AllNodeLayers d (fun k x => ∃ p ∈ es, p.1[k]? = some x ∨ p.2[k]? = some x) y
      else ∃ p ∈ es, y = p.1 ∨ y = p.2) := by simpa using hy
  obtain ⟨l, l1, l2⟩ := tree_inn hL hyN
  have hnl : T.view.nodeLayers = .ok T.nodeLayers := rfl
  have hk := hL.sound.degIn _ hnl y ((hL.nodeLayers.2 y).2 hyN) l l1
  refine ⟨l.length, ?_, ?_⟩
  · rw [itemDegIn_eq ((hL.nl_length hyN).trans (by rw [show T.view.aspects = d from hL.aspects_eq])), hk]
  · rw [show (((l.length : Nat) : Int) = 0) ↔ l = [] by simp, List.eq_nil_iff_forall_not_mem]
    refine forall_congr' fun a => not_congr ((l2 a).trans ?_)
    constructor
    · rintro ⟨-, -, hR⟩
      by_contra hc
      simp [hc] at hR
    · intro ha
      refine ⟨by simp; exact ⟨_, _, ha, Or.inl rfl⟩, hyN, ?_⟩
      simp only [ha, if_true]
      exact (hes _ ha).2.2

/-- All links of the forest into `y` are in the tree. -/
def Whole (NL : List α → Prop) (z : W) (R : List α → List α → W) (es : List (List α × List α)) (y : List α) : Prop :=
  ∀ a, LinkStep NL z R a y → (a, y) ∈ es

/-- The node-layers without an incoming link in the tree, except `x`. -/
def bare (nls : List (List α)) (es : List (List α × List α)) (x : List α) : List (List α) :=
  nls.filter fun y => decide (y ≠ x) && decide (y ∉ es.map Prod.snd)

theorem bare_lt {nls : List (List α)} {es es' : List (List α × List α)} {x b : List α} (hsub : es ⊆ es') (hb : b ∈ nls)
    (hbx : b ≠ x) (hx : ∃ a, (a, x) ∈ es') (hbe : ∀ a, (a, b) ∉ es') : (bare nls es' b).length < (bare nls es x).length := by
  have hsl : (bare nls es' b).Sublist ((bare nls es x).filter fun y => decide (y ≠ b)) := by
    unfold bare
    rw [List.filter_filter]
    refine List.monotone_filter_right nls fun y hy => ?_
    simp only [Bool.and_eq_true, decide_eq_true_eq, List.mem_map, Prod.exists, exists_eq_right, not_exists] at hy ⊢
    refine ⟨hy.1, ?_, fun a ha => hy.2 a (hsub ha)⟩
    rintro rfl
    obtain ⟨a, ha⟩ := hx
    exact hy.2 a ha
  refine lt_of_le_of_lt hsl.length_le ?_
  have hmem : b ∈ bare nls es x := by
    unfold bare
    simp only [List.mem_filter, Bool.and_eq_true, decide_eq_true_eq, List.mem_map, Prod.exists, exists_eq_right, not_exists]
    exact ⟨hb, hbx, fun a ha => hbe a (hsub ha)⟩
  exact List.length_filter_lt_length_iff_exists.2 ⟨b, hmem, by simp⟩

theorem forO_ok {σ β : Type} {f : σ → β → Option (Except Err σ)} {P : List β → σ → Prop} (l : List β) {s : σ} (h0 : P [] s)
    (hstep : ∀ pre b post s, l = pre ++ b :: post → P pre s → ∃ s', f s b = some (.ok s') ∧ P (pre ++ [b]) s') :
    ∃ s', forO f l s = some (.ok s') ∧ P l s' := by
  suffices H : ∀ post pre s, l = pre ++ post → P pre s → ∃ s', forO f post s = some (.ok s') ∧ P l s' from H l [] s rfl h0
  intro post
  induction post with
  | nil => intro pre s hl hp; refine ⟨s, rfl, ?_⟩; rw [hl, List.append_nil]; exact hp
  | cons b post ih =>
    intro pre s hl hp
    obtain ⟨s', h1, h2⟩ := hstep pre b post s hl hp
    obtain ⟨s'', h3, h4⟩ := ih (pre ++ [b]) s' (by simp [hl]) h2
    exact ⟨s'', by simp only [forO, h1]; exact h3, h4⟩

/-- The state of the tree during the construction: its links are links of the forest, and the node-layers
touched so far, other than the exempted ones, are whole. -/
structure Growing (NL : List α → Prop) (d : Nat) (z : W) (R : List α → List α → W) (ex : List α → Prop) (T : MNet α W)
    (es : List (List α × List α)) : Prop where
  tree : TreeIs d z R T es
  real : ∀ p ∈ es, LinkStep NL z R p.1 p.2
  whole : ∀ p ∈ es, ∀ y, (y = p.1 ∨ y = p.2) → ex y ∨ Whole NL z R es y

theorem Whole.mono {es es' : List (List α × List α)} (hs : es ⊆ es') {y : List α} (h : Whole NL z R es y) :
    Whole NL z R es' y := fun a ha => hs (h a ha)

theorem buildPath_spec (h : Looks F d z true al S NL R) (hd : 1 ≤ d) {nls : List (List α)} (hnls : ∀ x, NL x → x ∈ nls) :
    ∀ (n : Nat) (ex : List α → Prop) (T : MNet α W) (es : List (List α × List α)) (x : List α), NL x →
      (bare nls es x).length < n → Growing NL d z R (fun y => ex y ∨ y = x) T es →
      ∃ T' es', buildPath F n T x = some (.ok T') ∧ Growing NL d z R ex T' es' ∧ es ⊆ es' ∧ Whole NL z R es' x ∧
        ∀ p ∈ es', p ∈ es ∨ Relation.ReflTransGen (LinkStep NL z R) p.2 x := by
  intro n
  induction n with
  | zero => intro ex T es x _ hn; omega
  | succ n ih =>
    intro ex T es x hx hn hg
    obtain ⟨ns, i1, i2⟩ := tree_inn h hx
    have key := forO_ok (f := buildStep (buildPath F n) F x) (s := T)
      (P := fun pre T' => ∃ es', Growing NL d z R (fun y => ex y ∨ y = x) T' es' ∧ es ⊆ es' ∧
        (∀ b ∈ pre, (b, x) ∈ es') ∧ ∀ p ∈ es', p ∈ es ∨ Relation.ReflTransGen (LinkStep NL z R) p.2 x) ns
      ⟨es, hg, fun _ hp => hp, by simp, fun p hp => Or.inl hp⟩ (by
        rintro pre b post T0 hl ⟨es0, g0, s0, c0, r0⟩
        have hb : LinkStep NL z R b x := (i2 b).1 (by rw [hl]; simp)
        obtain ⟨T1, t1, t2⟩ := copyTreeLink_spec h g0.tree hb
        have real1 : ∀ p ∈ (b, x) :: es0, LinkStep NL z R p.1 p.2 := by
          intro p hp
          rcases List.mem_cons.1 hp with rfl | hp
          · exact hb
          · exact g0.real p hp
        obtain ⟨k, k1, k2⟩ := treeDegIn_spec hd t2 (fun p hp => ⟨h.nl_length (real1 p hp).1, h.nl_length (real1 p hp).2.1,
          (real1 p hp).2.2⟩) (y := b) ⟨_, List.mem_cons_self, Or.inl rfl⟩
        have sub1 : es0 ⊆ (b, x) :: es0 := List.subset_cons_self _ _
        have r1 : ∀ p ∈ (b, x) :: es0, p ∈ es ∨ Relation.ReflTransGen (LinkStep NL z R) p.2 x := by
          intro p hp
          rcases List.mem_cons.1 hp with rfl | hp
          · exact Or.inr .refl
          · exact r0 p hp
        unfold buildStep
        rw [t1]
        simp only [k1]
        by_cases hk : k = 0
        · rw [if_pos hk]
          have hbe := k2.1 hk
          have hbx : b ≠ x := by rintro rfl; exact hbe b List.mem_cons_self
          have hlt := bare_lt (nls := nls) (es := es) (es' := (b, x) :: es0) (x := x) (b := b) (fun p hp => sub1 (s0 hp))
            (hnls b hb.1) hbx ⟨b, List.mem_cons_self⟩ hbe
          obtain ⟨T2, es2, e1, e2, e3, e4, e5⟩ := ih (fun y => ex y ∨ y = x) T1 ((b, x) :: es0) b hb.1 (by omega)
            ⟨t2, real1, by
              intro p hp y hy
              rcases List.mem_cons.1 hp with rfl | hp
              · rcases hy with rfl | rfl
                · exact Or.inl (Or.inr rfl)
                · exact Or.inl (Or.inl (Or.inr rfl))
              · rcases g0.whole p hp y hy with h' | h'
                · exact Or.inl (Or.inl h')
                · exact Or.inr (h'.mono sub1)⟩
          refine ⟨T2, e1, es2, e2, fun p hp => e3 (sub1 (s0 hp)), ?_, ?_⟩
          · intro c hc
            rcases List.mem_append.1 hc with hc | hc
            · exact e3 (sub1 (c0 c hc))
            · rw [List.mem_singleton.1 hc]; exact e3 List.mem_cons_self
          · intro p hp
            rcases e5 p hp with h' | h'
            · exact r1 p h'
            · exact Or.inr (h'.tail hb)
        · rw [if_neg hk]
          refine ⟨T1, rfl, (b, x) :: es0, ⟨t2, real1, ?_⟩, fun p hp => sub1 (s0 hp), ?_, r1⟩
          · intro p hp y hy
            rcases List.mem_cons.1 hp with rfl | hp
            · rcases hy with rfl | rfl
              · obtain ⟨a, ha⟩ : ∃ a, (a, y) ∈ (y, x) :: es0 := by
                  by_contra hc; push Not at hc; exact hk (k2.2 hc)
                rcases List.mem_cons.1 ha with ha | ha
                · simp only [Prod.mk.injEq] at ha
                  exact Or.inl (Or.inr ha.2)
                · rcases g0.whole _ ha y (Or.inr rfl) with h' | h'
                  · exact Or.inl h'
                  · exact Or.inr (h'.mono sub1)
              · exact Or.inl (Or.inr rfl)
            · rcases g0.whole p hp y hy with h' | h'
              · exact Or.inl h'
              · exact Or.inr (h'.mono sub1)
          · intro c hc
            rcases List.mem_append.1 hc with hc | hc
            · exact sub1 (c0 c hc)
            · rw [List.mem_singleton.1 hc]; exact List.mem_cons_self)
    obtain ⟨T', t1, es', g', s', c', r'⟩ := key
    have hw : Whole NL z R es' x := fun a ha => c' a ((i2 a).2 ha)
    refine ⟨T', es', ?_, ⟨g'.tree, g'.real, ?_⟩, s', hw, r'⟩
    · simp only [buildPath, i1]; exact t1
    · intro p hp y hy
      rcases g'.whole p hp y hy with (h' | rfl) | h'
      · exact Or.inl h'
      · exact Or.inr hw
      · exact Or.inr h'

/-- Links of the forest that lead to one of the chosen node-layers. -/
def Leading (NL : List α → Prop) (z : W) (R : List α → List α → W) (best : List α → Prop) (a b : List α) : Prop :=
  LinkStep NL z R a b ∧ ∃ x, best x ∧ Relation.ReflTransGen (LinkStep NL z R) b x

theorem growing_final {T : MNet α W} {es : List (List α × List α)} {best : List α → Prop}
    (hg : Growing NL d z R (fun _ => False) T es) (hbest : ∀ x, best x → Whole NL z R es x)
    (hes : ∀ p ∈ es, ∃ x, best x ∧ Relation.ReflTransGen (LinkStep NL z R) p.2 x) (a b : List α) :
    (a, b) ∈ es ↔ Leading NL z R best a b := by
  constructor
  · intro hp; exact ⟨hg.real _ hp, hes _ hp⟩
  · rintro ⟨hl, x, hx, hpath⟩
    have : Whole NL z R es b := by
      clear hl
      induction hpath using Relation.ReflTransGen.head_induction_on with
      | refl => exact hbest x hx
      | head hab _ ih =>
        rcases hg.whole _ (ih _ hab) _ (Or.inl rfl) with h | h
        · exact h.elim
        · exact h
    exact this a hl

end Tree

end Pymnet
