import Verif.Proofs.OrbitEqs
import Verif.Props.OrbitEq

/-! The networks that `orbit_equations` makes, together with the nodes shared by the two orbits. -/

set_option linter.unusedSectionVars false
set_option linter.unusedSimpArgs false
set_option linter.unusedVariables false

namespace Pymnet

open Py MPlex

variable {α W β σ : Type} [DecidableEq α] [DecidableEq W] [Zero W] [LawfulIntNames α] [LinearOrder α] [DecidableEq σ] [One W]
  {canon : CGraph → β} {str : List (List α × Nat) × β → σ} {allowed : Option (List Nat)} {c : Coupling α W}
  {idx : Nat → α} {layers : List α} {nl N n : Nat} {T : Tables α W σ} {ol : List (Orbit α)}
  {match? : CGraph → CGraph → Option (Dict Nat Nat)} {ord : Finset α → List α} {ops ops' : List (POp α W)} {s : Finset α}
  {p : MPlex α W} {g g' : Spec.Multigraph α} {v : α} {q q1 q2 : Orbit α} {both : List α} {neg : α → Bool} {t : Nat}

theorem connected_more {g' : Spec.Multigraph α} (h : Spec.ConnectedSet g s) (hn : ∀ x ∈ s, g'.node x) (hl : ∀ x, g.layer x → g'.layer x)
    (hk : ∀ x i j, g.link x i j → g'.link x i j) : Spec.ConnectedSet g' s :=
  ⟨hn, fun i j hi hj => Relation.ReflTransGen.mono
    (fun a b ⟨ha, hb, x, hx, hl'⟩ => ⟨ha, hb, x, hl x hx, hk x a b hl'⟩) _ _ (h.connected i j hi hj)⟩

/-- what is known about a network with graph `g`, and its list of shared nodes -/
structure Shape (L : α → Prop) (v : α) (t : Nat) (g : Spec.Multigraph α) (s : Finset α) (both : List α) : Prop where
  layer : ∀ x, g.layer x ↔ L x
  node : ∀ x, x ∈ s ↔ g.node x
  conn : Spec.ConnectedSet g s
  mem : v ∈ s
  card : s.card + both.length = t
  nodup : both.Nodup
  sub : ∀ b ∈ both, b ∈ s
  both : both = [v] ∨ both.length = 2

/-- no links between the nodes of the first and the second orbit, except at `v` -/
def NoCross (neg : α → Bool) (v : α) (g : Spec.Multigraph α) : Prop :=
  ∀ x i j, g.link x i j → neg i = false → neg j = true → i = v

theorem Shape.merge {L : α → Prop} (h : Shape L v t g s [v]) (hi : Is layers c p g) (hc : NoCross neg v g) (hv : neg v = false) {a b : α}
    (ha : a ∈ s) (hb : b ∈ s) (hav : a ≠ v) (hna : neg a = false) (hnb : neg b = true) :
    Shape L v t (mergeG g a b) (s \ {b}) [v, a] := by
  have hab : a ≠ b := fun e => by rw [e, hnb] at hna; cases hna
  have hvb : v ≠ b := fun e => by rw [e, hnb] at hv; cases hv
  have hno : ∀ x, ¬ g.link x b a := fun x hl => hav (hc x a b (hi.link_node hl).2.2.2.2 hna hnb)
  have hnode : ∀ x, x ∈ s \ {b} ↔ (mergeG g a b).node x := by
    intro x
    simp only [mergeG, addK, onG, Finset.mem_sdiff, Finset.mem_singleton, h.node]
    constructor
    · exact Or.inl
    · rintro (h' | ⟨y, i, j, ⟨rfl, h2, h3⟩, rfl | rfl⟩)
      · exact h'
      · exact ⟨(h.node _).1 ha, hab⟩
      · exact ⟨(hi.link_node h3).2.2.1, h2⟩
  have hlayer : ∀ x, (mergeG g a b).layer x ↔ g.layer x := by
    intro x
    simp only [mergeG, addK, onG]
    constructor
    · rintro (h' | ⟨i, j, -, -, h3⟩)
      · exact h'
      · exact (hi.link_node h3).1
    · exact Or.inl
  refine ⟨fun x => (hlayer x).trans (h.layer x), hnode, ⟨fun x hx => (hnode x).1 hx, ?_⟩, ?_, ?_, ?_, ?_, Or.inr rfl⟩
  · let f : α → α := fun x => if x = b then a else x
    have hf : ∀ x ∈ s, f x ∈ s \ {b} := by
      intro x hx
      simp only [f]
      split
      · simp [ha, hab]
      · rename_i hne
        exact Finset.mem_sdiff.2 ⟨hx, by simpa using hne⟩
    have step : ∀ i j x, i ∈ s → j ∈ s → g.layer x → g.link x i j →
        f i = f j ∨ ((f i ∈ s \ {b} ∧ f j ∈ s \ {b} ∧ ∃ x, (mergeG g a b).layer x ∧ (mergeG g a b).link x (f i) (f j))) := by
      intro i j x hi' hj' hx hl
      refine Or.inr ⟨hf i hi', hf j hj', x, (hlayer x).2 hx, ?_⟩
      simp only [mergeG, addK, onG, f]
      by_cases hib : i = b
      · subst hib
        have hjb : j ≠ i := ((hi.link_node hl).2.2.2.1).symm
        rw [if_pos rfl, if_neg hjb]
        exact Or.inr (Or.inl ⟨rfl, hjb, hl⟩)
      · rw [if_neg hib]
        by_cases hjb : j = b
        · subst hjb
          rw [if_pos rfl]
          exact Or.inr (Or.inr ⟨rfl, hib, (hi.link_node hl).2.2.2.2⟩)
        · rw [if_neg hjb]
          exact Or.inl ⟨hl, hib, hjb⟩
    have key : ∀ i j, i ∈ s → j ∈ s → Relation.ReflTransGen
        (fun a' b' => a' ∈ s \ {b} ∧ b' ∈ s \ {b} ∧ ∃ x, (mergeG g a b).layer x ∧ (mergeG g a b).link x a' b') (f i) (f j) := by
      intro i j hi' hj'
      refine Relation.ReflTransGen.lift' f (fun a' b' hab' => ?_) _ _ (h.conn.connected i j hi' hj')
      change Relation.ReflTransGen _ (f a') (f b')
      obtain ⟨h1, h2, x, hx, hl⟩ := hab'
      rcases step a' b' x h1 h2 hx hl with e | e
      · rw [e]
      · exact Relation.ReflTransGen.single e
    intro i j hi' hj'
    have := key i j (Finset.mem_sdiff.1 hi').1 (Finset.mem_sdiff.1 hj').1
    have e1 : f i = i := if_neg (by simpa using (Finset.mem_sdiff.1 hi').2)
    have e2 : f j = j := if_neg (by simpa using (Finset.mem_sdiff.1 hj').2)
    rwa [e1, e2] at this
  · simp [h.mem, hvb]
  · have := h.card
    have hc1 : (s \ {b}).card = s.card - 1 := by
      rw [Finset.card_sdiff_of_subset (by simpa using hb), Finset.card_singleton]
    have hpos : 0 < s.card := Finset.card_pos.2 ⟨b, hb⟩
    simp only [List.length_cons, List.length_nil] at this ⊢
    omega
  · simp [hav.symm]
  · intro x hx
    simp only [List.mem_cons, List.not_mem_nil, or_false] at hx
    rcases hx with rfl | rfl
    · simp [h.mem, hvb]
    · simp [ha, hab]

/-- a network and a list of shared nodes, as they are made -/
def Comb (layers : List α) (c : Coupling α W) (L : α → Prop) (v : α) (t : Nat) (m : MPlex α W × List α) : Prop :=
  ∃ g s, Is layers c m.1 g ∧ Shape L v t g s m.2

theorem mem_splitNodes (hord : ∀ s, (ord s).Nodup ∧ ∀ x, x ∈ ord s ↔ x ∈ s) (h : Is layers c p g) (x : α) :
    (x ∈ (splitNodes neg ord both p).1 ↔ g.node x ∧ x ∉ both ∧ neg x = false) ∧
    (x ∈ (splitNodes neg ord both p).2 ↔ g.node x ∧ x ∉ both ∧ neg x = true) := by
  simp only [splitNodes, List.mem_filter, (hord _).2, Finset.mem_sdiff, List.mem_toFinset, h.node_mem, and_assoc, decide_eq_true_eq, true_and, and_self]

theorem Is.invariantKey (ok : GenOk canon str allowed c idx layers) (h : Is layers c p g) : ∃ key, p.invariantKey canon str allowed = .ok key := by
  obtain ⟨ops, rfl, hok, rfl⟩ := h
  obtain ⟨key, -, e, -⟩ := netOk_keys ok hok hok
  exact ⟨key, e⟩

theorem Is.nodeLayers (h : Is layers c p g) : ∃ l, p.nodeLayers = .ok l ∧ ∀ u, u ∈ l ↔ ∃ i x, u = [i, x] ∧ g.node i ∧ g.layer x := by
  obtain ⟨ops, rfl, hok, rfl⟩ := h
  obtain ⟨l, h1, h2⟩ := hok.shows.nls
  exact ⟨l, h1, fun u => (h2 u).trans hasNodeLayer_one⟩

theorem Is.isIsomorphic {p2 : MPlex α W} {g2 : Spec.Multigraph α} (hF : Spec.FindsIso match?) (h : Is layers c p g) (h2 : Is layers c p2 g2)
    (hl : ∀ x, g.layer x ↔ g2.layer x) (h0 : ∃ x, g.node x) (h20 : ∃ x, g2.node x) (hl0 : ∃ x, g.layer x) :
    ∃ r, isIsomorphic match? p.view p2.view (some [0]) = .ok r ∧ (r = true ↔ ∃ f0 f1, MIso (cplRel c) [0] g g2 f0 f1) := by
  obtain ⟨ops, rfl, hok, rfl⟩ := h
  obtain ⟨ops2, rfl, hok2, rfl⟩ := h2
  have hc := iso_core hok.shows hok2.shows (allowed := some [0]) (by omega) (by simp [Spec.mayChange]) hF false
  have hiff := isomorphic_iff (c := c) (allowed := some [0]) (ops' := ops2) h0 hl0
  refine (Classical.em _).elim (fun hi => ⟨_, (hc.1 hi).1, fun _ => hiff.1 hi, fun _ => rfl⟩) fun hi => ?_
  · have := hc.2 hi
    rw [if_pos] at this
    · exact ⟨_, this.1, fun h => (nomatch h), fun h => absurd (hiff.2 h) hi⟩
    · refine Or.inr ?_
      congr 1
      have key : ∀ (o : List (POp α W)), (∃ x, (Spec.shown o).node x) → ∀ t,
          (∃ nl, Spec.HasNodeLayer 1 true o nl ∧ t = Spec.pickFixed 1 (Spec.mayChange 1 (some [0])) nl) ↔
            ∃ x, (Spec.shown o).layer x ∧ t = [x] := by
        rintro o ⟨i0, hi0⟩ t
        constructor
        · rintro ⟨nl, h, rfl⟩
          obtain ⟨i, x, rfl, -, hx⟩ := hasNodeLayer_one.1 h
          exact ⟨x, hx, rfl⟩
        · rintro ⟨x, hx, rfl⟩
          exact ⟨[i0, x], hasNodeLayer_one.2 ⟨i0, x, rfl, hi0, hx⟩, rfl⟩
      ext t
      refine (key ops h0 t).trans (Iff.trans ?_ (key ops2 h20 t).symm)
      exact exists_congr fun x => and_congr_left fun _ => hl x

/-- two nodes that are merged: one of the first, one of the second graphlet, with the same links to `v` -/
def MergePair (neg : α → Bool) (v : α) (g : Spec.Multigraph α) (a b : α) : Prop :=
  (g.node a ∧ a ≠ v ∧ neg a = false) ∧ (g.node b ∧ b ≠ v ∧ neg b = true) ∧ ∀ x, g.link x v a ↔ g.link x v b

/-- when the networks of `v` with one and with another node are isomorphic -/
theorem pair_iso (hi : Is layers c p g) {a b : α} (hv : g.node v) (ha : g.node a) (hb : g.node b) (hav : a ≠ v) (hbv : b ≠ v) :
    (∃ f0 f1, MIso (cplRel c) [0] (onG g (· ∈ [v] ++ [a])) (onG g (· ∈ [v] ++ [b])) f0 f1) ↔ ∀ x, g.link x v a ↔ g.link x v b := by
  have memv : ∀ y, v ∈ [v] ++ [y] := by simp
  have memy : ∀ y, y ∈ [v] ++ [y] := by simp
  have hmem : ∀ y z, z ∈ [v] ++ [y] ↔ z = v ∨ z = y := by simp
  have hsymm : ∀ x i j, g.link x i j ↔ g.link x j i := fun x i j => ⟨fun h => (hi.link_node h).2.2.2.2, fun h => (hi.link_node h).2.2.2.2⟩
  constructor
  · rintro ⟨f0, f1, hf⟩ x
    by_cases hx : g.layer x
    · have e1 : f1 x = x := hf.fix1 (by simp) x
      have hl := hf.links x v a hx ⟨hv, memv a⟩ ⟨ha, memy a⟩
      rw [e1] at hl
      obtain ⟨-, m1⟩ := hf.nodes.mapsTo (show v ∈ {x | (onG g (· ∈ [v] ++ [a])).node x} from ⟨hv, memv a⟩)
      obtain ⟨-, m2⟩ := hf.nodes.mapsTo (show a ∈ {x | (onG g (· ∈ [v] ++ [a])).node x} from ⟨ha, memy a⟩)
      have hne : f0 v ≠ f0 a := fun e => hav (hf.nodes.injOn (show v ∈ {x | (onG g (· ∈ [v] ++ [a])).node x} from ⟨hv, memv a⟩)
        (show a ∈ {x | (onG g (· ∈ [v] ++ [a])).node x} from ⟨ha, memy a⟩) e).symm
      have hl' : g.link x v a ↔ g.link x (f0 v) (f0 a) :=
        ⟨fun h => (hl.1 ⟨h, memv a, memy a⟩).1, fun h => (hl.2 ⟨h, m1, m2⟩).1⟩
      rw [hl']
      rcases (hmem b _).1 m1 with e | e <;> rcases (hmem b _).1 m2 with e' | e'
      · exact absurd (e.trans e'.symm) hne
      · rw [e, e']
      · rw [e, e']; exact hsymm x b v
      · exact absurd (e.trans e'.symm) hne
    · exact ⟨fun h => absurd (hi.link_node h).1 hx, fun h => absurd (hi.link_node h).1 hx⟩
  · intro h
    refine ⟨fun z => if z = a then b else z, id, fun h => absurd (by simp) h, fun _ _ => rfl, ⟨?_, ?_, ?_⟩, Set.bijOn_id _, ?_, fun x y _ _ => Iff.rfl⟩
    · rintro z ⟨z1, z2⟩
      dsimp only
      rcases (hmem a _).1 z2 with rfl | rfl
      · rw [if_neg (Ne.symm hav)]; exact ⟨hv, memv b⟩
      · rw [if_pos rfl]; exact ⟨hb, memy b⟩
    · rintro z ⟨-, z2⟩ y ⟨-, y2⟩ e
      dsimp only at e
      rcases (hmem a _).1 z2 with k | k <;> rcases (hmem a _).1 y2 with k' | k' <;> rw [k, k'] at e ⊢
      · rw [if_neg (Ne.symm hav), if_pos rfl] at e; exact absurd e.symm hbv
      · rw [if_pos rfl, if_neg (Ne.symm hav)] at e; exact absurd e hbv
    · rintro z ⟨-, z2⟩
      rcases (hmem b _).1 z2 with rfl | rfl
      · exact ⟨z, ⟨hv, memv a⟩, if_neg (Ne.symm hav)⟩
      · exact ⟨a, ⟨ha, memy a⟩, if_pos rfl⟩
    · rintro x i j hx ⟨-, hi'⟩ ⟨-, hj'⟩
      have hself : ∀ i, ¬ g.link x i i := fun i h => (hi.link_node h).2.2.2.1 rfl
      change (g.link x i j ∧ _ ∧ _) ↔ g.link x _ _ ∧ _ ∧ _
      rcases (hmem a _).1 hi' with e | e <;> rcases (hmem a _).1 hj' with e' | e' <;> rw [e, e']
      · exact ⟨fun h => absurd h.1 (hself _), fun h => absurd h.1 (by rw [if_neg (Ne.symm hav)]; exact hself _)⟩
      · rw [if_neg (Ne.symm hav), if_pos rfl]
        exact ⟨fun k => ⟨(h x).1 k.1, memv b, memy b⟩, fun k => ⟨(h x).2 k.1, memv a, memy a⟩⟩
      · rw [if_neg (Ne.symm hav), if_pos rfl, hsymm x a v, hsymm x b v]
        exact ⟨fun k => ⟨(h x).1 k.1, memy b, memv b⟩, fun k => ⟨(h x).2 k.1, memy a, memv a⟩⟩
      · exact ⟨fun h => absurd h.1 (hself _), fun h => absurd h.1 (by rw [if_pos rfl]; exact hself _)⟩

theorem netLayersOf_eq {nls : List (List α)} (h : ∀ u, u ∈ nls ↔ ∃ i x, u = [i, x] ∧ g.node i ∧ g.layer x) {a : α} (ha : g.node a) (x : α) :
    x ∈ netLayersOf nls a ↔ g.layer x := by
  simp only [netLayersOf, List.mem_toFinset, List.mem_filterMap]
  constructor
  · rintro ⟨u, hu, e⟩
    obtain ⟨i, y, rfl, -, hy⟩ := (h u).1 hu
    split at e
    · simp at e; rw [← e]; exact hy
    · cases e
  · intro hx
    exact ⟨[a, x], (h _).2 ⟨a, x, rfl, ha, hx⟩, by simp⟩

/-- networks with the same invariant are isomorphic -/
theorem Is.key_iso (ok : GenOk canon str allowed c idx layers) {p2 : MPlex α W} {g2 : Spec.Multigraph α} (h : Is layers c p g) (h2 : Is layers c p2 g2)
    (h0 : ∃ x, g.node x) (hl0 : ∃ x, g.layer x) {key : σ} (e1 : p.invariantKey canon str allowed = .ok key)
    (e2 : p2.invariantKey canon str allowed = .ok key) : ∃ f0 f1, MIso (cplRel c) (Spec.mayChange 1 allowed) g g2 f0 f1 := by
  obtain ⟨ops, rfl, hok, rfl⟩ := h
  obtain ⟨ops2, rfl, hok2, rfl⟩ := h2
  obtain ⟨k1, k2, a1, a2, a3⟩ := netOk_keys ok hok hok2
  rw [e1] at a1; cases a1
  rw [e2] at a2; cases a2
  exact (isomorphic_iff h0 hl0).1 (a3.1 rfl)

theorem mergeNodes_ok (ok : GenOk canon str allowed c idx layers) (hF : Spec.FindsIso match?)
    (hord : ∀ s, (ord s).Nodup ∧ ∀ x, x ∈ ord s ↔ x ∈ s) {L : α → Prop} (hl0 : ∃ x, L x)
    (hi : Is layers c p g) (h : Shape L v t g s [v]) (hc : NoCross neg v g) (hv : neg v = false) :
    ∃ out, mergeNodes ⟨canon, str, match?, allowed⟩ neg ord [v] p = .ok out ∧ (∀ m ∈ out, Comb layers c L v t m ∧ m.2.length = 2) ∧
      ∀ a b, MergePair neg v g a b → ∃ a' b' p', MergePair neg v g a' b' ∧ (p', [v, a']) ∈ out ∧ Is layers c p' (mergeG g a' b') ∧
        Shape L v t (mergeG g a' b') (s \ {b'}) [v, a'] ∧
        ∃ f0 f1, MIso (cplRel c) (Spec.mayChange 1 allowed) (mergeG g a b) (mergeG g a' b') f0 f1 := by
  unfold mergeNodes
  simp only
  have hgl : ∃ x, g.layer x := by obtain ⟨x, hx⟩ := hl0; exact ⟨x, (h.layer x).2 hx⟩
  have hvn : g.node v := (h.node v).1 h.mem
  obtain ⟨st, e, hst, hst2, hst3⟩ : ∃ st, forE (mergePair ⟨canon, str, match?, allowed⟩ ord [v] p)
      ((splitNodes neg ord [v] p).1.flatMap fun a => (splitNodes neg ord [v] p).2.map fun b => (a, b)) ([], []) = .ok st ∧
      (∀ m ∈ st.1, Comb layers c L v t m ∧ m.2.length = 2) ∧
      (∀ ci ∈ st.2, ∃ a' b' p', MergePair neg v g a' b' ∧ (p', [v, a']) ∈ st.1 ∧ Is layers c p' (mergeG g a' b') ∧
        p'.invariantKey canon str allowed = .ok ci) ∧
      ∀ ab ∈ ((splitNodes neg ord [v] p).1.flatMap fun a => (splitNodes neg ord [v] p).2.map fun b => (a, b)), MergePair neg v g ab.1 ab.2 →
        ∃ p' ci, Is layers c p' (mergeG g ab.1 ab.2) ∧ p'.invariantKey canon str allowed = .ok ci ∧ ci ∈ st.2 := by
    refine forE_ok (P := fun (pre : List (α × α)) (st : List (MPlex α W × List α) × List σ) => (∀ m ∈ st.1, Comb layers c L v t m ∧ m.2.length = 2) ∧
      (∀ ci ∈ st.2, ∃ a' b' p', MergePair neg v g a' b' ∧ (p', [v, a']) ∈ st.1 ∧ Is layers c p' (mergeG g a' b') ∧
        p'.invariantKey canon str allowed = .ok ci) ∧
      ∀ ab ∈ pre, MergePair neg v g ab.1 ab.2 →
        ∃ p' ci, Is layers c p' (mergeG g ab.1 ab.2) ∧ p'.invariantKey canon str allowed = .ok ci ∧ ci ∈ st.2)
      (s := (([], []) : List (MPlex α W × List α) × List σ)) _ ⟨fun m hm => (nomatch hm), fun m hm => (nomatch hm), fun m hm => (nomatch hm)⟩ ?_
    intro pre comb post st hl hst
    obtain ⟨hst, hst2, hst3⟩ := hst
    have hcomb : comb ∈ (splitNodes neg ord [v] p).1.flatMap fun a => (splitNodes neg ord [v] p).2.map fun b => (a, b) := by
      rw [hl]; simp
    simp only [List.mem_flatMap, List.mem_map] at hcomb
    obtain ⟨a, ha, b, hb, rfl⟩ := hcomb
    rw [(mem_splitNodes hord hi a).1] at ha
    rw [(mem_splitNodes hord hi b).2] at hb
    obtain ⟨ha1, ha2, ha3⟩ := ha
    obtain ⟨hb1, hb2, hb3⟩ := hb
    simp only [List.mem_singleton] at ha2 hb2
    unfold mergePair
    obtain ⟨nls, e1, hnls⟩ := hi.nodeLayers
    rw [e1]
    simp only
    rw [if_neg (by
      rw [not_not]
      ext x
      rw [netLayersOf_eq hnls ha1, netLayersOf_eq hnls hb1])]
    have sub : ∀ y, g.node y → y ≠ v → ∃ p', p.subnet [some ([v] ++ [y]), some (p.slices.getD 1 [])] false = .ok p' ∧
        Is layers c p' (onG g (· ∈ [v] ++ [y])) := by
      intro y hy hyv
      refine hi.subnet ok ?_ ?_
      · simp [hyv.symm]
      · intro x hx
        simp only [List.cons_append, List.nil_append, List.mem_cons, List.not_mem_nil, or_false] at hx
        rcases hx with rfl | rfl
        · exact hvn
        · exact hy
    obtain ⟨p1, e2, hp1⟩ := sub a ha1 ha2
    obtain ⟨p2, e3, hp2⟩ := sub b hb1 hb2
    rw [e2]
    simp only
    rw [e3]
    simp only
    obtain ⟨r, e4, hr⟩ := hp1.isIsomorphic hF hp2 (fun x => Iff.rfl) ⟨v, hvn, by simp⟩ ⟨v, hvn, by simp⟩ hgl
    rw [pair_iso hi hvn ha1 hb1 ha2 hb2] at hr
    rw [e4]
    cases r with
    | false =>
      refine ⟨st, rfl, hst, hst2, fun ab hab hm => ?_⟩
      rcases List.mem_append.1 hab with hab | hab
      · exact hst3 ab hab hm
      · obtain rfl := List.mem_singleton.1 hab
        exact absurd (hr.2 hm.2.2) (by simp)
    | true =>
      have hmp : MergePair neg v g a b := ⟨⟨ha1, ha2, ha3⟩, ⟨hb1, hb2, hb3⟩, hr.1 rfl⟩
      simp only
      have hno : ∀ x, ¬ g.link x b a := fun x hl => ha2 (hc x a b (hi.link_node hl).2.2.2.2 ha3 hb3)
      obtain ⟨q', p', e5, e6, hp'⟩ := hi.mergeNet ok hord hb1 hno
      rw [e5]
      simp only
      rw [e6]
      simp only
      obtain ⟨key, e7⟩ := hp'.invariantKey ok
      rw [e7]
      simp only
      split
      · rename_i hin
        refine ⟨st, rfl, hst, hst2, fun ab hab hm => ?_⟩
        rcases List.mem_append.1 hab with hab | hab
        · exact hst3 ab hab hm
        · obtain rfl := List.mem_singleton.1 hab
          exact ⟨p', key, hp', e7, hin⟩
      · refine ⟨_, rfl, fun m hm => ?_, fun ci hci => ?_, fun ab hab hm => ?_⟩
        · rcases List.mem_append.1 hm with hm | hm
          · exact hst m hm
          · simp only [List.mem_singleton] at hm
            subst hm
            exact ⟨⟨_, _, hp', h.merge hi hc hv ((h.node a).2 ha1) ((h.node b).2 hb1) ha2 ha3 hb3⟩, rfl⟩
        · rcases List.mem_append.1 hci with hci | hci
          · obtain ⟨a', b', p'', k1, k2, k3⟩ := hst2 ci hci
            exact ⟨a', b', p'', k1, List.mem_append_left _ k2, k3⟩
          · obtain rfl := List.mem_singleton.1 hci
            exact ⟨a, b, p', hmp, List.mem_append_right _ (by simp), hp', e7⟩
        · rcases List.mem_append.1 hab with hab | hab
          · obtain ⟨p'', ci, k1, k2, k3⟩ := hst3 ab hab hm
            exact ⟨p'', ci, k1, k2, List.mem_append_left _ k3⟩
          · obtain rfl := List.mem_singleton.1 hab
            exact ⟨p', key, hp', e7, List.mem_append_right _ (by simp)⟩
  refine ⟨st.1, by rw [e], hst, fun a b hab => ?_⟩
  obtain ⟨p', ci, k1, k2, k3⟩ := hst3 (a, b) (by
    simp only [List.mem_flatMap, List.mem_map]
    exact ⟨a, (mem_splitNodes hord hi a).1.2 (by simpa using hab.1), b, (mem_splitNodes hord hi b).2.2 (by simpa using hab.2.1), rfl⟩) hab
  obtain ⟨a', b', p'', j1, j2, j3, j4⟩ := hst2 ci k3
  have hsh := fun (a b : α) (hab : MergePair neg v g a b) => h.merge hi hc hv ((h.node a).2 hab.1.1) ((h.node b).2 hab.2.1.1) hab.1.2.1 hab.1.2.2 hab.2.1.2.2
  have hs1 := hsh a b hab
  refine ⟨a', b', p'', j1, j2, j3, hsh a' b' j1, k1.key_iso ok j3 ⟨v, (hs1.node v).1 hs1.mem⟩ ?_ k2 j4⟩
  obtain ⟨x, hx⟩ := hl0
  exact ⟨x, (hs1.layer x).2 hx⟩

theorem Shape.add {L : α → Prop} (h : Shape L v t g s both) {K : α → α → α → Prop} (hK : ∀ x i j, K x i j → L x ∧ i ∈ s ∧ j ∈ s) :
    Shape L v t (addK g K) s both := by
  have hlayer : ∀ x, (addK g K).layer x ↔ L x := by
    intro x
    simp only [addK, h.layer]
    constructor
    · rintro (h' | ⟨i, j, h'⟩)
      · exact h'
      · exact (hK _ _ _ h').1
    · exact Or.inl
  have hnode : ∀ x, x ∈ s ↔ (addK g K).node x := by
    intro x
    simp only [addK, ← h.node]
    constructor
    · exact Or.inl
    · rintro (h' | ⟨y, i, j, h', rfl | rfl⟩)
      · exact h'
      · exact (hK _ _ _ h').2.1
      · exact (hK _ _ _ h').2.2
  exact ⟨hlayer, hnode, connected_more h.conn (fun x hx => (hnode x).1 hx) (fun x hx => (hlayer x).2 ((h.layer x).1 hx))
    (fun x i j hl => Or.inl hl), h.mem, h.card, h.nodup, h.sub, h.both⟩

theorem collect_mem {γ δ : Type} {f : γ → Except Err (List δ)} (l : List γ) (P : γ → List δ → Prop) (h : ∀ x ∈ l, ∃ r, f x = .ok r ∧ P x r) :
    ∃ out, View.collect f l = .ok out ∧ (∀ y ∈ out, ∃ x ∈ l, ∃ r, P x r ∧ y ∈ r) ∧ ∀ x ∈ l, ∃ r, P x r ∧ ∀ y ∈ r, y ∈ out := by
  classical
  let k : γ → List δ := fun x => if hx : ∃ r, f x = .ok r ∧ P x r then hx.choose else []
  have hk : ∀ x ∈ l, f x = .ok (k x) ∧ P x (k x) := by
    intro x hx
    simp only [k, dif_pos (h x hx)]
    exact (h x hx).choose_spec
  refine ⟨_, View.collect_ok (g := k) fun x hx => (hk x hx).1, fun y hy => ?_, fun x hx => ?_⟩
  · obtain ⟨x, hx, hy⟩ := List.mem_flatMap.1 hy
    exact ⟨x, hx, _, (hk x hx).2, hy⟩
  · exact ⟨_, (hk x hx).2, fun y hy => List.mem_flatMap.2 ⟨x, hx, hy⟩⟩

omit [DecidableEq α] [DecidableEq W] [Zero W] [LawfulIntNames α] [LinearOrder α] [DecidableEq σ] [One W] in
theorem mem_product_replicate {γ : Type} (k : Nat) (l : List γ) (t : List γ) :
    t ∈ product (List.replicate k l) ↔ t.length = k ∧ ∀ x ∈ t, x ∈ l := by
  induction k generalizing t with
  | zero =>
    simp only [List.replicate_zero, product, List.mem_singleton]
    constructor
    · rintro rfl; simp
    · rintro ⟨h, -⟩; exact List.length_eq_zero_iff.1 h
  | succ k ih =>
    simp only [List.replicate_succ, product, List.mem_flatMap, List.mem_map, ih]
    constructor
    · rintro ⟨x, hx, t', ⟨h1, h2⟩, rfl⟩
      exact ⟨by simp [h1], fun y hy => by rcases List.mem_cons.1 hy with rfl | hy; exacts [hx, h2 y hy]⟩
    · rintro ⟨h1, h2⟩
      match t, h1, h2 with
      | x :: t', h1, h2 => exact ⟨x, h2 x (by simp), t', ⟨by simpa using h1, fun y hy => h2 y (by simp [hy])⟩, rfl⟩

theorem addPossibleEdges_ok (ok : GenOk canon str allowed c idx layers) (hord : ∀ s, (ord s).Nodup ∧ ∀ x, x ∈ ord s ↔ x ∈ s) {L : α → Prop}
    (hi : Is layers c p g) (h : Shape L v t g s both) :
    ∃ out, addPossibleEdges neg ord both p = .ok out ∧ (∀ p' ∈ out, Comb layers c L v t (p', both)) ∧
      ∀ K : α → α → α → Prop, (∀ x i j, K x i j → L x ∧ (i ∈ s ∧ i ∉ both ∧ neg i = false) ∧ j ∈ s ∧ j ∉ both ∧ neg j = true) →
        (∃ x i j, K x i j) → ∃ p' ∈ out, Is layers c p' (addK g K) := by
  classical
  set edges := (splitNodes neg ord both p).1.flatMap fun a => (splitNodes neg ord both p).2.map fun b => (a, b) with hedges
  have hmem : ∀ a b, (a, b) ∈ edges ↔ (a ∈ s ∧ a ∉ both ∧ neg a = false) ∧ b ∈ s ∧ b ∉ both ∧ neg b = true := by
    intro a b
    simp only [hedges, List.mem_flatMap, List.mem_map, Prod.mk.injEq]
    constructor
    · rintro ⟨a', ha, b', hb, rfl, rfl⟩
      rw [(mem_splitNodes hord hi a').1] at ha
      rw [(mem_splitNodes hord hi b').2] at hb
      rw [h.node, h.node]
      exact ⟨ha, hb⟩
    · rintro ⟨ha, hb⟩
      rw [h.node] at ha hb
      exact ⟨a, (mem_splitNodes hord hi a).1.2 ha, b, (mem_splitNodes hord hi b).2.2 hb, rfl, rfl⟩
  have hnet : ∃ q, Pymnet.nodesNet ord p (p.slices.headD []).toFinset = .ok q ∧ Is layers c q g := by
    obtain ⟨q, e1, hq⟩ := hi.nodesNet ok hord (s := (p.slices.headD []).toFinset) (fun x hx => (hi.node_mem x).1 (List.mem_toFinset.1 hx))
    refine ⟨q, e1, ?_⟩
    rwa [onG_all (fun x hx => List.mem_toFinset.2 ((hi.node_mem x).2 hx))
      (fun x i j h => ⟨(hi.link_node h).2.1, (hi.link_node h).2.2.1⟩)] at hq
  obtain ⟨q, e1, hq⟩ := hnet
  have choice : ∀ (ec : List (α × α)) (el : List (List α)), (∀ e ∈ ec, e ∈ edges) → (∀ l ∈ el, l.Sublist (p.slices.getD 1 [])) →
      ∃ p', addEdgeChoices (ec.zip el) q = .ok p' ∧ Is layers c p' (addK g fun x i j => ∃ u ∈ ec.zip el, u.1 = (i, j) ∧ x ∈ u.2) := by
    intro ec el h1 h2
    refine hq.addChoices ok _ fun u hu => ⟨fun e => ?_, fun x hx => ?_⟩
    · obtain ⟨⟨-, -, k1⟩, -, -, k2⟩ := (hmem u.1.1 u.1.2).1 (h1 u.1 (List.of_mem_zip hu).1)
      rw [e, k2] at k1; cases k1
    · exact (hi.layer_mem x).1 ((h2 u.2 (List.of_mem_zip hu).2).subset hx)
  have hec : ∀ ec, ec ∈ ((List.range' 1 edges.length).flatMap fun k => combinations edges k) ↔ ec.Sublist edges ∧ ec ≠ [] := by
    intro ec
    exact mem_layerCombinations (L := edges)
  have hel : ∀ (ec : List (α × α)) el, el ∈ product (List.replicate ec.length (layerCombinations (p.slices.getD 1 []))) ↔
      el.length = ec.length ∧ ∀ l ∈ el, l.Sublist (p.slices.getD 1 []) ∧ l ≠ [] := by
    intro ec el
    rw [mem_product_replicate]
    exact and_congr_right fun _ => forall_congr' fun l => imp_congr_right fun _ => mem_layerCombinations
  obtain ⟨out, e2, o1, o2⟩ := collect_mem
    (f := fun edgeComb => View.collect (fun edgeLayers =>
      match Pymnet.nodesNet ord p (p.slices.headD []).toFinset with
      | .error e => .error e
      | .ok new =>
        match addEdgeChoices (edgeComb.zip edgeLayers) new with
        | .error e => .error e
        | .ok new => .ok [new]) (product (List.replicate edgeComb.length (layerCombinations (p.slices.getD 1 [])))))
    ((List.range' 1 edges.length).flatMap fun k => combinations edges k)
    (fun ec r => (∀ p' ∈ r, ∃ el ∈ product (List.replicate ec.length (layerCombinations (p.slices.getD 1 []))),
        Is layers c p' (addK g fun x i j => ∃ u ∈ ec.zip el, u.1 = (i, j) ∧ x ∈ u.2)) ∧
      ∀ el ∈ product (List.replicate ec.length (layerCombinations (p.slices.getD 1 []))), ∃ p' ∈ r,
        Is layers c p' (addK g fun x i j => ∃ u ∈ ec.zip el, u.1 = (i, j) ∧ x ∈ u.2)) (by
      intro ec hc
      obtain ⟨r, e3, r1, r2⟩ := collect_mem
        (f := fun edgeLayers =>
          match Pymnet.nodesNet ord p (p.slices.headD []).toFinset with
          | .error e => .error e
          | .ok new =>
            match addEdgeChoices (ec.zip edgeLayers) new with
            | .error e => .error e
            | .ok new => .ok [new])
        (product (List.replicate ec.length (layerCombinations (p.slices.getD 1 []))))
        (fun el r => ∃ p', r = [p'] ∧ Is layers c p' (addK g fun x i j => ∃ u ∈ ec.zip el, u.1 = (i, j) ∧ x ∈ u.2)) (by
          intro el hl
          obtain ⟨p', e4, hp'⟩ := choice ec el (fun e he => ((hec ec).1 hc).1.subset he) (fun l hl' => (((hel ec el).1 hl).2 l hl').1)
          rw [e1]
          simp only
          rw [e4]
          exact ⟨_, rfl, p', rfl, hp'⟩)
      refine ⟨r, e3, fun p' hp' => ?_, fun el hl => ?_⟩
      · obtain ⟨el, hl, r', ⟨p2, rfl, h2⟩, h3⟩ := r1 p' hp'
        rw [List.mem_singleton] at h3
        exact ⟨el, hl, h3 ▸ h2⟩
      · obtain ⟨r', ⟨p2, rfl, h2⟩, h3⟩ := r2 el hl
        exact ⟨p2, h3 p2 (by simp), h2⟩)
  refine ⟨out, e2, fun p' hp' => ?_, fun K hK hne => ?_⟩
  · obtain ⟨ec, hc, r, ⟨r1, -⟩, hr⟩ := o1 p' hp'
    obtain ⟨el, hl, hI⟩ := r1 p' hr
    refine ⟨_, s, hI, h.add ?_⟩
    rintro x i j ⟨u, hu, hij, hx⟩
    obtain ⟨hu1, hu2⟩ := List.of_mem_zip (a := u.1) (b := u.2) hu
    have := (hmem i j).1 (((hec ec).1 hc).1.subset (hij ▸ hu1))
    exact ⟨(h.layer x).1 ((hi.layer_mem x).1 ((((hel ec el).1 hl).2 _ hu2).1.subset hx)), this.1.1, this.2.1⟩
  · let ec := edges.filter fun e => ∃ x, K x e.1 e.2
    let lay : α × α → List α := fun e => (p.slices.getD 1 []).filter fun x => K x e.1 e.2
    have hlay : ∀ x i j, x ∈ lay (i, j) ↔ K x i j := by
      intro x i j
      simp only [lay, List.mem_filter, decide_eq_true_eq]
      exact ⟨fun h => h.2, fun hk => ⟨(hi.layer_mem x).2 ((h.layer x).2 (hK x i j hk).1), hk⟩⟩
    have hin : ∀ i j, (i, j) ∈ ec ↔ ∃ x, K x i j := by
      intro i j
      simp only [ec, List.mem_filter, decide_eq_true_eq]
      exact ⟨fun h => h.2, fun ⟨x, hk⟩ => ⟨(hmem i j).2 (hK x i j hk).2, x, hk⟩⟩
    obtain ⟨x0, i0, j0, h0⟩ := hne
    have hc := (hec ec).2 ⟨List.filter_sublist, List.ne_nil_of_mem ((hin i0 j0).2 ⟨x0, h0⟩)⟩
    obtain ⟨r, ⟨-, r2⟩, hr⟩ := o2 ec hc
    obtain ⟨p', hp', hI⟩ := r2 (ec.map lay) ((hel ec _).2 ⟨by simp, fun l hl => by
      obtain ⟨⟨i, j⟩, he, rfl⟩ := List.mem_map.1 hl
      obtain ⟨x, hk⟩ := (hin i j).1 he
      exact ⟨List.filter_sublist, List.ne_nil_of_mem ((hlay x i j).2 hk)⟩⟩)
    refine ⟨p', hr p' hp', ?_⟩
    rwa [addK_congr (L := K)] at hI
    intro x i j
    constructor
    · rintro ⟨u, hu, hij, hx⟩
      rw [List.zip_map_right] at hu
      obtain ⟨⟨a, b⟩, hab, rfl⟩ := List.mem_map.1 hu
      obtain rfl : a = b := by
        obtain ⟨k, hk⟩ := List.getElem?_of_mem hab
        rw [List.getElem?_zip_eq_some] at hk
        exact Option.some.inj (hk.1.symm.trans hk.2)
      simp only [Prod.map_apply, id] at hij hx
      subst hij
      exact (hlay x i j).1 hx
    · intro hk
      obtain ⟨k, hk'⟩ := List.getElem?_of_mem ((hin i j).2 ⟨x, hk⟩)
      refine ⟨((i, j), lay (i, j)), ?_, rfl, (hlay x i j).2 hk⟩
      rw [List.mem_iff_getElem?]
      refine ⟨k, ?_⟩
      rw [List.getElem?_zip_eq_some]
      exact ⟨hk', by rw [List.getElem?_map, hk']; rfl⟩

end Pymnet
