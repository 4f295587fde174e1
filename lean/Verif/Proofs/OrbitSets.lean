import Verif.Model.OrbitCounts
import Verif.Spec.OrbitCounts
import Verif.Proofs.GenMain
import Verif.Proofs.Orbits

/-! The connected sets of nodes that `touching_orbit_nodes` and `orbit_counts_all` collect. -/

set_option linter.unusedSectionVars false
set_option linter.unusedSimpArgs false
set_option linter.unusedVariables false

namespace Pymnet

open Py MPlex

section sets

variable {α : Type} [DecidableEq α] {E : α → α → Prop} {Q : α → Prop}

/-- Internal: connected, contains `v`, all nodes satisfy `Q`. -/
structure Conn (E : α → α → Prop) (Q : α → Prop) (v : α) (t : Finset α) : Prop where
  mem : v ∈ t
  all : ∀ x ∈ t, Q x
  conn : Spec.LinkConnected (· ∈ t) E

theorem Conn.single {v : α} (hv : Q v) : Conn E Q v {v} := by
  refine ⟨by simp, by simpa using hv, ?_⟩
  intro i j hi hj
  simp at hi hj
  subst hi; subst hj
  exact Relation.ReflTransGen.refl

theorem conn_card_one {v : α} (hv : Q v) {t : Finset α} : (Conn E Q v t ∧ t.card = 1) ↔ t = {v} := by
  constructor
  · rintro ⟨h, h1⟩
    obtain ⟨x, rfl⟩ := Finset.card_eq_one.1 h1
    have := h.mem
    simp at this
    rw [this]
  · rintro rfl
    exact ⟨.single hv, by simp⟩

theorem Conn.insert {v i j : α} {p : Finset α} (hs : ∀ a b, E a b → E b a) (h : Conn E Q v p) (hi : i ∈ p) (hij : E i j)
    (hj : Q j) : Conn E Q v (insert j p) := by
  refine ⟨by simp [h.mem], ?_, ?_⟩
  · intro x hx
    rcases Finset.mem_insert.1 hx with rfl | hx
    · exact hj
    · exact h.all x hx
  · exact h.conn.add hs hi hij fun x => by simp [or_comm]

theorem Conn.grow (hs : ∀ a b, E a b → E b a) {v : α} {t : Finset α} (h : Conn E Q v t) (k : Nat) (h1 : 1 ≤ k) (hk : k ≤ t.card) :
    ∃ p ⊆ t, Conn E Q v p ∧ p.card = k := by
  induction k with
  | zero => omega
  | succ k ih =>
    rcases Nat.eq_zero_or_pos k with rfl | hpos
    · exact ⟨{v}, by simpa using h.mem, .single (h.all v h.mem), by simp⟩
    · obtain ⟨p, hp, hc, hcard⟩ := ih hpos (by omega)
      obtain ⟨j, hj, hjp⟩ : ∃ j ∈ t, j ∉ p := by
        by_contra hcon
        simp only [not_exists, not_and, not_not] at hcon
        have := Finset.card_le_card (s := t) (t := p) hcon
        omega
      obtain ⟨a, b, ⟨ha, hb, hab⟩, hap, hbp⟩ := Spec.LinkConnected.cross (s := (· ∈ p)) (h.conn v j h.mem hj) hc.mem hjp
      refine ⟨Insert.insert b p, ?_, hc.insert hs hap hab (h.all b hb), by rw [Finset.card_insert_of_notMem hbp, hcard]⟩
      intro x hx
      rcases Finset.mem_insert.1 hx with rfl | hx
      · exact hb
      · exact hp hx

/-- the sets with one node more -/
theorem conn_succ (hs : ∀ a b, E a b → E b a) {v : α} {t : Finset α} {m : Nat} (hm : 1 ≤ m) :
    (Conn E Q v t ∧ t.card = m + 1) ↔
      ∃ p, (Conn E Q v p ∧ p.card = m) ∧ ∃ i ∈ p, ∃ j, E i j ∧ j ∉ p ∧ Q j ∧ t = insert j p := by
  constructor
  · rintro ⟨h, hcard⟩
    obtain ⟨p, hp, hc, hpc⟩ := h.grow hs m hm (by omega)
    obtain ⟨j, hj, hjp⟩ : ∃ j ∈ t, j ∉ p := by
      by_contra hcon
      simp only [not_exists, not_and, not_not] at hcon
      have := Finset.card_le_card (s := t) (t := p) hcon
      omega
    obtain ⟨a, b, ⟨ha, hb, hab⟩, hap, hbp⟩ := Spec.LinkConnected.cross (s := (· ∈ p)) (h.conn v j h.mem hj) hc.mem hjp
    refine ⟨p, ⟨hc, hpc⟩, a, hap, b, hab, hbp, h.all b hb, ?_⟩
    refine (Finset.eq_of_subset_of_card_le ?_ ?_).symm
    · intro x hx
      rcases Finset.mem_insert.1 hx with rfl | hx
      · exact hb
      · exact hp hx
    · rw [Finset.card_insert_of_notMem hbp]; omega
  · rintro ⟨p, ⟨hc, hpc⟩, i, hi, j, hij, hjp, hj, rfl⟩
    exact ⟨hc.insert hs hi hij hj, by rw [Finset.card_insert_of_notMem hjp, hpc]⟩

/-- Internal: adds exactly the elements with `P`. -/
def Adds {γ : Type} (f : List γ → Except Err (List γ)) (P : γ → Prop) : Prop :=
  ∀ c, c.Nodup → ∃ c', f c = .ok c' ∧ c'.Nodup ∧ ∀ t, t ∈ c' ↔ t ∈ c ∨ P t

theorem Adds.forE {γ δ : Type} {f : List γ → δ → Except Err (List γ)} {P : δ → γ → Prop} (l : List δ)
    (h : ∀ b ∈ l, Adds (fun c => f c b) (P b)) : Adds (forE f l) (fun t => ∃ b ∈ l, P b t) := by
  intro c hc
  obtain ⟨c', e, h1, h2⟩ := forE_ok (f := f) (s := c)
    (P := fun pre c' => c'.Nodup ∧ ∀ t, t ∈ c' ↔ t ∈ c ∨ ∃ b ∈ pre, P b t) l ⟨hc, by simp⟩ (by
      intro pre b post s hl ⟨h1, h2⟩
      obtain ⟨s', e, h3, h4⟩ := h b (by simp [hl]) s h1
      refine ⟨s', e, h3, fun t => ?_⟩
      rw [h4, h2]
      simp only [List.mem_append, List.mem_singleton]
      constructor
      · rintro ((h | ⟨b', h5, h6⟩) | h)
        · exact Or.inl h
        · exact Or.inr ⟨b', Or.inl h5, h6⟩
        · exact Or.inr ⟨b, Or.inr rfl, h⟩
      · rintro (h | ⟨b', h5 | rfl, h6⟩)
        · exact Or.inl (Or.inl h)
        · exact Or.inl (Or.inr ⟨b', h5, h6⟩)
        · exact Or.inr h6)
  exact ⟨c', e, h1, h2⟩

theorem Adds.congr {γ : Type} {f : List γ → Except Err (List γ)} {P P' : γ → Prop} (h : Adds f P) (hP : ∀ t, P t ↔ P' t) :
    Adds f P' := by
  intro c hc
  obtain ⟨c', e, h1, h2⟩ := h c hc
  exact ⟨c', e, h1, fun t => by rw [h2, hP]⟩

theorem nodup_sadd {γ : Type} [DecidableEq γ] {s : List γ} (h : s.Nodup) (x : γ) : (sadd s x).Nodup := by
  unfold sadd
  split
  · exact h
  · rename_i hx
    rw [List.nodup_append]
    refine ⟨h, by simp, ?_⟩
    intro a ha b hb
    simp at hb; subst hb
    rintro rfl; exact hx ha

theorem nodup_foldl_sadd {γ : Type} [DecidableEq γ] {t s : List γ} (h : s.Nodup) : (t.foldl sadd s).Nodup := by
  induction t generalizing s with
  | nil => exact h
  | cons a t ih => exact ih (nodup_sadd h a)

end sets

variable {α W : Type} [DecidableEq α] [DecidableEq W] [Zero W] [LawfulIntNames α] [LinearOrder α]

/-- Internal: a network with a good coupling, without self-links. -/
structure NetOk (layers : List α) (c : Coupling α W) (ops : List (POp α W)) : Prop where
  cpl : Spec.GoodCoupling layers c
  lay : ∀ x, (Spec.shown ops).layer x → x ∈ layers
  self : Spec.NoIntraSelf ops

variable {layers : List α} {c : Coupling α W} {ops : List (POp α W)}

theorem NetOk.shows (ok : NetOk layers c ops) : Shows (afterP [c] false 0 true ops).view 1
      (fun a x => if a = 0 then (Spec.shown ops).node x else (Spec.shown ops).layer x) (Spec.HasNodeLayer 1 true ops)
      (Spec.Linked [c] false true ops) :=
  shows_one ok.cpl ok.lay (after_noself (by simp) false 0 true ops ok.self)

theorem link_node {x i j : α} (h : (Spec.shown ops).link x i j) :
    (Spec.shown ops).layer x ∧ (Spec.shown ops).node i ∧ (Spec.shown ops).node j := by
  obtain ⟨h1, h2, h3⟩ := readP_ne (cs := [(.uncoupled none : Coupling α W)]) (by simp) (dir := false) (al := true) (ops := ops) (s := [x]) rfl h.2
  exact ⟨hasLayer_shown.1 h1, h2, h3⟩

/-- the neighbours of a node on a layer -/
theorem neighbours_one (ok : NetOk layers c ops) {i x : α} (hi : (Spec.shown ops).node i) (hx : (Spec.shown ops).layer x) :
    ∃ l, (afterP [c] false 0 true ops).view.iterTotal [i, x] none = .ok l ∧ l.Nodup ∧
      ∀ b, b ∈ l ↔ ∃ j y, b = [j, y] ∧ (Spec.shown ops).node j ∧ (Spec.shown ops).layer y ∧
        ((x = y ∧ (Spec.shown ops).link x i j) ∨ (i = j ∧ cplRel c x y)) := by
  have hsh := ok.shows
  obtain ⟨R, hR, hL⟩ := hsh.sound
  have hu : Spec.HasNodeLayer 1 true ops [i, x] := hasNodeLayer_one.2 ⟨i, x, rfl, hi, hx⟩
  have hprod : ∀ u, u ∈ product (afterP [c] false 0 true ops).slices ↔ Spec.HasNodeLayer 1 true ops u := by
    intro u
    rw [after_product (by simp) false 0 true ops]
    constructor
    · rintro ⟨n, s, rfl, hs, h1, h2⟩
      exact ⟨n, s, rfl, hs, Or.inl ⟨rfl, h1, h2⟩⟩
    · rintro ⟨n, s, rfl, hs, (⟨-, h1, h2⟩ | ⟨h, -⟩)⟩
      · exact ⟨n, s, rfl, hs, h1, h2⟩
      · cases h
  obtain ⟨l, e, hn, hm⟩ := hR.tot [i, x] ((hprod _).2 hu)
  refine ⟨l, e, hn, fun b => ?_⟩
  rw [hm]
  change b ∈ product (afterP [c] false 0 true ops).slices ∧ _ ↔ _
  rw [hprod]
  constructor
  · rintro ⟨hb, hr⟩
    have hr' : R [i, x] b ≠ (afterP [c] false 0 true ops).view.noEdge := by
      rcases hr with h | h
      · exact h
      · rw [hR.sym hsh.undir [i, x] ((hprod _).2 hu) b ((hprod _).2 hb)]; exact h
    have hl := (hL _ _ hu hb).2 hr'
    obtain ⟨j, y, rfl, h1, h2⟩ := hasNodeLayer_one.1 hb
    exact ⟨j, y, rfl, h1, h2, linked_one.1 hl⟩
  · rintro ⟨j, y, rfl, h1, h2, h3⟩
    have hb : Spec.HasNodeLayer 1 true ops [j, y] := hasNodeLayer_one.2 ⟨j, y, rfl, h1, h2⟩
    exact ⟨hb, Or.inl ((hL _ _ hu hb).1 (linked_one.2 h3))⟩

/-- Two nodes are linked on some layer. -/
def Edge (ops : List (POp α W)) (a b : α) : Prop := ∃ x, (Spec.shown ops).layer x ∧ (Spec.shown ops).link x a b

theorem Edge.symm {a b : α} (h : Edge ops a b) : Edge ops b a := by
  obtain ⟨x, h1, h2⟩ := h
  exact ⟨x, h1, link_symm h2⟩

theorem growLayer_spec (ok : NetOk layers c ops) {processed : List α} {p : Finset α} {node x : α}
    (hi : (Spec.shown ops).node node) (hip : node ∈ p) (hx : (Spec.shown ops).layer x) :
    Adds (fun s => growLayer (afterP [c] false 0 true ops).view processed p node s x)
      (fun t => ∃ j, (Spec.shown ops).link x node j ∧ j ∉ p ∧ j ∉ processed ∧ t = insert j p) := by
  obtain ⟨l, e, -, hm⟩ := neighbours_one ok hi hx
  unfold growLayer
  simp only [e]
  refine (Adds.forE (P := fun nb t => ∃ j, nb.head? = some j ∧ j ∉ p ∧ j ∉ processed ∧ t = insert j p) l ?_).congr ?_
  · intro nb hnb cs hcs
    obtain ⟨j, y, rfl, -⟩ := (hm nb).1 hnb
    by_cases hj : j ∈ p ∨ j ∈ processed
    · refine ⟨cs, by simp only [List.head?_cons]; rw [if_pos hj], hcs, fun t => ?_⟩
      simp only [List.head?_cons, Option.some.injEq]
      refine ⟨Or.inl, ?_⟩
      rintro (h | ⟨j', rfl, h1, h2, -⟩)
      · exact h
      · exact (hj.elim h1 h2).elim
    · refine ⟨_, by simp only [List.head?_cons]; rw [if_neg hj], nodup_sadd hcs _, fun t => ?_⟩
      rw [mem_sadd]
      rw [not_or] at hj
      simp only [List.head?_cons, Option.some.injEq, exists_eq_left', hj, not_false_iff, true_and]
  · intro t
    constructor
    · rintro ⟨nb, hnb, j, hj, h1, h2, h3⟩
      obtain ⟨j', y, rfl, -, -, h⟩ := (hm nb).1 hnb
      cases hj
      rcases h with ⟨rfl, h⟩ | ⟨rfl, -⟩
      · exact ⟨j, h, h1, h2, h3⟩
      · exact absurd hip h1
    · rintro ⟨j, h, h1, h2, h3⟩
      exact ⟨[j, x], (hm _).2 ⟨j, x, rfl, (link_node h).2.2, hx, Or.inl ⟨rfl, h⟩⟩, j, rfl, h1, h2, h3⟩

theorem mem_slices_one (c : Coupling α W) (ops : List (POp α W)) : (∀ x, x ∈ (afterP [c] false 0 true ops).slices.headD [] ↔ (Spec.shown ops).node x) ∧
    ∀ x, x ∈ (afterP [c] false 0 true ops).slices.getD 1 [] ↔ (Spec.shown ops).layer x := by
  have hb := builtX_after [c] false 0 true ops
  constructor
  · intro x
    have := hb.mem_slices (by simp) (a := 0) (by omega) x
    rw [if_pos rfl] at this
    refine Iff.trans ?_ this
    cases (afterP [c] false 0 true ops).slices <;> simp
  · intro x
    have := hb.mem_slices (by simp) (a := 1) (by simp) x
    rw [if_neg (by omega)] at this
    exact this

variable {ord : Finset α → List α}

theorem growSets_spec (ok : NetOk layers c ops) (hord : ∀ s x, x ∈ ord s ↔ x ∈ s) {processed lays : List α}
    (hlays : ∀ x, x ∈ lays ↔ (Spec.shown ops).layer x) {ps : List (Finset α)} (hps : ∀ p ∈ ps, ∀ x ∈ p, (Spec.shown ops).node x) :
    Adds (growSets ord (afterP [c] false 0 true ops).view processed lays ps)
      (fun t => ∃ p ∈ ps, ∃ i ∈ p, ∃ j, Edge ops i j ∧ j ∉ p ∧ ((Spec.shown ops).node j ∧ j ∉ processed) ∧ t = insert j p) := by
  unfold growSets
  refine (Adds.forE _ fun p hp => Adds.forE _ fun i hi => Adds.forE _ fun x hx =>
    growLayer_spec ok (hps p hp i ((hord _ _).1 hi)) ((hord _ _).1 hi) ((hlays x).1 hx)).congr ?_
  intro t
  constructor
  · rintro ⟨p, hp, i, hi, x, hx, j, h1, h2, h3, h4⟩
    exact ⟨p, hp, i, (hord _ _).1 hi, j, ⟨x, (hlays x).1 hx, h1⟩, h2, ⟨(link_node h1).2.2, h3⟩, h4⟩
  · rintro ⟨p, hp, i, hi, j, ⟨x, hx, h1⟩, h2, ⟨-, h3⟩, h4⟩
    exact ⟨p, hp, i, (hord _ _).2 hi, x, (hlays x).2 hx, j, h1, h2, h3, h4⟩

/-- the sets collected for one node, with the links of the network as it is and without the processed nodes -/
theorem freshSets_spec (ok : NetOk layers c ops) (hord : ∀ s x, x ∈ ord s ↔ x ∈ s) {processed lays : List α}
    (hlays : ∀ x, x ∈ lays ↔ (Spec.shown ops).layer x) {v : α} (hv : (Spec.shown ops).node v) (hvp : v ∉ processed) (n : Nat) :
    ∃ sets, freshSets ord (afterP [c] false 0 true ops).view processed lays v n = .ok sets ∧ sets.Nodup ∧
      ∀ t, t ∈ sets ↔ Conn (Edge ops) (fun x => (Spec.shown ops).node x ∧ x ∉ processed) v t ∧ 2 ≤ t.card ∧ t.card ≤ n := by
  set Q : α → Prop := fun x => (Spec.shown ops).node x ∧ x ∉ processed with hQ
  have hs : ∀ a b, Edge ops a b → Edge ops b a := fun a b h => h.symm
  obtain ⟨st, e, h1, h2, h3, h4⟩ := forE_ok (f := freshRound ord (afterP [c] false 0 true ops).view processed lays) (s := ([{v}], []))
    (P := fun pre st => (∀ t, t ∈ st.1 ↔ Conn (Edge ops) Q v t ∧ t.card = pre.length + 1) ∧ st.1.Nodup ∧ st.2.Nodup ∧
      ∀ t, t ∈ st.2 ↔ Conn (Edge ops) Q v t ∧ 2 ≤ t.card ∧ t.card ≤ pre.length + 1) (List.range (n - 1))
    ⟨fun t => by rw [List.length_nil, Nat.zero_add, conn_card_one ⟨hv, hvp⟩]; simp, by simp, by simp,
      fun t => by simp; intros; omega⟩ (by
    rintro pre k post ⟨sp, ns⟩ hl ⟨h1, h2, h3, h4⟩
    dsimp only at h1 h2 h3 h4
    obtain ⟨c', e, hn, hm⟩ := growSets_spec ok hord hlays (processed := processed) (ps := sp)
      (fun p hp x hx => (((h1 p).1 hp).1.all x hx).1) [] (by simp)
    refine ⟨(c', c'.foldl sadd ns), by unfold freshRound; dsimp only; rw [e], ?_, hn, nodup_foldl_sadd h3, ?_⟩
    all_goals
      have hc' : ∀ t, t ∈ c' ↔ Conn (Edge ops) Q v t ∧ t.card = (pre.length + 1) + 1 := by
        intro t
        rw [hm, conn_succ hs (by omega)]
        simp only [List.not_mem_nil, false_or, h1]
        rfl
    · intro t
      rw [hc', List.length_append, List.length_singleton]
    · intro t
      dsimp only
      rw [mem_foldl_sadd, h4, hc', List.length_append, List.length_singleton]
      constructor
      · rintro (⟨h, h5, h6⟩ | ⟨h, h5⟩)
        · exact ⟨h, h5, by omega⟩
        · exact ⟨h, by omega, by omega⟩
      · rintro ⟨h, h5, h6⟩
        by_cases h7 : t.card = pre.length + 1 + 1
        · exact Or.inr ⟨h, h7⟩
        · exact Or.inl ⟨h, h5, by omega⟩)
  refine ⟨st.2, by unfold freshSets; rw [e], h3, fun t => ?_⟩
  rw [h4, List.length_range]
  refine and_congr_right fun _ => and_congr_right fun _ => ?_
  constructor <;> intro h <;> omega

theorem touching_spec (ok : NetOk layers c ops) (hord : ∀ s x, x ∈ ord s ↔ x ∈ s) {v : α} (hv : (Spec.shown ops).node v) (n : Nat) :
    ∃ sets, touchingOrbitNodes ord (afterP [c] false 0 true ops).view v n = .ok sets ∧ sets.Nodup ∧
      ∀ t, t ∈ sets ↔ Conn (Edge ops) (Spec.shown ops).node v t ∧ 2 ≤ t.card ∧ t.card ≤ n := by
  set Q : α → Prop := (Spec.shown ops).node with hQ
  have hs : ∀ a b, Edge ops a b → Edge ops b a := fun a b h => h.symm
  have hlays := (mem_slices_one c ops).2
  obtain ⟨st, e, h1, h2, h3, h4⟩ := forE_ok (f := touchRound ord (afterP [c] false 0 true ops).view ((afterP [c] false 0 true ops).slices.getD 1 [])) (s := ([{v}], [], []))
    (P := fun pre st => (∀ t, t ∈ st.1 ↔ (Conn (Edge ops) Q v t ∧ 2 ≤ t.card ∧ t.card ≤ pre.length + 1) ∨ (pre = [] ∧ t = {v})) ∧
      (st.2.1.Nodup ∧ ∀ t, t ∈ st.2.1 ↔ Conn (Edge ops) Q v t ∧ 2 ≤ t.card ∧ t.card ≤ pre.length + 1) ∧ st.2.2.Nodup ∧
      ∀ t, t ∈ st.2.2 ↔ Conn (Edge ops) Q v t ∧ 2 ≤ t.card ∧ t.card ≤ pre.length + 1) (List.range (n - 1))
    ⟨fun t => by simp; intros; omega, ⟨by simp, fun t => by simp; intros; omega⟩, by simp,
      fun t => by simp; intros; omega⟩ (by
    rintro pre k post ⟨sp, sc, ns⟩ hl ⟨h1, ⟨h2, h5⟩, h3, h4⟩
    dsimp only at h1 h2 h3 h4 h5
    have hall : ∀ p ∈ sp, Conn (Edge ops) Q v p := by
      intro p hp
      rcases (h1 p).1 hp with h | ⟨-, rfl⟩
      · exact h.1
      · exact .single hv
    obtain ⟨c', e, hn, hm⟩ := growSets_spec ok hord hlays (processed := []) (ps := sp)
      (fun p hp x hx => (hall p hp).all x hx) sc h2
    have hc' : ∀ t, t ∈ c' ↔ Conn (Edge ops) Q v t ∧ 2 ≤ t.card ∧ t.card ≤ (pre ++ [k]).length + 1 := by
      intro t
      rw [hm, h5, List.length_append, List.length_singleton]
      constructor
      · rintro (⟨h, h6, h7⟩ | ⟨p, hp, i, hi, j, hij, hjp, ⟨hj, -⟩, rfl⟩)
        · exact ⟨h, h6, by omega⟩
        · have hcard : p.card ≤ pre.length + 1 ∧ 1 ≤ p.card := by
            refine ⟨?_, Finset.card_pos.2 ⟨i, hi⟩⟩
            rcases (h1 p).1 hp with h | ⟨-, rfl⟩
            · exact h.2.2
            · simp
          have := (conn_succ hs hcard.2).2 ⟨p, ⟨hall p hp, rfl⟩, i, hi, j, hij, hjp, hj, rfl⟩
          exact ⟨this.1, by omega, by omega⟩
      · rintro ⟨h, h6, h7⟩
        obtain ⟨p, ⟨hp, hpc⟩, i, hi, j, hij, hjp, hj, rfl⟩ := (conn_succ hs (m := t.card - 1) (by omega)).1 ⟨h, by omega⟩
        by_cases hle : (insert j p).card ≤ pre.length + 1
        · exact Or.inl ⟨h, h6, hle⟩
        · refine Or.inr ⟨p, (h1 p).2 ?_, i, hi, j, hij, hjp, ⟨hj, by simp⟩, rfl⟩
          rcases Nat.eq_zero_or_pos pre.length with h0 | h0
          · exact Or.inr ⟨List.length_eq_zero_iff.1 h0, (conn_card_one hv).1 ⟨hp, by omega⟩⟩
          · exact Or.inl ⟨hp, by omega, by omega⟩
    refine ⟨(c', c', c'.foldl sadd ns), by unfold touchRound; dsimp only; rw [e], fun t => ?_, ⟨hn, hc'⟩, nodup_foldl_sadd h3, fun t => ?_⟩
    · rw [hc']; simp
    · dsimp only
      rw [mem_foldl_sadd, h4, hc', List.length_append, List.length_singleton]
      constructor
      · rintro (⟨h, h5, h6⟩ | h)
        · exact ⟨h, h5, by omega⟩
        · exact h
      · exact Or.inr)
  refine ⟨st.2.2, by unfold touchingOrbitNodes; change (match forE (touchRound ord _ ((afterP [c] false 0 true ops).slices.getD 1 [])) _ _ with | .error e => Except.error e | .ok st => Except.ok st.2.2) = _; rw [e], h3, fun t => ?_⟩
  rw [h4, List.length_range]
  refine and_congr_right fun _ => and_congr_right fun _ => ?_
  constructor <;> intro h <;> omega

end Pymnet
