import Verif.Proofs.OrbitEqsL

/-! The equation of two orbits. -/

set_option linter.unusedSectionVars false
set_option linter.unusedSimpArgs false
set_option linter.unusedVariables false

namespace Pymnet

open Py MPlex

variable {α W β σ : Type} [DecidableEq α] [DecidableEq W] [Zero W] [LawfulIntNames α] [LinearOrder α] [DecidableEq σ] [One W]
  {canon : CGraph → β} {str : List (List α × Nat) × β → σ} {allowed : Option (List Nat)} {c : Coupling α W}
  {idx : Nat → α} {layers : List α} {nl N n : Nat} {T : Tables α W σ} {ol : List (Orbit α)}
  {match? : CGraph → CGraph → Option (Dict Nat Nat)} {ord : Finset α → List α} {ops ops' ops1 ops2 : List (POp α W)} {s : Finset α}
  {p : MPlex α W} {g g' : Spec.Multigraph α} {v : α} {q q1 q2 : Orbit α} {both : List α} {neg : α → Bool} {t : Nat} {int : Int → α}

/-- the names of nodes are integers: `int` embeds the integers, `neg` is the test whether a name is negative -/
structure IntName (int : Int → α) (neg : α → Bool) (idx : Nat → α) : Prop where
  inj : Function.Injective int
  neg : ∀ z, neg (int z) = decide (z < 0)
  idx : ∀ k, idx k = int k

/-- the graphlet of an orbit -/
structure AtOrbit (T : Tables α W σ) (c : Coupling α W) (idx : Nat → α) (layers : List α) (nl N : Nat) (q : Orbit α) (p : MPlex α W)
    (g : Spec.Multigraph α) (A : Finset α) : Prop where
  stored : Stored T.nets q.1 q.2.1 p
  is : Is layers c p g
  name : ∀ x, g.node x → ∃ k, x = idx k
  layer : ∃ l : List α, l.Sublist layers ∧ l.length = nl ∧ ∀ x, g.layer x ↔ x ∈ l
  card : A.card = q.1
  mem : ∀ x, x ∈ A ↔ g.node x
  conn : Spec.ConnectedSet g A
  rep : q.2.2 ∈ A
  two : 2 ≤ q.1
  le : q.1 ≤ N

theorem Setup.atOrbit (S : Setup canon str match? allowed c idx layers nl N ord T ol) (hq : q ∈ ol) :
    ∃ ops A, AtOrbit T c idx layers nl N q (afterP [c] false 0 true ops) (Spec.shown ops) A := by
  obtain ⟨hle, ops, -, hst, -⟩ := (S.ol q).1 hq
  obtain ⟨ops2, e2, hg⟩ := S.tab.gen _ _ _ hst
  rw [e2] at hst
  obtain ⟨A, hAc, hA⟩ := S.all_nodes hst
  have hr := (S.role_all hq hq hst hA).2 rfl
  obtain ⟨h1, h2, h3⟩ := S.role_set (fun x hx => (hA x).1 hx) hr
  exact ⟨ops2, A, hst, ⟨ops2, rfl, gen_netOk S.ok hg, rfl⟩, fun x hx => by obtain ⟨k, -, h⟩ := (hg.nodes x).1 hx; exact ⟨k, h⟩, hg.layer, hAc, hA, h2,
    (hA _).2 (S.rep hq hst).1, h3, hle⟩

/-- two graphlets are joined at a node -/
def glueG (g1 g2 : Spec.Multigraph α) (f0 f1 : α → α) : Spec.Multigraph α := addK g1 (renG g2 f0 f1).link

/-- how the nodes of the second graphlet are renamed -/
structure RenamesTo (neg : α → Bool) (g2 : Spec.Multigraph α) (v o2 : α) (f0 : α → α) : Prop where
  rep : f0 o2 = v
  other : ∀ x, g2.node x → x ≠ o2 → neg (f0 x) = true
  inj : ∀ x y, g2.node x → g2.node y → f0 x = f0 y → x = y

theorem AtOrbit.nonneg {A : Finset α} (hI : IntName int neg idx) (h : AtOrbit T c idx layers nl N q p g A) {x : α} (hx : g.node x) :
    neg x = false := by
  obtain ⟨k, rfl⟩ := h.name x hx
  rw [hI.idx, hI.neg]
  simp

theorem AtOrbit.renames {p1 p2 : MPlex α W} {g1 g2 : Spec.Multigraph α} {A1 A2 : Finset α} (hord : ∀ s, (ord s).Nodup ∧ ∀ x, x ∈ ord s ↔ x ∈ s)
    (hI : IntName int neg idx) (h1 : AtOrbit T c idx layers nl N q1 p1 g1 A1)
    (h2 : AtOrbit T c idx layers nl N q2 p2 g2 A2) :
    RenamesTo neg g2 q1.2.2 q2.2.2 (dget (combineNames int ord (p2.slices.headD []).toFinset q1.2.2 q2.2.2)) := by
  have hm : ∀ x, x ∈ (p2.slices.headD []).toFinset ↔ g2.node x := fun x => by rw [List.mem_toFinset]; exact h2.is.node_mem x
  obtain ⟨a1, a2, a3⟩ := combineNames_spec (ord := ord) (nodes := (p2.slices.headD []).toFinset) (node1 := q1.2.2) (node2 := q2.2.2) hI.inj hord
  have hv := h1.nonneg hI ((h1.mem _).1 h1.rep)
  have hneg : ∀ x, g2.node x → x ≠ q2.2.2 → neg (dget (combineNames int ord (p2.slices.headD []).toFinset q1.2.2 q2.2.2) x) = true := by
    intro x hx hne
    obtain ⟨k, hk⟩ := a2 x ((hm x).2 hx) hne
    rw [hk, hI.neg, decide_eq_true_eq]
    omega
  refine ⟨a1, hneg, fun x y hx hy e => ?_⟩
  by_cases h3 : x = q2.2.2
  · by_cases h4 : y = q2.2.2
    · rw [h3, h4]
    · have := hneg y hy h4
      rw [← e, h3, a1, hv] at this
      cases this
  · by_cases h4 : y = q2.2.2
    · have := hneg x hx h3
      rw [e, h4, a1, hv] at this
      cases this
    · exact a3 x ((hm x).2 hx) y ((hm y).2 hy) h3 h4 e

section glue
variable {p1 p2 : MPlex α W} {g1 g2 : Spec.Multigraph α} {A1 A2 : Finset α} {f0 f1 : α → α}

theorem glue_shape (hI : IntName int neg idx) (h1 : AtOrbit T c idx layers nl N q1 p1 g1 A1) (h2 : AtOrbit T c idx layers nl N q2 p2 g2 A2)
    (hr : RenamesTo neg g2 q1.2.2 q2.2.2 f0) (hl : ∀ x, g2.layer x → g1.layer (f1 x)) :
    Shape g1.layer q1.2.2 (q1.1 + q2.1) (glueG g1 g2 f0 f1) (A1 ∪ A2.image f0) [q1.2.2] ∧ NoCross neg q1.2.2 (glueG g1 g2 f0 f1) := by
  have hv1 : q1.2.2 ∈ A1 := h1.rep
  have hv2 : q1.2.2 ∈ A2.image f0 := Finset.mem_image.2 ⟨_, h2.rep, hr.rep⟩
  have hlayer : ∀ x, (glueG g1 g2 f0 f1).layer x ↔ g1.layer x := by
    intro x
    simp only [glueG, addK, renG]
    constructor
    · rintro (h | ⟨i, j, y, i', j', h, rfl, -, -⟩)
      · exact h
      · exact hl y (h2.is.link_node h).1
    · exact Or.inl
  have hnode : ∀ x, x ∈ A1 ∪ A2.image f0 ↔ (glueG g1 g2 f0 f1).node x := by
    intro x
    simp only [Finset.mem_union, Finset.mem_image, h1.mem, h2.mem, glueG, addK, renG]
    constructor
    · rintro (h | ⟨y, hy, rfl⟩)
      · exact Or.inl h
      · by_cases hyo : y = q2.2.2
        · left; rw [hyo, hr.rep]; exact (h1.mem _).1 hv1
        · right
          rcases Relation.ReflTransGen.cases_head (h2.conn.connected y q2.2.2 ((h2.mem y).2 hy) h2.rep) with e | ⟨z, ⟨-, -, x, -, hz⟩, -⟩
          · exact absurd e hyo
          · exact ⟨f1 x, f0 y, f0 z, ⟨x, y, z, hz, rfl, rfl, rfl⟩, Or.inl rfl⟩
    · rintro (h | ⟨x', i, j, ⟨y, i', j', h, rfl, rfl, rfl⟩, rfl | rfl⟩)
      · exact Or.inl h
      · exact Or.inr ⟨i', (h2.is.link_node h).2.1, rfl⟩
      · exact Or.inr ⟨j', (h2.is.link_node h).2.2.1, rfl⟩
  have c1 : Spec.ConnectedSet (glueG g1 g2 f0 f1) A1 :=
    connected_more h1.conn (fun x hx => (hnode x).1 (Finset.mem_union_left _ hx)) (fun x hx => (hlayer x).2 hx) fun x i j h => Or.inl h
  have c2 : Spec.ConnectedSet (glueG g1 g2 f0 f1) (A2.image f0) := by
    refine ⟨fun x hx => (hnode x).1 (Finset.mem_union_right _ hx), fun i j hi hj => ?_⟩
    obtain ⟨i', hi', rfl⟩ := Finset.mem_image.1 hi
    obtain ⟨j', hj', rfl⟩ := Finset.mem_image.1 hj
    refine Relation.ReflTransGen.lift f0 (fun a b hab => ?_) _ _ (h2.conn.connected i' j' hi' hj')
    obtain ⟨k1, k2, x, hx, k3⟩ := hab
    exact ⟨Finset.mem_image.2 ⟨a, k1, rfl⟩, Finset.mem_image.2 ⟨b, k2, rfl⟩, f1 x, (hlayer _).2 (hl x hx),
      Or.inr (Or.inl ⟨x, a, b, k3, rfl, rfl, rfl⟩)⟩
  have hneg : ∀ x, g2.node x → neg (f0 x) = false → f0 x = q1.2.2 := by
    intro x hx hn
    by_cases hxo : x = q2.2.2
    · rw [hxo, hr.rep]
    · rw [hr.other x hx hxo] at hn; cases hn
  refine ⟨⟨hlayer, hnode, connected_union c1 c2 hv1 hv2, Finset.mem_union_left _ hv1, ?_, by simp, ?_, Or.inl rfl⟩, ?_⟩
  · have hint : A1 ∩ A2.image f0 = {q1.2.2} := by
      ext x
      simp only [Finset.mem_inter, Finset.mem_image, Finset.mem_singleton]
      constructor
      · rintro ⟨hx, y, hy, rfl⟩
        exact hneg y ((h2.mem y).1 hy) (h1.nonneg hI ((h1.mem _).1 hx))
      · rintro rfl
        exact ⟨hv1, _, h2.rep, hr.rep⟩
    have := Finset.card_union_add_card_inter A1 (A2.image f0)
    rw [hint, Finset.card_singleton, Finset.card_image_of_injOn (fun x hx y hy e => hr.inj x y ((h2.mem x).1 hx) ((h2.mem y).1 hy) e), h1.card, h2.card] at this
    simpa using this
  · intro b hb
    rw [List.mem_singleton.1 hb]
    exact Finset.mem_union_left _ hv1
  · rintro x i j (h | h | h) hi hj
    · rw [h1.nonneg hI (h1.is.link_node h).2.2.1] at hj; cases hj
    · obtain ⟨y, i', j', h, rfl, rfl, rfl⟩ := h
      exact hneg i' (h2.is.link_node h).2.1 hi
    · obtain ⟨y, i', j', h, rfl, rfl, rfl⟩ := h
      exact hneg j' (h2.is.link_node h).2.2.1 hi

/-- a combination of two graphlets -/
def Glued (layers : List α) (c : Coupling α W) (neg : α → Bool) (L : α → Prop) (v : α) (t : Nat) (p : MPlex α W) : Prop :=
  ∃ g s, Is layers c p g ∧ Shape L v t g s [v] ∧ NoCross neg v g

/-- the layer names that are shifted along a list -/
def ShiftOf (perm : List α) (κ : α → α) : Prop :=
  ∀ (k : Nat) (x y : α), (perm.rotate (perm.length - 1))[k]? = some x → perm[k]? = some y → κ x = y

theorem shiftNames_shiftOf {d : Dict α α} {perm : List α} (hn : perm.Nodup) : ShiftOf perm (dget (shiftNames d perm)) := by
  intro k x y hx hy
  obtain ⟨j, hj, hj'⟩ := shiftNames_get (d := d) hn (List.mem_rotate.1 (List.mem_of_getElem? hx))
  obtain ⟨a1, a2⟩ := List.getElem?_eq_some_iff.1 hx
  obtain ⟨b1, b2⟩ := List.getElem?_eq_some_iff.1 hj
  obtain rfl : k = j := ((List.nodup_rotate.2 hn).getElem_inj_iff).1 (a2.trans b2.symm)
  rw [hy] at hj'
  exact (Option.some.inj hj').symm

theorem bijOn_perm {P : α → Prop} {f : α → α} {l : List α} (hl : ∀ x, x ∈ l ↔ P x) (hm : ∀ x, P x → P (f x)) (hi : ∀ x y, P x → P y → f x = f y → x = y) :
    Set.BijOn f {x | P x} {x | P x} := by
  have hfin : {x | P x}.Finite := (List.finite_toSet l).subset fun x hx => (hl x).2 hx
  have hinj : Set.InjOn f {x | P x} := fun x hx y hy e => hi x y hx hy e
  refine ⟨fun x hx => hm x hx, hinj, ?_⟩
  have := Set.eq_of_subset_of_ncard_le (s := f '' {x | P x}) (t := {x | P x}) (by rintro _ ⟨x, hx, rfl⟩; exact hm x hx)
    (by rw [hinj.ncard_image]) hfin
  exact this.ge

theorem combineOrbits_ok (S : Setup canon str match? allowed c idx layers nl N ord T ol) (hI : IntName int neg idx)
    (h1 : AtOrbit T c idx layers nl N q1 p1 g1 A1) (h2 : AtOrbit T c idx layers nl N q2 p2 g2 A2) (hl : ∀ x, g1.layer x ↔ g2.layer x) :
    ∃ combs f0, combineOrbits ⟨canon, str, match?, allowed⟩ T int ord q1 q2 = .ok (some combs) ∧ RenamesTo neg g2 q1.2.2 q2.2.2 f0 ∧
      (∀ p ∈ combs, Glued layers c neg g1.layer q1.2.2 (q1.1 + q2.1) p) ∧ (∃ p ∈ combs, Is layers c p (glueG g1 g2 f0 id)) ∧
      (allowed ≠ some [0] → ∀ perm : List α, perm.Nodup → (∀ x, x ∈ perm ↔ g2.layer x) → ∃ κ κ' p', ShiftOf perm κ ∧
        Set.BijOn κ {x | g2.layer x} {x | g2.layer x} ∧ Set.BijOn κ' {x | g2.layer x} {x | g2.layer x} ∧ p' ∈ combs ∧
        Is layers c p' (glueG g1 g2 f0 κ') ∧
        ∃ F0 F1, MIso (cplRel c) (Spec.mayChange 1 allowed) (glueG g1 g2 f0 κ) (glueG g1 g2 f0 κ') F0 F1) := by
  set nn := combineNames int ord (p2.slices.headD []).toFinset q1.2.2 q2.2.2 with hnn
  have hr : RenamesTo neg g2 q1.2.2 q2.2.2 (dget nn) := h1.renames S.ord hI h2
  have comb : ∀ ln : Dict α α, (∀ x, g2.layer x → g2.layer (dget ln x)) → (∀ x y, g2.layer x → g2.layer y → dget ln x = dget ln y → x = y) →
      ∃ p', combineNet p1 p2 nn ln = .ok p' ∧ Is layers c p' (glueG g1 g2 (dget nn) (dget ln)) ∧
        Glued layers c neg g1.layer q1.2.2 (q1.1 + q2.1) p' := by
    intro ln k1 k2
    obtain ⟨p', e, hp'⟩ := h1.is.combineNet S.ok h2.is hr.inj k2 (fun x hx => h2.is.lay (k1 x hx))
    obtain ⟨k3, k4⟩ := glue_shape hI h1 h2 hr (f1 := dget ln) (fun x hx => (hl _).2 (k1 x hx))
    exact ⟨p', e, hp', _, _, hp', k3, k4⟩
  obtain ⟨new, e1, hn1, hn2⟩ := comb [] (fun x hx => by simpa [dget] using hx) (fun x y _ _ h => by simpa [dget] using h)
  have hid : dget ([] : Dict α α) = id := by funext x; simp [dget]
  rw [hid] at hn1
  unfold combineOrbits
  rw [netAt_stored h1.stored]
  simp only
  rw [netAt_stored h2.stored]
  simp only
  rw [if_neg (by
    rw [not_not]
    ext x
    rw [List.mem_toFinset, List.mem_toFinset, h1.is.layer_mem, h2.is.layer_mem, hl]), ← hnn, e1]
  simp only
  obtain ⟨ci, e2⟩ := hn1.invariantKey S.ok
  rw [e2]
  simp only
  by_cases hal : allowed = some [0]
  · rw [if_pos hal]
    refine ⟨[new], dget nn, rfl, hr, ?_, ⟨new, by simp, hn1⟩, fun h => absurd hal h⟩
    intro p hp
    rw [List.mem_singleton.1 hp]
    exact hn2
  · rw [if_neg hal]
    obtain ⟨st, e3, k1, k2, k3, k4⟩ : ∃ st, forE (combineStep ⟨canon, str, match?, allowed⟩ p1 p2 nn)
        (permutationsOf (p2.slices.getD 1 []).length (p2.slices.getD 1 [])) ([], [new], [ci]) = .ok st ∧
        (∀ p ∈ st.2.1, Glued layers c neg g1.layer q1.2.2 (q1.1 + q2.1) p) ∧ new ∈ st.2.1 ∧
        (∀ ci ∈ st.2.2, ∃ κ' p', Set.BijOn κ' {x | g2.layer x} {x | g2.layer x} ∧ p' ∈ st.2.1 ∧ Is layers c p' (glueG g1 g2 (dget nn) κ') ∧
          p'.invariantKey canon str allowed = .ok ci) ∧
        ∀ perm ∈ permutationsOf (p2.slices.getD 1 []).length (p2.slices.getD 1 []), ∃ κ p' ci, ShiftOf perm κ ∧
          Set.BijOn κ {x | g2.layer x} {x | g2.layer x} ∧ Is layers c p' (glueG g1 g2 (dget nn) κ) ∧
          p'.invariantKey canon str allowed = .ok ci ∧ ci ∈ st.2.2 := by
      refine forE_ok (P := fun pre (st : Dict α α × List (MPlex α W) × List σ) =>
        (∀ p ∈ st.2.1, Glued layers c neg g1.layer q1.2.2 (q1.1 + q2.1) p) ∧ new ∈ st.2.1 ∧
        (∀ ci ∈ st.2.2, ∃ κ' p', Set.BijOn κ' {x | g2.layer x} {x | g2.layer x} ∧ p' ∈ st.2.1 ∧ Is layers c p' (glueG g1 g2 (dget nn) κ') ∧
          p'.invariantKey canon str allowed = .ok ci) ∧
        ∀ perm ∈ pre, ∃ κ p' ci, ShiftOf perm κ ∧
          Set.BijOn κ {x | g2.layer x} {x | g2.layer x} ∧ Is layers c p' (glueG g1 g2 (dget nn) κ) ∧
          p'.invariantKey canon str allowed = .ok ci ∧ ci ∈ st.2.2) _ ⟨?_, by simp, ?_, fun perm h => (nomatch h)⟩ ?_
      · intro p hp
        rw [List.mem_singleton.1 hp]
        exact hn2
      · intro ci' hci
        obtain rfl := List.mem_singleton.1 hci
        exact ⟨id, new, Set.bijOn_id _, by simp, hn1, e2⟩
      · rintro pre perm post ⟨d, nets, invs⟩ hsplit ⟨k1, k2, k3, k4⟩
        have hperm := permutationsOf_perm _ _ rfl perm (by rw [hsplit]; simp)
        have hnd := hperm.nodup_iff.2 h2.is.nodup.2
        obtain ⟨a1, a2⟩ := shiftNames_spec (d := d) hnd
        have hm : ∀ x, x ∈ perm ↔ g2.layer x := fun x => hperm.mem_iff.trans (h2.is.layer_mem x)
        have m1 : ∀ x, g2.layer x → g2.layer (dget (shiftNames d perm) x) := fun x hx => (hm _).1 (a1 x ((hm x).2 hx))
        have m2 : ∀ x y, g2.layer x → g2.layer y → dget (shiftNames d perm) x = dget (shiftNames d perm) y → x = y :=
          fun x y hx hy e => a2 x ((hm x).2 hx) y ((hm y).2 hy) e
        have hb := bijOn_perm hm m1 m2
        obtain ⟨p', e4, hp', hg'⟩ := comb (shiftNames d perm) m1 m2
        unfold combineStep
        simp only
        rw [e4]
        simp only
        obtain ⟨ci', e5⟩ := hp'.invariantKey S.ok
        rw [e5]
        simp only
        split
        · rename_i hin
          refine ⟨_, rfl, k1, k2, k3, fun perm' hp => ?_⟩
          rcases List.mem_append.1 hp with hp | hp
          · exact k4 perm' hp
          · rw [List.mem_singleton.1 hp]
            exact ⟨_, p', ci', shiftNames_shiftOf hnd, hb, hp', e5, hin⟩
        · refine ⟨_, rfl, fun p hp => ?_, List.mem_append_left _ k2, fun ci hci => ?_, fun perm' hp => ?_⟩
          · rcases List.mem_append.1 hp with hp | hp
            · exact k1 p hp
            · rw [List.mem_singleton.1 hp]
              exact hg'
          · rcases List.mem_append.1 hci with hci | hci
            · obtain ⟨κ', p0, b1, b2, b3⟩ := k3 ci hci
              exact ⟨κ', p0, b1, List.mem_append_left _ b2, b3⟩
            · rw [List.mem_singleton.1 hci]
              exact ⟨_, p', hb, List.mem_append_right _ (List.mem_singleton_self _), hp', e5⟩
          · rcases List.mem_append.1 hp with hp | hp
            · obtain ⟨κ, p0, c0, b1, b2, b3, b4, b5⟩ := k4 perm' hp
              exact ⟨κ, p0, c0, b1, b2, b3, b4, List.mem_append_left _ b5⟩
            · rw [List.mem_singleton.1 hp]
              exact ⟨_, p', ci', shiftNames_shiftOf hnd, hb, hp', e5, List.mem_append_right _ (List.mem_singleton_self _)⟩
    refine ⟨st.2.1, dget nn, by rw [e3], hr, k1, ⟨new, k2, hn1⟩, fun _ perm hpn hpm => ?_⟩
    have hperm : perm.Perm (p2.slices.getD 1 []) :=
      (List.perm_ext_iff_of_nodup hpn h2.is.nodup.2).2 fun x => (hpm x).trans (h2.is.layer_mem x).symm
    obtain ⟨κ, p0, c0, b1, b2, b3, b4, b5⟩ := k4 perm (permutationsOf_all _ _ rfl perm hperm)
    obtain ⟨κ', p', d1, d2, d3, d4⟩ := k3 c0 b5
    refine ⟨κ, κ', p', b1, b2, d1, d2, d3, b3.key_iso S.ok d3 ?_ ?_ b4 d4⟩
    · exact ⟨q1.2.2, Or.inl ((h1.mem _).1 h1.rep)⟩
    · obtain ⟨ops, -, -, hg⟩ := h1.is
      have hcn := h1.conn
      rw [← hg] at hcn ⊢
      obtain ⟨x, hx⟩ := (connected_layer hcn (by rw [h1.card]; exact h1.two)).2
      exact ⟨x, Or.inl hx⟩

theorem combineOrbits_none (h1 : AtOrbit T c idx layers nl N q1 p1 g1 A1) (h2 : AtOrbit T c idx layers nl N q2 p2 g2 A2)
    (hl : ¬ ∀ x, g1.layer x ↔ g2.layer x) : combineOrbits ⟨canon, str, match?, allowed⟩ T int ord q1 q2 = .ok none := by
  unfold combineOrbits
  rw [netAt_stored h1.stored]
  simp only
  rw [netAt_stored h2.stored]
  simp only
  rw [if_pos]
  intro e
  refine hl fun x => ?_
  rw [← h1.is.layer_mem, ← h2.is.layer_mem, ← List.mem_toFinset, e, List.mem_toFinset]

theorem combNets_ok (ok : GenOk canon str allowed c idx layers) (hF : Spec.FindsIso match?)
    (hord : ∀ s, (ord s).Nodup ∧ ∀ x, x ∈ ord s ↔ x ∈ s) {L : α → Prop} (hl0 : ∃ x, L x) (hv : neg v = false) {n1 n2 : Nat} (hn1 : n1 ≤ 3)
    (h21 : 2 ≤ n1) (h22 : 2 ≤ n2) {combs : List (MPlex α W)} (hc : ∀ p ∈ combs, Glued layers c neg L v (n1 + n2) p) :
    ∃ nets, combNets ⟨canon, str, match?, allowed⟩ neg ord n1 n2 (combs.map fun net => (net, [v])) = .ok nets ∧
      (∀ m ∈ nets, Comb layers c L v (n1 + n2) m ∧ m.2.length + max n1 n2 < n1 + n2) ∧
      (∀ p ∈ combs, (p, [v]) ∈ nets ∧ ∀ g s, Is layers c p g → Shape L v (n1 + n2) g s [v] → ∀ K : α → α → α → Prop,
        (∀ x i j, K x i j → L x ∧ (i ∈ s ∧ i ≠ v ∧ neg i = false) ∧ j ∈ s ∧ j ≠ v ∧ neg j = true) → (∃ x i j, K x i j) →
        ∃ m ∈ nets, m.2 = [v] ∧ Is layers c m.1 (addK g K)) ∧
      (2 + max n1 n2 < n1 + n2 → ∀ p ∈ combs, ∀ g s, Is layers c p g → Shape L v (n1 + n2) g s [v] → NoCross neg v g →
        ∀ a b, MergePair neg v g a b → ∃ a' b', MergePair neg v g a' b' ∧ Shape L v (n1 + n2) (mergeG g a' b') (s \ {b'}) [v, a'] ∧
          (∃ f0 f1, MIso (cplRel c) (Spec.mayChange 1 allowed) (mergeG g a b) (mergeG g a' b') f0 f1) ∧
          (∃ m ∈ nets, m.2 = [v, a'] ∧ Is layers c m.1 (mergeG g a' b')) ∧
          ∀ K : α → α → α → Prop, (∀ x i j, K x i j → L x ∧ (i ∈ s \ {b'} ∧ i ∉ [v, a'] ∧ neg i = false) ∧
              j ∈ s \ {b'} ∧ j ∉ [v, a'] ∧ neg j = true) → (∃ x i j, K x i j) →
            ∃ m ∈ nets, m.2 = [v, a'] ∧ Is layers c m.1 (addK (mergeG g a' b') K)) := by
  set cs := combs.map fun net => (net, [v]) with hcs
  have base : ∀ m ∈ cs, Comb layers c L v (n1 + n2) m ∧ m.2.length + max n1 n2 < n1 + n2 := by
    intro m hm
    obtain ⟨p, hp, rfl⟩ := List.mem_map.1 hm
    obtain ⟨g, s, k1, k2, -⟩ := hc p hp
    refine ⟨⟨g, s, k1, k2⟩, ?_⟩
    simp only [List.length_cons, List.length_nil]
    omega
  obtain ⟨st, e1, k1, k2, k3⟩ : ∃ st, forE (mergeRound ⟨canon, str, match?, allowed⟩ neg ord) (List.range (n1 + n2 - 1 - (max n1 n2 + 1))) (cs, cs) = .ok st ∧
      (∀ m ∈ st.2, Comb layers c L v (n1 + n2) m ∧ m.2.length + max n1 n2 < n1 + n2) ∧ (∀ m ∈ cs, m ∈ st.2) ∧
      (2 + max n1 n2 < n1 + n2 → ∀ p ∈ combs, ∃ out, mergeNodes ⟨canon, str, match?, allowed⟩ neg ord [v] p = .ok out ∧ ∀ m ∈ out, m ∈ st.2) := by
    have hk : n1 + n2 - 1 - (max n1 n2 + 1) = 0 ∨ (n1 + n2 - 1 - (max n1 n2 + 1) = 1 ∧ 2 + max n1 n2 < n1 + n2) := by omega
    rcases hk with hk | ⟨hk, hk2⟩
    · rw [hk]
      exact ⟨_, rfl, base, fun m hm => hm, fun h => by omega⟩
    · rw [hk]
      obtain ⟨merged, e2, o1, o2⟩ := collect_mem (f := fun (m : MPlex α W × List α) => mergeNodes ⟨canon, str, match?, allowed⟩ neg ord m.2 m.1) cs
        (fun m r => (∀ m ∈ r, Comb layers c L v (n1 + n2) m ∧ m.2.length = 2) ∧ mergeNodes ⟨canon, str, match?, allowed⟩ neg ord m.2 m.1 = .ok r) (by
          intro m hm
          obtain ⟨p, hp, rfl⟩ := List.mem_map.1 hm
          obtain ⟨g, s, k1, k2, k3⟩ := hc p hp
          obtain ⟨out, e, b1, -⟩ := mergeNodes_ok ok hF hord hl0 k1 k2 k3 hv
          exact ⟨out, e, b1, e⟩)
      refine ⟨(merged, cs ++ merged), ?_, fun m hm => ?_, fun m hm => List.mem_append_left _ hm, fun _ p hp => ?_⟩
      · simp only [List.range_one, forE, mergeRound, e2]
      · rcases List.mem_append.1 hm with hm | hm
        · exact base m hm
        · obtain ⟨x, -, r, hr, hm⟩ := o1 m hm
          obtain ⟨a1, a2⟩ := hr.1 m hm
          exact ⟨a1, by omega⟩
      · obtain ⟨r, ⟨-, hr⟩, hin⟩ := o2 (p, [v]) (List.mem_map.2 ⟨p, hp, rfl⟩)
        exact ⟨r, hr, fun m hm => List.mem_append_right _ (hin m hm)⟩
  obtain ⟨added, e2, o1, o2⟩ := collect_mem (f := moreLinks neg ord) st.2
    (fun m r => (∀ m' ∈ r, m'.2 = m.2 ∧ Comb layers c L v (n1 + n2) m') ∧
      ∀ g s, Is layers c m.1 g → Shape L v (n1 + n2) g s m.2 → ∀ K : α → α → α → Prop,
        (∀ x i j, K x i j → L x ∧ (i ∈ s ∧ i ∉ m.2 ∧ neg i = false) ∧ j ∈ s ∧ j ∉ m.2 ∧ neg j = true) → (∃ x i j, K x i j) →
        ∃ m' ∈ r, m'.2 = m.2 ∧ Is layers c m'.1 (addK g K)) (by
      intro m hm
      obtain ⟨⟨g, s, a1, a2⟩, -⟩ := k1 m hm
      obtain ⟨out, e3, b1, -⟩ := addPossibleEdges_ok (neg := neg) ok hord a1 a2
      unfold moreLinks
      rw [e3]
      refine ⟨_, rfl, fun m' hm' => ?_, fun g' s' a1' a2' K hK hne => ?_⟩
      · obtain ⟨p', hp', rfl⟩ := List.mem_map.1 hm'
        exact ⟨rfl, b1 p' hp'⟩
      · obtain ⟨out', e3', -, b2⟩ := addPossibleEdges_ok (neg := neg) ok hord a1' a2'
        rw [e3] at e3'; cases e3'
        obtain ⟨p', hp', hI⟩ := b2 K hK hne
        exact ⟨(p', m.2), List.mem_map.2 ⟨p', hp', rfl⟩, rfl, hI⟩)
  refine ⟨st.2 ++ added, ?_, fun m hm => ?_, fun p hp => ⟨?_, fun g s a1 a2 K hK hne => ?_⟩, fun hmr p hp g s a1 a2 a3 a b hab => ?_⟩
  · unfold combNets
    rw [e1]
    simp only
    rw [e2]
  · rcases List.mem_append.1 hm with hm | hm
    · exact k1 m hm
    · obtain ⟨x, hx, r, ⟨hr, -⟩, hm⟩ := o1 m hm
      obtain ⟨b1, b2⟩ := hr m hm
      exact ⟨b2, by rw [b1]; exact (k1 x hx).2⟩
  · exact List.mem_append_left _ (k2 _ (List.mem_map.2 ⟨p, hp, rfl⟩))
  · obtain ⟨r, ⟨-, b2⟩, hr⟩ := o2 (p, [v]) (k2 _ (List.mem_map.2 ⟨p, hp, rfl⟩))
    obtain ⟨m', hm', b3, b4⟩ := b2 g s a1 a2 K (by simpa using hK) hne
    exact ⟨m', List.mem_append_right _ (hr m' hm'), b3, b4⟩
  · obtain ⟨out, c1, c2⟩ := k3 hmr p hp
    obtain ⟨out', c3, -, c4⟩ := mergeNodes_ok ok hF hord hl0 a1 a2 a3 hv
    rw [c1] at c3; cases c3
    obtain ⟨a', b', p', d1, d2, d3, d4, d5⟩ := c4 a b hab
    refine ⟨a', b', d1, d4, d5, ⟨_, List.mem_append_left _ (c2 _ d2), rfl, d3⟩, fun K hK hne => ?_⟩
    obtain ⟨r, ⟨-, b2⟩, hr⟩ := o2 _ (c2 _ d2)
    obtain ⟨m', hm', b3, b4⟩ := b2 _ _ d3 d4 K hK hne
    exact ⟨m', List.mem_append_right _ (hr m' hm'), b3, b4⟩

end glue

/-! ### the orbits of the networks -/

theorem findOrbit_ok (S : Setup canon str match? allowed c idx layers nl N ord T ol) {L : α → Prop}
    (hL : ∃ l : List α, l.Sublist layers ∧ l.length = nl ∧ ∀ x, L x ↔ x ∈ l) {m : MPlex α W × List α} (hi : Is layers c m.1 g)
    (hs : Shape L v t g s m.2) (h2 : 2 ≤ s.card) (hN : s.card ≤ N) :
    ∃ q ∈ ol, Role c allowed T.nets g s v q ∧ (∀ q' ∈ ol, Role c allowed T.nets g s v q' → q' = q) ∧ ∀ d,
      findOrbit ⟨canon, str, match?, allowed⟩ T v d m = .ok (if Dict.has d q then d else Dict.set d q m) := by
  obtain ⟨p, both⟩ := m
  obtain ⟨ops, rfl, hok, rfl⟩ := hi
  obtain ⟨l, l1, l2, l3⟩ := hL
  obtain ⟨m, k, iso0, -, h⟩ := S.identify hok ⟨l, l1, l2, fun x => (hs.layer x).trans (l3 x)⟩ hs.conn h2 hN
  obtain ⟨o, -, ho, hr⟩ := h v hs.mem
  have hrole := (hr _ ho).1 rfl
  refine ⟨(m, k, o), ho, hrole, fun q' hq' h' => (hr q' hq').2 h', fun d => ?_⟩
  obtain ⟨ops', hst, f0, f1, hf, hfv⟩ := hrole
  dsimp only at hst hfv
  obtain ⟨ops2, e2, hg⟩ := S.tab.gen _ _ _ hst
  have hst2 := hst
  rw [e2] at hst2
  rw [shown_congr e2] at hf
  have hf' : MIso (cplRel c) (Spec.mayChange 1 allowed) (Spec.shown ops) (Spec.shown ops2) f0 f1 :=
    hf.congr_source (fun x => hs.node x) (fun x => Iff.rfl) fun x i j _ _ _ => Iff.rfl
  have hn0 : ∃ i, (Spec.shown ops).node i := ⟨v, (hs.node v).1 hs.mem⟩
  obtain ⟨key, e3, hk⟩ := lookup_spec S.ok S.tab hok hn0
  have e4 := (hk m k).2 ⟨ops2, hst2, f0, f1, hf'⟩
  obtain ⟨iso, g1, e5, hi, -⟩ := iso_found S.ok S.iso hok (gen_netOk S.ok hg) hn0 (stored_layer S.ok S.tab hst2) hf' false
  have hx : (Spec.shown ops2).node (dget (iso.headD []) v) := hi.nodes.mapsTo ((hs.node v).1 hs.mem)
  obtain ⟨o', ho', -⟩ := S.auts.val m k ops2 hst2 _ hx
  have hq' : (m, k, o') ∈ ol := (S.ol _).2 ⟨((S.ol _).1 ho).1, ops2, _, hst2, hx, ho'⟩
  have hi' : MIso (cplRel c) (Spec.mayChange 1 allowed) (subG (Spec.shown ops) s) (Spec.shown ops2) (dget (iso.headD [])) g1 :=
    hi.congr_source (fun x => (hs.node x).symm) (fun x => Iff.rfl) fun x i j _ _ _ => Iff.rfl
  have hrole' : Role c allowed T.nets (Spec.shown ops) s v (m, k, o') := by
    have := role_iff S.ok S.tab S.auts (g := subG (Spec.shown ops) s) (v := v) hs.mem hst2 hst2 hi' (S.rep hq' hst2)
    exact ⟨ops2, hst2, this.1 ⟨rfl, rfl, ho'⟩⟩
  have : o' = o := by
    have := (hr _ hq').2 hrole'
    simpa using this
  subst this
  unfold findOrbit
  simp only
  rw [e3]
  simp only
  rw [e4]
  simp only
  rw [netAt_stored hst2]
  simp only [orbitOf]
  rw [e5]
  simp only
  rw [ho']
  simp only
  split <;> rfl

/-- the coefficient that is computed in one of the networks -/
theorem coefficient_comb (S : Setup canon str match? allowed c idx layers nl N ord T ol) {L : α → Prop}
    (hq1 : q1 ∈ ol) (hq2 : q2 ∈ ol) (hi : Is layers c p g) (hs : Shape L v (q1.1 + q2.1) g s both) (hr : Role c allowed T.nets g s v q) (h2 : 2 ≤ q1.1) :
    coefficient ⟨canon, str, match?, allowed⟩ T ord v both q1 q2 p = .ok ((pairsAt c allowed T.nets q1 q2 q : ℚ) / (if q1 = q2 then 2 else 1)) := by
  obtain ⟨ops, rfl, hok, rfl⟩ := hi
  have hlen : 1 ≤ both.length ∧ both.length ≤ 2 ∧ (both.length = 1 → both = [v]) := by
    rcases hs.both with h | h
    · rw [h]; simp
    · rw [h]; simp
  have hcard := (S.role_set (fun x hx => (hs.node x).1 hx) hr).1
  unfold coefficient
  rw [S.coefSum hok ((hs.node v).1 hs.mem) hlen.1 hlen.2.2 (by omega) hq1 hq2]
  simp only
  obtain ⟨ops', hst, f0, f1, hf, hfv⟩ := hr
  have e1 := S.pairs_image (q1 := q1) (q2 := q2) (fun x hx => (hs.node x).1 hx) hf hs.mem
  rw [hfv, hcard, pairsAt_eq hst] at e1
  rw [← e1]
  congr 4
  ext ⟨s1, s2⟩
  constructor
  · rintro ⟨a1, a2, a3, a4, a5, a6⟩
    refine ⟨a1, a2, ?_, a5, a6⟩
    ext x
    rw [Finset.mem_union, hs.node]
    exact (a3 x).symm
  · rintro ⟨a1, a2, a3, a5, a6⟩
    dsimp only at a1 a2 a3 a5 a6
    have a3' : ∀ x, (Spec.shown ops).node x ↔ x ∈ s1 ∨ x ∈ s2 := fun x => by rw [← hs.node, ← a3, Finset.mem_union]
    refine ⟨a1, a2, a3', ?_, a5, a6⟩
    have b1 := (S.role_set (fun x hx => (a3' x).2 (Or.inl hx)) a5).1
    have b2 := (S.role_set (fun x hx => (a3' x).2 (Or.inr hx)) a6).1
    have := Finset.card_union_add_card_inter s1 s2
    have hc := hs.card
    rw [a3] at this
    dsimp only
    omega

end Pymnet
