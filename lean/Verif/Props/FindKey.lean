import Verif.Props.IndepEqs

/-! C138: `find_key` and `eqs_in_layers`, used by `independent_equations`. -/

set_option linter.unusedSectionVars false
set_option linter.unusedSimpArgs false
set_option linter.unusedVariables false

namespace Pymnet

open Py MPlex

variable {α W β σ : Type} [DecidableEq α] [DecidableEq W] [Zero W] [LawfulIntNames α] [LinearOrder α] [DecidableEq σ] [One W]
  {canon : CGraph → β} {str : List (List α × Nat) × β → σ} {allowed : Option (List Nat)} {c : Coupling α W}
  {idx : Nat → α} {layers : List α} {nl : Option Nat} {n n0 : Nat}
  {match? : CGraph → CGraph → Option (Dict Nat Nat)} {gens : CGraph → List (Dict Nat Nat)} {ord : Finset α → List α}
  {int : Int → α} {neg : α → Bool} {T : Tables α W σ} {is : Dict (Orbit α) Nat} {ol : List (Orbit α)}
  {eqs : Dict (OrbitKey α) (Dict (Orbit α) ℚ)}

/-- The graphlet of an orbit is on these layers and on no others. -/
def Spec.OnLayers (T : Tables α W σ) (q : Orbit α) (l : List α) : Prop :=
  ∃ net, netAt T q.1 q.2.1 = .ok net ∧ ∃ s, net.slices[1]? = some s ∧ ∀ x, x ∈ s ↔ x ∈ l

/-- The orbits on the left side of an equation, with repetitions. -/
def Spec.leftSide : EqKey (Orbit α) → Multiset (Orbit α)
  | .pair o1 o2 => {o1, o2}
  | .square o => {o, o}
  | .triple o1 o2 o3 => {o1, o2, o3}

/-- Internal -/
theorem mpair_eq {ω : Type} {v u a b : ω} (h : ({v, u} : Multiset ω) = {a, b}) : v = a ∧ u = b ∨ v = b ∧ u = a := by
  have hv : v ∈ ({a, b} : Multiset ω) := by rw [← h]; simp
  simp only [Multiset.insert_eq_cons, Multiset.mem_cons, Multiset.mem_singleton] at hv
  rcases hv with rfl | rfl
  · simp only [Multiset.insert_eq_cons, Multiset.cons_inj_right, Multiset.singleton_inj] at h
    exact Or.inl ⟨rfl, h⟩
  · rw [Multiset.pair_comm a v] at h
    simp only [Multiset.insert_eq_cons, Multiset.cons_inj_right, Multiset.singleton_inj] at h
    exact Or.inr ⟨rfl, h⟩

/-- Internal -/
theorem eqs_facts (P : Spec.Prepared canon str match? gens allowed c idx layers nl n0 ord T is ol)
    (hint : Function.Injective int) (hneg : ∀ z, neg (int z) = decide (z < 0)) (hidx : ∀ k : Nat, idx k = int k)
    (h1 : 1 ≤ nl.getD layers.length) (h2 : nl.getD layers.length ≤ layers.length) (hn : n ≤ n0)
    (e : orbitEquations ⟨canon, str, match?, allowed⟩ T int neg ord n = .ok eqs) :
    (∀ k, k ∈ Dict.keys (eqsOf eqs) → ∃ q1 ∈ ol, ∃ q2 ∈ ol, Spec.Combinable T c n q1 q2 ∧ k = (if q1 = q2 then .square q1 else .pair q2 q1) ∧
      .pair q1 q2 ∉ Dict.keys (eqsOf eqs)) ∧
    ∀ q1 ∈ ol, ∀ q2 ∈ ol, Spec.Combinable T c n q1 q2 →
      (if q1 = q2 then .square q1 else .pair q2 q1) ∈ Dict.keys (eqsOf eqs) ∨ .pair q1 q2 ∈ Dict.keys (eqsOf eqs) := by
  obtain ⟨eqs', e', r1, r2⟩ := P.equations ⟨hint, hneg, hidx⟩ h1 h2 hn
  rw [e] at e'
  cases e'
  constructor
  · intro k hk
    obtain ⟨key, hh, hk⟩ := eqsOf_mem.1 hk
    obtain ⟨eq, he⟩ := Option.isSome_iff_exists.1 hh
    obtain ⟨q1, hq1, q2, hq2, hcb, rfl, hno, -⟩ := r1 key eq he
    rw [ofKey_keyOf] at hk
    cases hk
    refine ⟨q1, hq1, q2, hq2, hcb, rfl, fun hm => ?_⟩
    obtain ⟨key', hh', hk'⟩ := eqsOf_mem.1 hm
    obtain ⟨eq', he'⟩ := Option.isSome_iff_exists.1 hh'
    obtain ⟨u, -, v, -, -, rfl, -, -⟩ := r1 key' eq' he'
    rw [ofKey_keyOf] at hk'
    injection hk' with hk'
    split at hk'
    · cases hk'
    · rename_i huv
      injection hk' with k1 k2
      rw [keyOf, if_neg huv, k1, k2, hno] at hh'
      cases hh'
  · intro q1 hq1 q2 hq2 hcb
    rcases r2 q1 hq1 q2 hq2 hcb with h | h
    · exact Or.inl (eqsOf_mem.2 ⟨_, h, ofKey_keyOf q1 q2⟩)
    · exact Or.inr (eqsOf_mem.2 ⟨_, h, rfl⟩)

/-- **C138, finding an equation.** `find_key(q1,q2,eqs)` does not depend on the order of the two orbits; it finds an equation exactly if
`orbit_equations` combines them in one of the orders, and the equation it finds is one of these, with these two orbits on the left. -/
theorem C138_find (P : Spec.Prepared canon str match? gens allowed c idx layers nl n0 ord T is ol)
    (hint : Function.Injective int) (hneg : ∀ z, neg (int z) = decide (z < 0)) (hidx : ∀ k : Nat, idx k = int k)
    (h1 : 1 ≤ nl.getD layers.length) (h2 : nl.getD layers.length ≤ layers.length) (hn : n ≤ n0)
    (e : orbitEquations ⟨canon, str, match?, allowed⟩ T int neg ord n = .ok eqs) {q1 q2 : Orbit α} (hq1 : q1 ∈ ol) (hq2 : q2 ∈ ol) :
    findKey q1 q2 (eqsOf eqs) = findKey q2 q1 (eqsOf eqs) ∧
    (∀ k, findKey q1 q2 (eqsOf eqs) = some k ↔
      (∃ key, Dict.has eqs key = true ∧ EqKey.ofKey key = some k) ∧ Spec.leftSide k = {q1, q2}) ∧
    ((findKey q1 q2 (eqsOf eqs)).isSome = true ↔ Spec.Combinable T c n q1 q2 ∨ Spec.Combinable T c n q2 q1) := by
  obtain ⟨r1, r2⟩ := eqs_facts P hint hneg hidx h1 h2 hn e
  have hhas : ∀ k : EqKey (Orbit α), Dict.has (eqsOf eqs) k = true ↔ k ∈ Dict.keys (eqsOf eqs) := fun k => Dict.mem_keys.symm
  have nopp : ∀ q : Orbit α, .pair q q ∉ Dict.keys (eqsOf eqs) := by
    intro q h
    obtain ⟨u, -, v, -, -, hk, -⟩ := r1 _ h
    split at hk
    · cases hk
    · rename_i huv
      injection hk with k1 k2
      exact huv (k2.symm.trans k1)
  have notwo : ∀ a b : Orbit α, .pair a b ∈ Dict.keys (eqsOf eqs) → .pair b a ∉ Dict.keys (eqsOf eqs) := by
    intro a b h
    obtain ⟨u, -, v, -, -, hk, hno⟩ := r1 _ h
    split at hk
    · cases hk
    · injection hk with k1 k2
      rw [k1, k2]; exact hno
  have notri : ∀ a b d : Orbit α, .triple a b d ∉ Dict.keys (eqsOf eqs) := by
    intro a b d h
    obtain ⟨u, -, v, -, -, hk, -⟩ := r1 _ h
    split at hk <;> cases hk
  have key : ∀ a b k, findKey a b (eqsOf eqs) = some k ↔ k ∈ Dict.keys (eqsOf eqs) ∧ Spec.leftSide k = {a, b} := by
    intro a b k
    unfold findKey
    simp only [hhas]
    constructor
    · intro h
      split at h
      · rename_i hc
        cases h
        exact ⟨hc.2, by simp [Spec.leftSide, hc.1]⟩
      · split at h
        · rename_i hc
          cases h
          exact ⟨hc, rfl⟩
        · split at h
          · rename_i hc
            cases h
            exact ⟨hc, Multiset.pair_comm _ _⟩
          · cases h
    · rintro ⟨hk, hl⟩
      cases k with
      | triple o1 o2 o3 => exact absurd hk (notri _ _ _)
      | square o =>
        have : a = o ∧ b = o := by
          have ha : a ∈ ({o, o} : Multiset (Orbit α)) := by rw [show ({o, o} : Multiset (Orbit α)) = {a, b} from hl]; simp
          have hb : b ∈ ({o, o} : Multiset (Orbit α)) := by rw [show ({o, o} : Multiset (Orbit α)) = {a, b} from hl]; simp
          exact ⟨by simpa using ha, by simpa using hb⟩
        obtain ⟨rfl, rfl⟩ := this
        rw [if_pos ⟨rfl, hk⟩]
      | pair o1 o2 =>
        have hne : o1 ≠ o2 := fun h => nopp o1 (by rw [h] at hk ⊢; exact hk)
        have ho : o1 = a ∧ o2 = b ∨ o1 = b ∧ o2 = a := by
          have hl' : ({o1, o2} : Multiset (Orbit α)) = {a, b} := hl
          have m1 : o1 ∈ ({a, b} : Multiset (Orbit α)) := by rw [← hl']; simp
          have m2 : o2 ∈ ({a, b} : Multiset (Orbit α)) := by rw [← hl']; simp
          simp only [Multiset.insert_eq_cons, Multiset.mem_cons, Multiset.mem_singleton] at m1 m2
          rcases m1 with rfl | rfl <;> rcases m2 with rfl | rfl
          · exact absurd rfl hne
          · exact Or.inl ⟨rfl, rfl⟩
          · exact Or.inr ⟨rfl, rfl⟩
          · exact absurd rfl hne
        rcases ho with ⟨rfl, rfl⟩ | ⟨rfl, rfl⟩
        · rw [if_neg (fun h => hne h.1), if_pos hk]
        · rw [if_neg (fun h => hne h.1.symm), if_neg (notwo _ _ hk), if_pos hk]
  refine ⟨?_, fun k => by rw [key, eqsOf_mem], ?_⟩
  · ext k
    rw [key, key, Multiset.pair_comm]
  · constructor
    · intro h
      obtain ⟨k, hk⟩ := Option.isSome_iff_exists.1 h
      obtain ⟨hm, hl⟩ := (key _ _ _).1 hk
      obtain ⟨u, hu, v, hv, hcb, rfl, -⟩ := r1 _ hm
      have hl' : ({v, u} : Multiset (Orbit α)) = {q1, q2} := by
        rw [← hl]
        split
        · rename_i h; rw [h]; rfl
        · rfl
      rcases mpair_eq hl' with ⟨rfl, rfl⟩ | ⟨rfl, rfl⟩
      · exact Or.inr hcb
      · exact Or.inl hcb
    · have : ∀ u v, u ∈ ol → v ∈ ol → Spec.Combinable T c n u v → ∃ k ∈ Dict.keys (eqsOf eqs), Spec.leftSide k = {u, v} := by
        intro u v hu hv hcb
        rcases r2 u hu v hv hcb with h | h
        · refine ⟨_, h, ?_⟩
          split
          · rename_i h; rw [h]; rfl
          · exact Multiset.pair_comm _ _
        · exact ⟨_, h, rfl⟩
      rintro (h | h)
      · obtain ⟨k, k1, k2⟩ := this q1 q2 hq1 hq2 h
        rw [(key q1 q2 k).2 ⟨k1, k2⟩]; rfl
      · obtain ⟨k, k1, k2⟩ := this q2 q1 hq2 hq1 h
        rw [(key q1 q2 k).2 ⟨k1, k2.trans (Multiset.pair_comm _ _)⟩]; rfl

/-- Internal: the keys of the dictionary of networks -/
theorem graphlets_keys {nets : Dict Nat (List (MPlex α W))} {invs : Dict σ (Nat × Nat)} {cs : List (Coupling α W)}
    (h : graphlets canon str allowed cs idx n0 layers nl = .ok (nets, invs)) : (Dict.keys nets).Nodup := by
  unfold graphlets at h
  split at h
  · cases h
  · refine forE_keeps (P := fun st : Dict Nat (List (MPlex α W)) × Dict σ (Nat × Nat) => (Dict.keys st.1).Nodup) _
      (Dict.nodup_keys_set (by simp [Dict.keys]) _ _) ?_ h
    intro st i _ hst st' h
    unfold nextSize at h
    split at h
    · cases h
    · split at h
      · cases h
      · cases h
        exact Dict.nodup_keys_set hst _ _

theorem mem_netsOnLayers_iff {l : List α} {m i : Nat} {p : MPlex α W} (hn : (Dict.keys T.nets).Nodup) (h : Stored T.nets m i p) :
    (m, i) ∈ netsOnLayers l T.nets ↔ onLayers l p = true := by
  refine ⟨fun hm => ?_, mem_netsOnLayers h⟩
  unfold netsOnLayers at hm
  rw [List.mem_flatMap] at hm
  obtain ⟨⟨m', ps⟩, hps, hm⟩ := hm
  obtain ⟨⟨p', i'⟩, hp', heq⟩ := List.mem_map.1 hm
  obtain ⟨k1, k2⟩ := List.mem_filter.1 hp'
  injection heq with e1 e2
  dsimp only at e1 e2
  subst e1 e2
  obtain ⟨ps', h1, h2⟩ := h
  rw [Dict.get_of_mem hn hps] at h1
  cases h1
  rw [List.mem_zipIdx_iff_getElem?] at k1
  dsimp only at k1 k2
  rw [h2] at k1
  cases k1
  exact k2

/-- Internal -/
theorem onLayers_iff {q : Orbit α} {N k : Nat} {p : MPlex α W} {g : Spec.Multigraph α} {A : Finset α} {l : List α} (hk : 1 ≤ k)
    (a : AtOrbit T c idx layers k N q p g A) :
    (Spec.OnLayers T q l ↔ ∀ x, g.layer x ↔ x ∈ l) ∧ (onLayers l p = true ↔ ∀ x, g.layer x ↔ x ∈ l) := by
  have hmem : ∀ x, x ∈ p.slices.getD 1 [] ↔ g.layer x := fun x => a.is.layer_mem x
  constructor
  · unfold Spec.OnLayers
    rw [netAt_stored a.stored]
    have hs : p.slices[1]? = some (p.slices.getD 1 []) := by
      obtain ⟨l', -, l2, l3⟩ := a.layer
      obtain ⟨x, hx⟩ := List.exists_mem_of_length_pos (l := l') (by omega)
      have := (hmem x).2 ((l3 x).2 hx)
      rw [List.getD_eq_getElem?_getD] at this ⊢
      cases h : p.slices[1]? with
      | none => rw [h] at this; cases this
      | some s => rfl
    constructor
    · rintro ⟨net, hnet, s, hs', hx⟩ x
      cases hnet
      rw [hs] at hs'
      cases hs'
      rw [← hmem, hx]
    · intro h
      exact ⟨p, rfl, _, hs, fun x => by rw [hmem, h]⟩
  · unfold onLayers
    rw [decide_eq_true_iff, Finset.ext_iff]
    simp only [List.mem_toFinset, hmem]

/-- **C138, equations on some layers.** `eqs_in_layers(layers,eqs,nets)` keeps the equations whose left side has orbits of graphlets on
exactly these layers, all of them, and does not change them. -/
theorem C138_layers (P : Spec.Prepared canon str match? gens allowed c idx layers nl n0 ord T is ol)
    (hint : Function.Injective int) (hneg : ∀ z, neg (int z) = decide (z < 0)) (hidx : ∀ k : Nat, idx k = int k)
    (h1 : 1 ≤ nl.getD layers.length) (h2 : nl.getD layers.length ≤ layers.length) (hn : n ≤ n0)
    (e : orbitEquations ⟨canon, str, match?, allowed⟩ T int neg ord n = .ok eqs) (l : List α) (k : EqKey (Orbit α)) (rhs : List (Orbit α)) :
    (k, rhs) ∈ eqsInLayers l (eqsOf eqs) T.nets ↔ (k, rhs) ∈ eqsOf eqs ∧ ∀ q ∈ Spec.leftSide k, Spec.OnLayers T q l := by
  obtain ⟨r1, -⟩ := eqs_facts P hint hneg hidx h1 h2 hn e
  obtain ⟨S, -, -⟩ := P.setup
  have hnd := graphlets_keys P.made
  unfold eqsInLayers
  rw [List.mem_filter]
  refine and_congr_right fun hm => ?_
  obtain ⟨q1, hq1, q2, hq2, hcb, rfl, -⟩ := r1 k (List.mem_map_of_mem (f := Prod.fst) hm)
  obtain ⟨ops1, A1, a1⟩ := S.atOrbit hq1
  obtain ⟨ops2, A2, a2⟩ := S.atOrbit hq2
  obtain ⟨-, -, hl⟩ := (S.combinable a1 a2).1 hcb
  have hleft : ∀ q, q ∈ Spec.leftSide (if q1 = q2 then EqKey.square q1 else EqKey.pair q2 q1) ↔ q = q1 ∨ q = q2 := by
    intro q
    split
    · rename_i h; subst h; simp [Spec.leftSide]
    · simp [Spec.leftSide, or_comm]
  have hfirst : EqKey.first (if q1 = q2 then EqKey.square q1 else EqKey.pair q2 q1) = q2 := by
    split
    · rename_i h; simp [EqKey.first, h]
    · rfl
  simp only [hleft, hfirst, decide_eq_true_eq]
  rw [mem_netsOnLayers_iff hnd a2.stored, (onLayers_iff h1 a2).2]
  constructor
  · rintro h q (rfl | rfl)
    · exact (onLayers_iff h1 a1).1.2 fun x => (hl x).trans (h x)
    · exact (onLayers_iff h1 a2).1.2 h
  · intro h
    exact (onLayers_iff h1 a2).1.1 (h q2 (Or.inr rfl))

open Classical in
/-- the hypotheses are met, and two orbits have an equation on the layers 7 and 8 that is found -/
example : ∃ (B : Backend Int (CGraph → Prop) (List (List Int × Nat) × (CGraph → Prop))) (T : Tables Int Int _) (ord : _) (eqs : _) (q : Orbit Int) (k : _) (rhs : _),
    orbitEquations B T id (fun z => decide (z < 0)) ord 4 = .ok eqs ∧ findKey q q (eqsOf eqs) = some k ∧
    (k, rhs) ∈ eqsInLayers [7, 8] (eqsOf eqs) T.nets := by
  obtain ⟨canon, match?, gens, T, is, ol, P⟩ := exists_prepared 4
  obtain ⟨S, -, -⟩ := P.setup
  obtain ⟨k, o, hq⟩ := S.exists_orbit (m := 2) (by decide) (by decide) (by decide) (by decide)
  obtain ⟨eqs, e, -⟩ := C120_keys (int := id) (neg := fun z => decide (z < 0)) P (fun a b h => h) (fun _ => rfl) (fun _ => rfl)
    (by decide) (by decide) le_rfl
  obtain ⟨ops, A, hA⟩ := S.atOrbit hq
  obtain ⟨-, h1, h2⟩ := C138_find P (fun a b h => h) (fun _ => rfl) (fun _ => rfl) (by decide) (by decide) le_rfl e hq hq
  obtain ⟨key, hk⟩ := Option.isSome_iff_exists.1 (h2.2 (Or.inl ((S.combinable hA hA).2 ⟨by simp, by simp, fun _ => Iff.rfl⟩)))
  obtain ⟨hm, hl⟩ := (h1 key).1 hk
  obtain ⟨⟨key', rhs⟩, hm', hkk⟩ := List.mem_map.1 (eqsOf_mem.2 hm)
  dsimp only at hkk
  subst hkk
  refine ⟨_, T, _, eqs, _, key', rhs, e, hk, ?_⟩
  refine (C138_layers P (fun a b h => h) (fun _ => rfl) (fun _ => rfl) (by decide) (by decide) le_rfl e _ _ _).2 ⟨hm', ?_⟩
  rw [hl]
  intro q hq
  have : q = (2, k, o) := by simpa using hq
  subst this
  obtain ⟨l, l1, l2, l3⟩ := hA.layer
  have hl : l = [7, 8] := l1.eq_of_length l2
  exact (onLayers_iff (by decide) hA).1.2 fun x => by rw [l3, hl]

end Pymnet
