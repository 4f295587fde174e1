import Verif.Proofs.OrbitEqs5
import Verif.Props.OrbitEq

/-! C120-C121: the equations that `orbit_equations` returns. -/

set_option linter.unusedSectionVars false
set_option linter.unusedSimpArgs false
set_option linter.unusedVariables false

namespace Pymnet

open Py MPlex

variable {α W β σ : Type} [DecidableEq α] [DecidableEq W] [Zero W] [LawfulIntNames α] [LinearOrder α] [DecidableEq σ] [One W]
  {canon : CGraph → β} {str : List (List α × Nat) × β → σ} {allowed : Option (List Nat)} {c : Coupling α W}
  {idx : Nat → α} {layers : List α} {nl : Option Nat} {n0 n : Nat} {T : Tables α W σ} {is : Dict (Orbit α) Nat}
  {match? : CGraph → CGraph → Option (Dict Nat Nat)} {gens : CGraph → List (Dict Nat Nat)} {ord : Finset α → List α}
  {ops ops' ops1 ops2 : List (POp α W)} {ol : List (Orbit α)} {q q1 q2 : Orbit α} {v : α} {int : Int → α} {neg : α → Bool}

/-- Two orbits for which `orbit_equations` up to `n` nodes makes an equation: the first has 2 or 3 nodes, two sets of nodes with these
roles that share one node have at most `n` nodes together, and the two graphlets have the same layers. -/
def Spec.Combinable (T : Tables α W σ) (c : Coupling α W) (n : Nat) (q1 q2 : Orbit α) : Prop :=
  q1.1 ≤ 3 ∧ q1.1 + q2.1 ≤ n + 1 ∧
  ∃ l1 l2 ops1 ops2, Dict.get T.nets q1.1 = some l1 ∧ l1[q1.2.1]? = some (afterP [c] false 0 true ops1) ∧
    Dict.get T.nets q2.1 = some l2 ∧ l2[q2.2.1]? = some (afterP [c] false 0 true ops2) ∧
    ∀ x, (Spec.shown ops1).layer x ↔ (Spec.shown ops2).layer x

/-- The number of ways in which the node of orbit `q` can have the roles of `q1` and `q2` in two sets of nodes that together are the nodes of
the graphlet of `q`; half of that number if the two orbits are the same. -/
def Spec.IsCoefficient (T : Tables α W σ) (c : Coupling α W) (allowed : Option (List Nat)) (q1 q2 q : Orbit α) (x : ℚ) : Prop :=
  ∃ l l1 l2 ops ops1 ops2, Dict.get T.nets q.1 = some l ∧ l[q.2.1]? = some (afterP [c] false 0 true ops) ∧
    Dict.get T.nets q1.1 = some l1 ∧ l1[q1.2.1]? = some (afterP [c] false 0 true ops1) ∧
    Dict.get T.nets q2.1 = some l2 ∧ l2[q2.2.1]? = some (afterP [c] false 0 true ops2) ∧
    x = (Spec.Coverings c allowed ops q.2.2 (q1.1 + q2.1 - q.1) ops1 q1.2.2 ops2 q2.2.2).ncard / (if q1 = q2 then 2 else 1)

theorem Setup.isCoefficient {N k : Nat} (S : Setup canon str match? allowed c idx layers k N ord T ol) (hq1 : q1 ∈ ol) (hq2 : q2 ∈ ol)
    (hq : q ∈ ol) (x : ℚ) :
    Spec.IsCoefficient T c allowed q1 q2 q x ↔ x = (pairsAt c allowed T.nets q1 q2 q : ℚ) / (if q1 = q2 then 2 else 1) := by
  constructor
  · rintro ⟨l, l1, l2, ops, ops1, ops2, a1, a2, a3, a4, a5, a6, rfl⟩
    rw [← S.pairs_coverings hq1 hq2 ⟨l1, a3, a4⟩ ⟨l2, a5, a6⟩, pairsAt_eq ⟨l, a1, a2⟩]
  · rintro rfl
    obtain ⟨-, ops, -, hst, -⟩ := (S.ol q).1 hq
    obtain ⟨-, ops1, -, hst1, -⟩ := (S.ol q1).1 hq1
    obtain ⟨-, ops2, -, hst2, -⟩ := (S.ol q2).1 hq2
    obtain ⟨l, a1, a2⟩ := id hst
    obtain ⟨l1, a3, a4⟩ := id hst1
    obtain ⟨l2, a5, a6⟩ := id hst2
    refine ⟨l, l1, l2, ops, ops1, ops2, a1, a2, a3, a4, a5, a6, ?_⟩
    rw [← S.pairs_coverings hq1 hq2 hst1 hst2, pairsAt_eq hst]

theorem Setup.combinable {N k : Nat} (S : Setup canon str match? allowed c idx layers k N ord T ol) {p1 p2 : MPlex α W}
    {g1 g2 : Spec.Multigraph α} {A1 A2 : Finset α} (h1 : AtOrbit T c idx layers k N q1 p1 g1 A1) (h2 : AtOrbit T c idx layers k N q2 p2 g2 A2) :
    Spec.Combinable T c n q1 q2 ↔ q1.1 ≤ 3 ∧ q1.1 + q2.1 ≤ n + 1 ∧ ∀ x, g1.layer x ↔ g2.layer x := by
  refine and_congr Iff.rfl (and_congr Iff.rfl ⟨?_, fun h => ?_⟩)
  · rintro ⟨l1, l2, ops1, ops2, a1, a2, a3, a4, h⟩
    rw [← h1.shown_eq ⟨l1, a1, a2⟩, ← h2.shown_eq ⟨l2, a3, a4⟩]
    exact h
  · obtain ⟨ops1, rfl, -, rfl⟩ := h1.is
    obtain ⟨ops2, rfl, -, rfl⟩ := h2.is
    obtain ⟨l1, a1, a2⟩ := h1.stored
    obtain ⟨l2, a3, a4⟩ := h2.stored
    exact ⟨l1, l2, ops1, ops2, a1, a2, a3, a4, h⟩

/-- Internal: all that is known about the result. -/
theorem Spec.Prepared.equations (P : Spec.Prepared canon str match? gens allowed c idx layers nl n0 ord T is ol) (hI : IntName int neg idx)
    (h1 : 1 ≤ nl.getD layers.length) (h2 : nl.getD layers.length ≤ layers.length) (hn : n ≤ n0) :
    ∃ eqs, orbitEquations ⟨canon, str, match?, allowed⟩ T int neg ord n = .ok eqs ∧
      (∀ key eq, Dict.get eqs key = some eq → ∃ q1 ∈ ol, ∃ q2 ∈ ol, Spec.Combinable T c n q1 q2 ∧ key = keyOf q1 q2 ∧
        Dict.has eqs [(q1, 1), (q2, 1)] = false ∧ q1.1 ≤ q2.1 ∧
        orbitEquation ⟨canon, str, match?, allowed⟩ T int neg ord q1 q2 = .ok (some (key, eq))) ∧
      ∀ q1 ∈ ol, ∀ q2 ∈ ol, Spec.Combinable T c n q1 q2 → Dict.has eqs (keyOf q1 q2) = true ∨ Dict.has eqs [(q1, 1), (q2, 1)] = true := by
  obtain ⟨S, -, -⟩ := P.setup
  by_cases h2n : 2 ≤ n
  swap
  · refine ⟨[], ?_, fun key eq h => (nomatch h), fun q1 hq1 q2 hq2 hc => ?_⟩
    · unfold orbitEquations
      rw [show min (n + 1) 4 - 2 = 0 by omega]
      rfl
    · obtain ⟨_, _, a1⟩ := S.atOrbit hq1
      obtain ⟨_, _, a2⟩ := S.atOrbit hq2
      have := a1.two
      have := a2.two
      have := hc.2.1
      omega
  obtain ⟨nets, invs, e, h⟩ := graphlets_main P.genOk n0 nl
  rw [P.made] at e
  cases e
  have ha := auts_entries P.genOk P.generators h P.orbits
  have hlist := S.listed (by omega) ha
  obtain ⟨hk, hl⟩ := listOrbits_spec T.auts
  have hl' : ∀ m, 2 ≤ m → m ≤ n → ∃ l, Dict.get (listOrbits T.auts) m = some l := by
    intro m hm hmn
    have := hl m
    cases hh : Dict.get (listOrbits T.auts) m with
    | some l => exact ⟨l, rfl⟩
    | none =>
      rw [hh] at this
      obtain ⟨k, o, ho⟩ := S.exists_orbit h1 h2 hm (hmn.trans hn)
      obtain ⟨i, x, o', hx, -⟩ := (hlist m k o).2 ho
      exact absurd hx (this i x o')
  have hmem : ∀ m l, Dict.get (listOrbits T.auts) m = some l → ∀ q, q ∈ l ↔ q ∈ ol ∧ q.1 = m := by
    intro m l hml q
    have := hl m
    rw [hml] at this
    rw [this.2.2 q]
    constructor
    · rintro ⟨i, x, o, hx, rfl⟩
      exact ⟨(hlist m i o).1 ⟨i, x, o, hx, rfl⟩, rfl⟩
    · rintro ⟨hq, rfl⟩
      obtain ⟨m, k, o⟩ := q
      exact (hlist m k o).2 hq
  have hrange : ∀ m, m ∈ List.range' 2 (min (n + 1) 4 - 2) ↔ 2 ≤ m ∧ m ≤ 3 ∧ m ≤ n := by
    intro m
    rw [List.mem_range'_1]
    omega
  have hpairs : ∀ a b, (a, b) ∈ allPairs T n ↔ a ∈ ol ∧ b ∈ ol ∧ a.1 ≤ 3 ∧ a.1 + b.1 ≤ n + 1 := by
    intro a b
    unfold allPairs pairsOf
    simp only [List.mem_flatMap]
    constructor
    · rintro ⟨m, hm, a', ha', ⟨k, l⟩, hkl, hx⟩
      obtain ⟨m1, m2, m3⟩ := (hrange m).1 hm
      obtain ⟨lm, hlm⟩ := hl' m m1 m3
      rw [hlm, Option.getD_some] at ha'
      obtain ⟨b1, b2⟩ := (hmem m lm hlm a').1 ha'
      split at hx
      · rename_i hle
        obtain ⟨b', hb', e⟩ := List.mem_map.1 hx
        obtain ⟨rfl, rfl⟩ := Prod.mk.inj e
        obtain ⟨b3, b4⟩ := (hmem k l (Dict.get_of_mem hk hkl) b').1 hb'
        dsimp only at hle
        exact ⟨b1, b3, by omega, by omega⟩
      · simp at hx
    · rintro ⟨b1, b2, b3, b4⟩
      obtain ⟨_, _, a1⟩ := S.atOrbit b1
      obtain ⟨_, _, a2⟩ := S.atOrbit b2
      have t1 := a1.two
      have t2 := a2.two
      obtain ⟨lm, hlm⟩ := hl' a.1 t1 (by omega)
      obtain ⟨lk, hlk⟩ := hl' b.1 t2 (by omega)
      refine ⟨a.1, (hrange _).2 ⟨t1, b3, by omega⟩, a, ?_, (b.1, lk), Dict.mem_of_get hlk, ?_⟩
      · rw [hlm]; exact (hmem _ _ hlm a).2 ⟨b1, rfl⟩
      · rw [if_pos (by dsimp only; omega)]
        exact List.mem_map.2 ⟨b, (hmem _ _ hlk b).2 ⟨b2, rfl⟩, rfl⟩
  have hstep : ∀ a b, (a, b) ∈ allPairs T n → ∃ eq, (Spec.Combinable T c n a b →
      orbitEquation ⟨canon, str, match?, allowed⟩ T int neg ord a b = .ok (some (keyOf a b, eq))) ∧
      (¬ Spec.Combinable T c n a b → orbitEquation ⟨canon, str, match?, allowed⟩ T int neg ord a b = .ok none) := by
    intro a b hab
    obtain ⟨b1, b2, b3, b4⟩ := (hpairs a b).1 hab
    obtain ⟨_, _, a1⟩ := S.atOrbit b1
    obtain ⟨_, _, a2⟩ := S.atOrbit b2
    by_cases hc : Spec.Combinable T c n a b
    · obtain ⟨eq, e, -⟩ := orbitEquation_ok S hI b1 b2 b3 (by omega) a1 a2 ((S.combinable a1 a2).1 hc).2.2
      exact ⟨eq, fun _ => e, fun h => absurd hc h⟩
    · refine ⟨[], fun h => absurd h hc, fun _ => orbitEquation_none a1 a2 fun h => hc ((S.combinable a1 a2).2 ⟨b3, b4, h⟩)⟩
  have hex : ∃ eqn : Orbit α → Orbit α → Dict (Orbit α) ℚ, ∀ a b, (a, b) ∈ allPairs T n → (Spec.Combinable T c n a b →
      orbitEquation ⟨canon, str, match?, allowed⟩ T int neg ord a b = .ok (some (keyOf a b, eqn a b))) ∧
      (¬ Spec.Combinable T c n a b → orbitEquation ⟨canon, str, match?, allowed⟩ T int neg ord a b = .ok none) := by
    classical
    refine ⟨fun a b => if h : (a, b) ∈ allPairs T n then (hstep a b h).choose else [], fun a b h => ?_⟩
    dsimp only
    rw [dif_pos h]
    exact (hstep a b h).choose_spec
  obtain ⟨eqn, heqn⟩ := hex
  obtain ⟨eqs, e, r1, r2⟩ := steps_ok (B := ⟨canon, str, match?, allowed⟩) (same := Spec.Combinable T c n) (eqn := eqn) (allPairs T n)
    (fun qq hq => (heqn qq.1 qq.2 hq).1) fun qq hq => (heqn qq.1 qq.2 hq).2
  refine ⟨eqs, ?_, ?_, ?_⟩
  · rw [orbitEquations_flat _ _ _ _ _ _ fun m hm => by obtain ⟨m1, m2, m3⟩ := (hrange m).1 hm; exact hl' m m1 m3]
    exact e
  · intro key eq hk
    obtain ⟨a, b, c1, c2, c3, rfl, c5, pre, post, c6, c7⟩ := r1 key eq hk
    obtain ⟨b1, b2, b3, b4⟩ := (hpairs a b).1 c1
    refine ⟨a, b1, b, b2, c2, c3, c5, ?_, ?_⟩
    · by_contra hlt
      obtain ⟨_, _, a1⟩ := S.atOrbit b1
      obtain ⟨_, _, a2⟩ := S.atOrbit b2
      have hne : a ≠ b := by rintro rfl; exact hlt le_rfl
      have hmem' : (b, a) ∈ allPairs T n := (hpairs b a).2 ⟨b2, b1, by omega, by omega⟩
      have hnot := c7 ((S.combinable a2 a1).2 ⟨by omega, by omega, fun x => (((S.combinable a1 a2).1 c2).2.2 x).symm⟩) hne
      have hsort : (allPairs T n).Pairwise fun x y => x.1.1 ≤ y.1.1 := by
        have hin : ∀ m, 2 ≤ m → m ≤ n → ∀ x ∈ ((Dict.get (listOrbits T.auts) m).getD []).flatMap fun q1 => pairsOf T n q1, x.1.1 = m := by
          intro m m1 m2 x hx
          obtain ⟨q', hq', hx⟩ := List.mem_flatMap.1 hx
          obtain ⟨lm, hlm⟩ := hl' m m1 m2
          rw [hlm, Option.getD_some] at hq'
          unfold pairsOf at hx
          obtain ⟨en, -, hx⟩ := List.mem_flatMap.1 hx
          split at hx
          · obtain ⟨b', -, rfl⟩ := List.mem_map.1 hx
            exact ((hmem m lm hlm q').1 hq').2
          · simp at hx
        unfold allPairs
        refine List.pairwise_flatMap.2 ⟨fun m hm => ?_, ?_⟩
        · obtain ⟨m1, -, m2⟩ := (hrange m).1 hm
          refine List.pairwise_of_forall_mem_list fun x hx y hy => ?_
          rw [hin m m1 m2 x hx, hin m m1 m2 y hy]
        · refine List.Pairwise.imp_of_mem ?_ List.pairwise_lt_range'
          intro m m' hm hm' hlt x hx y hy
          obtain ⟨m1, -, m2⟩ := (hrange m).1 hm
          obtain ⟨m1', -, m2'⟩ := (hrange m').1 hm'
          rw [hin m m1 m2 x hx, hin m' m1' m2' y hy]
          exact hlt.le
      rw [c6] at hmem' hsort
      rcases List.mem_append.1 hmem' with h | h
      · exact hnot h
      · rcases List.mem_cons.1 h with h | h
        · exact hne (Prod.mk.inj h).2
        · have := (List.pairwise_cons.1 (List.pairwise_append.1 hsort).2.1).1 _ h
          dsimp only at this
          exact hlt this
    rw [c3]
    exact (heqn a b c1).1 c2
  · intro a ha b hb hc
    exact r2 a b ((hpairs a b).2 ⟨ha, hb, hc.1, hc.2.1⟩) hc

/-! ### C120 -/

/-- **C120.** `orbit_equations(n, nets, auts, invs)` returns. It has exactly one equation for every two orbits that can be combined: under the
key `(q, 2)` if they are the same, under one of the keys `((q2, 1), (q1, 1))` and `((q1, 1), (q2, 1))` if they are not. A key never has an orbit of fewer nodes before one of more. -/
theorem C120_keys (P : Spec.Prepared canon str match? gens allowed c idx layers nl n0 ord T is ol)
    (hint : Function.Injective int) (hneg : ∀ z, neg (int z) = decide (z < 0)) (hidx : ∀ k : Nat, idx k = int k)
    (h1 : 1 ≤ nl.getD layers.length) (h2 : nl.getD layers.length ≤ layers.length) (hn : n ≤ n0) :
    ∃ eqs, orbitEquations ⟨canon, str, match?, allowed⟩ T int neg ord n = .ok eqs ∧
      (∀ key, Dict.has eqs key = true → ∃ q1 ∈ ol, ∃ q2 ∈ ol, Spec.Combinable T c n q1 q2 ∧
        (q1 = q2 ∧ key = [(q1, 2)] ∨ q1 ≠ q2 ∧ q1.1 ≤ q2.1 ∧ key = [(q2, 1), (q1, 1)] ∧ Dict.has eqs [(q1, 1), (q2, 1)] = false)) ∧
      (∀ q ∈ ol, Spec.Combinable T c n q q → Dict.has eqs [(q, 2)] = true) ∧
      (∀ q1 ∈ ol, ∀ q2 ∈ ol, q1 ≠ q2 → Spec.Combinable T c n q1 q2 →
        Dict.has eqs [(q2, 1), (q1, 1)] = true ∨ Dict.has eqs [(q1, 1), (q2, 1)] = true) := by
  obtain ⟨eqs, e, r1, r2⟩ := P.equations ⟨hint, hneg, hidx⟩ h1 h2 hn
  have r3 : ∀ q, Dict.has eqs [(q, 1), (q, 1)] = false := by
    intro q
    rw [← Bool.not_eq_true]
    intro h
    obtain ⟨eq, hk⟩ := Option.isSome_iff_exists.1 h
    obtain ⟨q1, -, q2, -, -, hkey, -⟩ := r1 _ eq hk
    unfold keyOf at hkey
    split at hkey
    · simp at hkey
    · rename_i hne
      simp only [List.cons.injEq, Prod.mk.injEq] at hkey
      exact hne (hkey.2.1.1.symm.trans hkey.1.1)
  refine ⟨eqs, e, fun key h => ?_, fun q hq hc => ?_, fun q1 hq1 q2 hq2 hne hc => ?_⟩
  · obtain ⟨eq, hk⟩ := Option.isSome_iff_exists.1 h
    obtain ⟨q1, hq1, q2, hq2, hc, hkey, hno, hle, -⟩ := r1 key eq hk
    refine ⟨q1, hq1, q2, hq2, hc, ?_⟩
    unfold keyOf at hkey
    split at hkey
    · rename_i h; exact Or.inl ⟨h, hkey⟩
    · rename_i h; exact Or.inr ⟨h, hle, hkey, hno⟩
  · have := r2 q hq q hq hc
    rw [keyOf, if_pos rfl, r3] at this
    simpa using this
  · have := r2 q1 hq1 q2 hq2 hc
    rwa [keyOf, if_neg hne] at this

/-- **C120, the coefficients.** In the equation of two orbits, every coefficient is positive and is the number of coverings of the graphlet of its
orbit, which has more nodes than the graphlets of both. -/
theorem C120_terms (P : Spec.Prepared canon str match? gens allowed c idx layers nl n0 ord T is ol)
    (hint : Function.Injective int) (hneg : ∀ z, neg (int z) = decide (z < 0)) (hidx : ∀ k : Nat, idx k = int k)
    (h1 : 1 ≤ nl.getD layers.length) (h2 : nl.getD layers.length ≤ layers.length) (hn : n ≤ n0)
    {eqs : Dict (OrbitKey α) (Dict (Orbit α) ℚ)} (he : orbitEquations ⟨canon, str, match?, allowed⟩ T int neg ord n = .ok eqs)
    {key : OrbitKey α} {eq : Dict (Orbit α) ℚ} (hk : Dict.get eqs key = some eq)
    (hkey : q1 = q2 ∧ key = [(q1, 2)] ∨ q1 ≠ q2 ∧ key = [(q2, 1), (q1, 1)]) {x : ℚ} (hx : Dict.get eq q = some x) :
    q ∈ ol ∧ q1.1 < q.1 ∧ q2.1 < q.1 ∧ q.1 < q1.1 + q2.1 ∧ 0 < x ∧ Spec.IsCoefficient T c allowed q1 q2 q x := by
  obtain ⟨S, -, -⟩ := P.setup
  have hI : IntName int neg idx := ⟨hint, hneg, hidx⟩
  obtain ⟨eqs', e, r1, -⟩ := P.equations hI h1 h2 hn
  rw [he] at e
  cases e
  obtain ⟨a, ha, b, hb, hc, ek, -, hable, e⟩ := r1 key eq hk
  obtain ⟨rfl, rfl⟩ : a = q1 ∧ b = q2 := by
    rw [ek] at hkey
    unfold keyOf at hkey
    rcases hkey with ⟨rfl, h⟩ | ⟨hne, h⟩ <;> split at h <;> simp_all
  obtain ⟨_, _, a1⟩ := S.atOrbit ha
  obtain ⟨_, _, a2⟩ := S.atOrbit hb
  obtain ⟨c1, c2, c3⟩ := (S.combinable a1 a2).1 hc
  obtain ⟨eq', e', -, t1, -⟩ := orbitEquation_ok S hI ha hb c1 (by omega) a1 a2 c3
  rw [e] at e'
  cases e'
  obtain ⟨d1, d2, d3, d4, d5⟩ := t1 q x hx
  refine ⟨d1, by omega, by omega, d3, ?_, (S.isCoefficient ha hb d1 x).2 d5⟩
  rw [d5]
  have : (0 : ℚ) < pairsAt c allowed T.nets a b q := by exact_mod_cast d4
  split <;> positivity

/-! ### C121 -/

theorem pairsAt_comm (a b q : Orbit α) : pairsAt c allowed T.nets a b q = pairsAt c allowed T.nets b a q := by
  unfold pairsAt
  split
  · rw [Nat.add_comm a.1 b.1]
    refine Set.ncard_congr (fun p _ => (p.2, p.1)) ?_ ?_ ?_
    · rintro ⟨s, t⟩ ⟨h1, h2, h3, h4, h5, h6⟩
      exact ⟨h2, h1, fun x => (h3 x).trans or_comm, by dsimp only at h4 ⊢; rw [Finset.inter_comm]; exact h4, h6, h5⟩
    · rintro ⟨s, t⟩ ⟨s', t'⟩ _ _ h
      obtain ⟨h1, h2⟩ := Prod.mk.inj h
      rw [show s = s' from h2, show t = t' from h1]
    · rintro ⟨s, t⟩ ⟨h1, h2, h3, h4, h5, h6⟩
      exact ⟨(t, s), ⟨h2, h1, fun x => (h3 x).trans or_comm, by dsimp only at h4 ⊢; rw [Finset.inter_comm]; exact h4, h6, h5⟩, rfl⟩
  · rfl

/-- **C121, for orbits up to five nodes and layers that keep their names, and for orbits up to four nodes, any aspects and couplings other than
ordinal ones.** Every equation holds for the orbit counts of every node of every
network: the count of the smaller of the two orbits, less the number `s` of its roles within the graphlet of the larger, times the count of the
larger is the sum of the counts of the orbits in the equation times their coefficients. For an orbit and itself the product is halved. -/
theorem C121_equation_partial (P : Spec.Prepared canon str match? gens allowed c idx layers nl n0 ord T is ol)
    (hint : Function.Injective int) (hneg : ∀ z, neg (int z) = decide (z < 0)) (hidx : ∀ k : Nat, idx k = int k)
    (h1 : 1 ≤ nl.getD layers.length) (h2 : nl.getD layers.length ≤ layers.length) (hn : n ≤ n0)
    (h5 : n ≤ 5 ∧ (1 ∉ Spec.mayChange 1 allowed ∨ layers.length ≤ 1) ∨ n ≤ 4 ∧ ∀ w, c ≠ .ordinal w)
    {eqs : Dict (OrbitKey α) (Dict (Orbit α) ℚ)} (he : orbitEquations ⟨canon, str, match?, allowed⟩ T int neg ord n = .ok eqs)
    {key : OrbitKey α} {eq : Dict (Orbit α) ℚ} (hk : Dict.get eqs key = some eq)
    (hkey : q1 = q2 ∧ key = [(q1, 2)] ∨ q1 ≠ q2 ∧ (key = [(q1, 1), (q2, 1)] ∨ key = [(q2, 1), (q1, 1)])) (hle : q1.1 ≤ q2.1)
    {l1 l2 : List (MPlex α W)} (hl1 : Dict.get T.nets q1.1 = some l1) (hk1 : l1[q1.2.1]? = some (afterP [c] false 0 true ops1))
    (hl2 : Dict.get T.nets q2.1 = some l2) (hk2 : l2[q2.2.1]? = some (afterP [c] false 0 true ops2))
    (hnet : Spec.CountNet layers nl ops) (hv : (Spec.shown ops).node v) :
    ∃ (d : Dict (α × Orbit α) Nat) (count : Orbit α → Nat) (s : Nat),
      orbitCounts ⟨canon, str, match?, allowed⟩ T ord n v (afterP [c] false 0 true ops) [] ol = .ok d ∧
      (∀ q ∈ ol, Dict.get d (v, q) = some (count q)) ∧
      s = {t : Finset α | q2.2.2 ∈ t ∧ (∀ x ∈ t, (Spec.shown ops2).node x) ∧
        Spec.PlaysRole c allowed ops2 t q2.2.2 ops1 q1.2.2}.ncard ∧
      ((count q1 - s) * count q2 : ℚ) / (if q1 = q2 then 2 else 1) = (eq.map fun t => (count t.1 : ℚ) * t.2).sum := by
  classical
  obtain ⟨S, hnum, hol⟩ := P.setup
  have hnd : ol.Nodup := hol ▸ hnum.1
  have hI : IntName int neg idx := ⟨hint, hneg, hidx⟩
  obtain ⟨eqs', e, r1, -⟩ := P.equations hI h1 h2 hn
  rw [he] at e
  cases e
  obtain ⟨a, ha, b, hb, hc, ek, -, hable, e⟩ := r1 key eq hk
  have hab : (a = q1 ∧ b = q2) ∨ (a = q2 ∧ b = q1) := by
    rw [ek] at hkey
    unfold keyOf at hkey
    rcases hkey with ⟨rfl, h⟩ | ⟨hne, h | h⟩ <;> split at h <;> simp_all
  obtain ⟨_, _, a1⟩ := S.atOrbit ha
  obtain ⟨_, _, a2⟩ := S.atOrbit hb
  obtain ⟨c1, c2, c3⟩ := (S.combinable a1 a2).1 hc
  obtain ⟨eq', e', tnd, t1, t2, t3⟩ := orbitEquation_ok S hI ha hb c1 (by omega) a1 a2 c3
  rw [e] at e'
  cases e'
  have s1 := a1.two
  have s2 := a2.two
  have hq1 : q1 ∈ ol := by rcases hab with ⟨rfl, rfl⟩ | ⟨rfl, rfl⟩ <;> assumption
  have hq2 : q2 ∈ ol := by rcases hab with ⟨rfl, rfl⟩ | ⟨rfl, rfl⟩ <;> assumption
  have hsz : q1.1 + q2.1 ≤ n + 1 := by rcases hab with ⟨rfl, rfl⟩ | ⟨rfl, rfl⟩ <;> omega
  obtain ⟨d, count, coef, s, d1, d2, d3, d4, -, -, d5⟩ := C108_equation P hnet hn hv hq1 hq2 hsz hle hl1 hk1 hl2 hk2
  refine ⟨d, count, s, d1, d2, d4, ?_⟩
  rw [d5]
  let val : Orbit α → ℚ := fun q => (pairsAt c allowed T.nets q1 q2 q : ℚ) / (if q1 = q2 then 2 else 1)
  have hval : ∀ q, (pairsAt c allowed T.nets a b q : ℚ) / (if a = b then 2 else 1) = val q := by
    intro q
    rcases hab with ⟨rfl, rfl⟩ | ⟨rfl, rfl⟩
    · rfl
    · simp only [val]
      rw [pairsAt_comm]
      simp only [eq_comm]
  have hpair : ∀ q, pairsAt c allowed T.nets a b q = pairsAt c allowed T.nets q1 q2 q := by
    intro q
    rcases hab with ⟨rfl, rfl⟩ | ⟨rfl, rfl⟩
    · rfl
    · exact pairsAt_comm _ _ _
  have hcoef : ∀ q ∈ ol, q2.1 < q.1 → q.1 < q1.1 + q2.1 → coef q = val q := by
    intro q hq z1 z2
    obtain ⟨-, ops', -, ⟨l, hl, hp⟩, -⟩ := (S.ol q).1 hq
    have hb1 : (List.replicate (q1.1 + q2.1 - q.1) q.2.2).length = 1 → List.replicate (q1.1 + q2.1 - q.1) q.2.2 = [q.2.2] := by
      rw [List.length_replicate]
      intro h; rw [h]; rfl
    have x1 := d3 q hq z1 z2 (List.replicate (q1.1 + q2.1 - q.1) q.2.2) (by simp) hb1 l _ hl hp
    have x2 := S.coefficient_at hq1 hq2 hq z1.le z2 (both := List.replicate (q1.1 + q2.1 - q.1) q.2.2) (by simp) hb1 hl hp
    rw [x1] at x2
    exact Except.ok.inj x2
  have hmem : ∀ q x, (q, x) ∈ eq ↔ (q ∈ ol ∧ q2.1 < q.1 ∧ q.1 < q1.1 + q2.1 ∧ 0 < pairsAt c allowed T.nets q1 q2 q) ∧ x = val q := by
    intro q x
    constructor
    · intro h
      obtain ⟨f1, f2, f3, f4, f5⟩ := t1 q x (Dict.get_of_mem tnd h)
      rw [hval] at f5
      rw [hpair] at f4
      refine ⟨⟨f1, ?_, ?_, f4⟩, f5⟩ <;> rcases hab with ⟨rfl, rfl⟩ | ⟨rfl, rfl⟩ <;> omega
    · rintro ⟨⟨f1, f2, f3, f4⟩, rfl⟩
      have hs : (Dict.get eq q).isSome = true := by
        rcases h5 with ⟨h5, hfix⟩ | ⟨h4, hco⟩
        · exact t2 hfix q f1 (by rcases hab with ⟨rfl, rfl⟩ | ⟨rfl, rfl⟩ <;> omega) (by rw [hpair]; exact f4)
        · exact t3 hco (by omega) (by omega) q f1 (by rcases hab with ⟨rfl, rfl⟩ | ⟨rfl, rfl⟩ <;> omega) (by rw [hpair]; exact f4)
      obtain ⟨x, hx⟩ := Option.isSome_iff_exists.1 hs
      obtain ⟨-, -, -, -, f5⟩ := t1 q x hx
      rw [hval] at f5
      rw [← f5]
      exact Dict.mem_of_get hx
  have hL : ((ol.filter fun q => q2.1 < q.1 ∧ q.1 < q1.1 + q2.1).map fun q => (count q : ℚ) * coef q).sum =
      ∑ q ∈ (ol.filter fun q => q2.1 < q.1 ∧ q.1 < q1.1 + q2.1).toFinset, (count q : ℚ) * coef q :=
    (List.sum_toFinset _ (hnd.filter _)).symm
  have hR : (eq.map fun t => (count t.1 : ℚ) * t.2).sum = ∑ q ∈ (Dict.keys eq).toFinset, (count q : ℚ) * val q := by
    rw [List.sum_toFinset _ tnd]
    unfold Dict.keys
    rw [List.map_map]
    congr 1
    refine List.map_congr_left ?_
    rintro ⟨q, x⟩ hx
    simp only [Function.comp]
    rw [((hmem q x).1 hx).2]
  rw [hL, hR]
  symm
  have hkeys : ∀ q, q ∈ (Dict.keys eq).toFinset ↔ q ∈ ol ∧ q2.1 < q.1 ∧ q.1 < q1.1 + q2.1 ∧ 0 < pairsAt c allowed T.nets q1 q2 q := by
    intro q
    rw [List.mem_toFinset]
    unfold Dict.keys
    rw [List.mem_map]
    constructor
    · rintro ⟨⟨q', x⟩, h, rfl⟩
      exact ((hmem _ _).1 h).1
    · intro h
      exact ⟨(q, val q), (hmem _ _).2 ⟨h, rfl⟩, rfl⟩
  refine (Finset.sum_congr rfl fun q hq => ?_).trans (Finset.sum_subset (fun q hq => ?_) fun q hq hq' => ?_)
  · obtain ⟨f1, f2, f3, -⟩ := (hkeys q).1 hq
    rw [hcoef q f1 f2 f3]
  · obtain ⟨f1, f2, f3, -⟩ := (hkeys q).1 hq
    rw [List.mem_toFinset, List.mem_filter]
    exact ⟨f1, by simpa using ⟨f2, f3⟩⟩
  · rw [List.mem_toFinset, List.mem_filter] at hq
    obtain ⟨f1, f2⟩ := hq
    obtain ⟨f2, f3⟩ : q2.1 < q.1 ∧ q.1 < q1.1 + q2.1 := by simpa using f2
    have : pairsAt c allowed T.nets q1 q2 q = 0 := by
      by_contra h
      exact hq' ((hkeys q).2 ⟨f1, f2, f3, Nat.pos_of_ne_zero h⟩)
    rw [hcoef q f1 f2 f3]
    simp only [val, this, Nat.cast_zero, zero_div, mul_zero]

/-! ### The hypotheses are met -/

open Classical in
/-- Every call of the preparation returns, for graphlets on the layers 7 and 8 that keep their names, up to any size. -/
theorem exists_prepared_fixed (n0 : Nat) : ∃ (canon : CGraph → (CGraph → Prop)) (match? : _) (gens : _) (T : _) (is : _) (ol : _),
    Spec.Prepared canon (id : List (List Int × Nat) × (CGraph → Prop) → _) match? gens (some [0]) (.uncoupled none : Coupling Int Int)
      (fun k => (k : Int)) [7, 8] none n0 (fun s => s.sort (· ≤ ·)) T is ol := by
  obtain ⟨canon, hcanon⟩ := exists_canonical
  obtain ⟨match?, hm⟩ := exists_findsIso
  obtain ⟨gens, hg⟩ := exists_findsGens
  have hal : ∀ a ∈ Spec.mayChange 1 (some [0]), a ≤ 1 := by decide
  have hc : Spec.GoodCoupling [7, 8] (.uncoupled none : Coupling Int Int) := trivial
  have hi : Function.Injective (fun k : Nat => (k : Int)) := fun a b h => by simpa using h
  have hs : Function.Injective (id : List (List Int × Nat) × (CGraph → Prop) → _) := fun a b h => h
  have ok : GenOk canon (id : List (List Int × Nat) × (CGraph → Prop) → _) (some [0]) (.uncoupled none : Coupling Int Int)
    (fun k => (k : Int)) [7, 8] := ⟨hcanon, hs, hal, hc, hi, by decide⟩
  obtain ⟨nets, invs, e, -⟩ := graphlets_main ok n0 none
  obtain ⟨auts, e1, -⟩ := C94_orbits (n0 := n0) (nl := none) hcanon hs hg hal hc hi (by decide) e
  obtain ⟨is, ol, e2, e3, -⟩ := C94_numbers (n0 := n0) (nl := none) hcanon hs hg hal hc hi (by decide) e e1 le_rfl
  exact ⟨canon, match?, gens, ⟨nets, invs, auts⟩, is, ol, hcanon, hs, hm, hg, fun s => ⟨Finset.sort_nodup _ _, by simp⟩, hal,
    by decide, hc, hi, by decide, e, e1, e2, e3⟩

open Classical in
/-- the hypotheses of C120 and C121 are met: the equations up to five nodes have one for an orbit of two nodes and itself, and it holds at the
middle node of a path -/
example : ∃ (B : Backend Int (CGraph → Prop) (List (List Int × Nat) × (CGraph → Prop))) (T : _) (ord : _) (ol : _) (eqs : _) (q : Orbit Int) (eq : _)
    (d : _) (count : Orbit Int → Nat),
    orbitEquations B T id (fun z => decide (z < 0)) ord 5 = .ok eqs ∧ q.1 = 2 ∧ Dict.get eqs [(q, 2)] = some eq ∧
    orbitCounts B T ord 5 11 (afterP [(.uncoupled none : Coupling Int Int)] false 0 true countSample) [] ol = .ok d ∧
    (∀ q ∈ ol, Dict.get d (11, q) = some (count q)) ∧
    ((count q - 1) * count q : ℚ) / 2 = (eq.map fun t => (count t.1 : ℚ) * t.2).sum := by
  obtain ⟨canon, match?, gens, T, is, ol, P⟩ := exists_prepared_fixed 5
  obtain ⟨S, -, -⟩ := P.setup
  obtain ⟨k, o, hq⟩ := S.exists_orbit (m := 2) (by decide) (by decide) (by decide) (by decide)
  obtain ⟨eqs, e, -, h2, -⟩ := C120_keys (int := id) (neg := fun z => decide (z < 0)) P (fun a b h => h) (fun _ => rfl) (fun _ => rfl)
    (by decide) (by decide) le_rfl
  obtain ⟨p, A, hA⟩ := S.atOrbit hq
  obtain ⟨-, ops', -, ⟨l, hl, hp⟩, -⟩ := (S.ol _).1 hq
  obtain ⟨eq, heq⟩ := Option.isSome_iff_exists.1 (h2 _ hq ((S.combinable hA hA).2 ⟨by simp, by simp, fun _ => Iff.rfl⟩))
  obtain ⟨d, count, s, d1, d2, d3, d4⟩ := C121_equation_partial P (int := id) (neg := fun z => decide (z < 0)) (fun a b h => h) (fun _ => rfl)
    (fun _ => rfl) (by decide) (by decide) le_rfl (Or.inl ⟨le_rfl, Or.inl (by decide)⟩) e heq (Or.inl ⟨rfl, rfl⟩) le_rfl hl hp hl hp countSample_net.1
    countSample_net.2
  obtain ⟨_, _, _, s', _, _, _, d3', hs1, -, -⟩ := C108_equation P countSample_net.1 le_rfl countSample_net.2 hq hq (by simp) le_rfl hl hp hl hp
  rw [← d3] at d3'
  rw [← d3', hs1 rfl, if_pos rfl] at d4
  refine ⟨_, T, _, ol, eqs, _, eq, d, count, e, rfl, heq, d1, d2, ?_⟩
  exact_mod_cast d4

open Classical in
/-- so they are if layers may be exchanged, up to four nodes -/
example : ∃ (B : Backend Int (CGraph → Prop) (List (List Int × Nat) × (CGraph → Prop))) (T : _) (ord : _) (ol : _) (eqs : _) (q : Orbit Int) (eq : _)
    (d : _) (count : Orbit Int → Nat),
    orbitEquations B T id (fun z => decide (z < 0)) ord 4 = .ok eqs ∧ q.1 = 2 ∧ Dict.get eqs [(q, 2)] = some eq ∧
    orbitCounts B T ord 4 11 (afterP [(.uncoupled none : Coupling Int Int)] false 0 true countSample) [] ol = .ok d ∧
    (∀ q ∈ ol, Dict.get d (11, q) = some (count q)) ∧
    ((count q - 1) * count q : ℚ) / 2 = (eq.map fun t => (count t.1 : ℚ) * t.2).sum := by
  obtain ⟨canon, match?, gens, T, is, ol, P⟩ := exists_prepared 4
  obtain ⟨S, -, -⟩ := P.setup
  obtain ⟨k, o, hq⟩ := S.exists_orbit (m := 2) (by decide) (by decide) (by decide) (by decide)
  obtain ⟨eqs, e, -, h2, -⟩ := C120_keys (int := id) (neg := fun z => decide (z < 0)) P (fun a b h => h) (fun _ => rfl) (fun _ => rfl)
    (by decide) (by decide) le_rfl
  obtain ⟨p, A, hA⟩ := S.atOrbit hq
  obtain ⟨-, ops', -, ⟨l, hl, hp⟩, -⟩ := (S.ol _).1 hq
  obtain ⟨eq, heq⟩ := Option.isSome_iff_exists.1 (h2 _ hq ((S.combinable hA hA).2 ⟨by simp, by simp, fun _ => Iff.rfl⟩))
  obtain ⟨d, count, s, d1, d2, d3, d4⟩ := C121_equation_partial P (int := id) (neg := fun z => decide (z < 0)) (fun a b h => h) (fun _ => rfl)
    (fun _ => rfl) (by decide) (by decide) le_rfl (Or.inr ⟨le_rfl, fun w h => by cases h⟩) e heq (Or.inl ⟨rfl, rfl⟩) le_rfl hl hp hl hp countSample_net.1
    countSample_net.2
  obtain ⟨_, _, _, s', _, _, _, d3', hs1, -, -⟩ := C108_equation P countSample_net.1 le_rfl countSample_net.2 hq hq (by simp) le_rfl hl hp hl hp
  rw [← d3] at d3'
  rw [← d3', hs1 rfl, if_pos rfl] at d4
  refine ⟨_, T, _, ol, eqs, _, eq, d, count, e, rfl, heq, d1, d2, ?_⟩
  exact_mod_cast d4

end Pymnet
