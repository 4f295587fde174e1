import Verif.Proofs.IndepEqs2

/-! C137: `independent_equations`. -/

set_option linter.unusedSectionVars false
set_option linter.unusedSimpArgs false
set_option linter.unusedVariables false

namespace Pymnet

open Py MPlex

variable {α W β σ : Type} [DecidableEq α] [DecidableEq W] [Zero W] [LawfulIntNames α] [LinearOrder α] [DecidableEq σ] [One W]
  {canon : CGraph → β} {str : List (List α × Nat) × β → σ} {allowed : Option (List Nat)}
  {idx : Nat → α} {layers : List α} {nl n : Nat}
  {match? : CGraph → CGraph → Option (Dict Nat Nat)} {gens : CGraph → List (Dict Nat Nat)} {ord : Finset α → List α}
  {int : Int → α} {neg : α → Bool}

/-- What is assumed of a call of `independent_equations`: the graph library works, sets are iterated without repetitions, nodes are named by
integers, isomorphisms may rename nodes, and `nl` of the given layers are used. -/
structure Spec.EqCall (W : Type) [Zero W] [One W] (canon : CGraph → β) (str : List (List α × Nat) × β → σ)
    (match? : CGraph → CGraph → Option (Dict Nat Nat)) (gens : CGraph → List (Dict Nat Nat)) (allowed : Option (List Nat)) (idx : Nat → α)
    (int : Int → α) (neg : α → Bool) (ord : Finset α → List α) (layers : List α) (nl : Nat) : Prop where
  canonical : Spec.Canonical canon
  injective : Function.Injective str
  finds : Spec.FindsIso match?
  generators : Spec.FindsGens gens
  order : ∀ s, (ord s).Nodup ∧ ∀ x, x ∈ ord s ↔ x ∈ s
  aspects : ∀ a ∈ Spec.mayChange 1 allowed, a ≤ 1
  nodes : 0 ∈ Spec.mayChange 1 allowed
  integers : Function.Injective int
  negative : ∀ z, neg (int z) = decide (z < 0)
  numbers : ∀ k : Nat, idx k = int k
  one : (1 : W) ≠ 0
  some_layer : 1 ≤ nl
  enough : nl ≤ layers.length

/-- The coefficient of an orbit in an equation, 0 if it is not in it. -/
def Spec.coefIn (eqs : Dict (OrbitKey α) (Dict (Orbit α) ℚ)) (key : OrbitKey α) (q : Orbit α) : ℚ :=
  ((Dict.get eqs key).bind fun eq => Dict.get eq q).getD 0

/-- Internal: the calls before the loop return. -/
theorem Spec.EqCall.prepared (C : Spec.EqCall W canon str match? gens allowed idx int neg ord layers nl) (n : Nat) :
    ∃ (T : Tables α W σ) (is : _) (ol : List (Orbit α)) (eqs : Dict (OrbitKey α) (Dict (Orbit α) ℚ)),
      Spec.Prepared canon str match? gens allowed (.uncoupled none : Coupling α W) idx layers (some nl) n ord T is ol ∧
      orbitEquations ⟨canon, str, match?, allowed⟩ T int neg ord n = .ok eqs ∧
      (∀ xrange ordS ordE, independentEquations (W := W) xrange ⟨canon, str, match?, allowed⟩ gens idx int neg ord ordS ordE n nl layers =
        match forE (independentStep xrange ⟨canon, str, match?, allowed⟩ T ord ordS ordE n nl layers (eqsOf eqs)) (Pymnet.combinations layers nl) [] with
        | .error e => .error e
        | .ok inds => .ok (inds, eqs)) ∧
      (∀ key eq, Dict.get eqs key = some eq → ∃ q1 ∈ ol, ∃ q2 ∈ ol, Spec.Combinable T (.uncoupled none : Coupling α W) n q1 q2 ∧
        key = keyOf q1 q2 ∧ Dict.has eqs [(q1, 1), (q2, 1)] = false ∧ q1.1 ≤ q2.1 ∧
        orbitEquation ⟨canon, str, match?, allowed⟩ T int neg ord q1 q2 = .ok (some (key, eq))) ∧
      ∀ q1 ∈ ol, ∀ q2 ∈ ol, Spec.Combinable T (.uncoupled none : Coupling α W) n q1 q2 →
        Dict.has eqs (keyOf q1 q2) = true ∨ Dict.has eqs [(q1, 1), (q2, 1)] = true := by
  have hidx : Function.Injective idx := by
    intro a b h
    rw [C.numbers, C.numbers] at h
    exact_mod_cast C.integers h
  have hc : Spec.GoodCoupling layers (.uncoupled none : Coupling α W) := trivial
  have ok : GenOk canon str allowed (.uncoupled none : Coupling α W) idx layers := ⟨C.canonical, C.injective, C.aspects, hc, hidx, C.one⟩
  obtain ⟨nets, invs, e, -⟩ := graphlets_main ok n (some nl)
  obtain ⟨auts, e1, -⟩ := C94_orbits (n0 := n) (nl := some nl) C.canonical C.injective C.generators C.aspects hc hidx C.one e
  obtain ⟨is, ol, e2, e3, -⟩ := C94_numbers (n0 := n) (nl := some nl) C.canonical C.injective C.generators C.aspects hc hidx C.one e e1 le_rfl
  have P : Spec.Prepared canon str match? gens allowed (.uncoupled none : Coupling α W) idx layers (some nl) n ord ⟨nets, invs, auts⟩ is ol :=
    ⟨C.canonical, C.injective, C.finds, C.generators, C.order, C.aspects, C.nodes, hc, hidx, C.one, e, e1, e2, e3⟩
  obtain ⟨eqs, e4, r1, r2⟩ := P.equations (n := n) ⟨C.integers, C.negative, C.numbers⟩ C.some_layer C.enough le_rfl
  refine ⟨⟨nets, invs, auts⟩, is, ol, eqs, P, e4, fun xrange ordS ordE => ?_, r1, r2⟩
  unfold independentEquations
  rw [e]
  simp only
  rw [e1]
  simp only
  rw [e4]
  rfl

theorem eqsOf_mem {eqs : Dict (OrbitKey α) (Dict (Orbit α) ℚ)} {k : EqKey (Orbit α)} :
    k ∈ Dict.keys (eqsOf eqs) ↔ ∃ key, Dict.has eqs key = true ∧ EqKey.ofKey key = some k := by
  unfold eqsOf Dict.keys
  simp only [List.mem_map, List.mem_filterMap, Option.map_eq_some_iff]
  constructor
  · rintro ⟨p, ⟨⟨key, eq⟩, hm, k', hk, rfl⟩, rfl⟩
    exact ⟨key, by rw [Dict.has, ← Dict.mem_keys]; exact List.mem_map_of_mem (f := Prod.fst) hm, hk⟩
  · rintro ⟨key, hh, hk⟩
    obtain ⟨eq, he⟩ := Option.isSome_iff_exists.1 hh
    exact ⟨(k, Dict.keys eq), ⟨(key, eq), Dict.mem_of_get he, k, hk, rfl⟩, rfl⟩

/-- all equations are definitely independent if all their left sides have two nodes -/
theorem definitely_all {ω : Type} [DecidableEq ω] {size : ω → Nat} {eqs : Dict (EqKey ω) (List ω)}
    (h : ∀ k ∈ Dict.keys eqs, ∀ o ∈ k.left, size o = 2) (k : EqKey ω) :
    k ∈ (definitelyIndependent size eqs).1 ↔ k ∈ Dict.keys eqs := by
  unfold definitelyIndependent
  simp only
  have hs : (eqs.map Prod.fst).filter (fun eq => eq.left.all fun o => size o = 2) = eqs.map Prod.fst := by
    rw [List.filter_eq_self]
    intro k hk
    rw [List.all_eq_true]
    intro o ho
    exact decide_eq_true (h k hk o ho)
  rw [hs]
  have key : ∀ (F : List (EqKey ω) × List (EqKey ω) → EqKey ω × Nat → List (EqKey ω) × List (EqKey ω)) (l : List (EqKey ω × Nat))
      (r : List (EqKey ω) × List (EqKey ω)), (∀ p ∈ l, F r p = r) → l.foldl F r = r := by
    intro F l
    induction l with
    | nil => intro r _; rfl
    | cons p l ih =>
      intro r hr
      rw [List.foldl_cons, hr p (by simp)]
      exact ih r fun p hp => hr p (by simp [hp])
  rw [key]
  · simp [toSet, mem_eq_foldl, Dict.keys]
  · rintro ⟨k', i⟩ hp
    have : k' ∈ toSet (eqs.map Prod.fst) := by
      have := List.mem_zipIdx hp
      simp only [toSet, mem_eq_foldl]
      refine Or.inr ?_
      rw [this.2.2]
      exact List.getElem_mem _
    rw [if_pos this]

theorem mem_netsOnLayers {T : Tables α W σ} {l : List α} {m i : Nat} {p : MPlex α W} (h : Stored T.nets m i p) (hl : onLayers l p = true) :
    (m, i) ∈ netsOnLayers l T.nets := by
  obtain ⟨ps, h1, h2⟩ := h
  unfold netsOnLayers
  rw [List.mem_flatMap]
  refine ⟨(m, ps), Dict.mem_of_get h1, ?_⟩
  rw [List.mem_map]
  refine ⟨(p, i), List.mem_filter.2 ⟨?_, hl⟩, rfl⟩
  rw [List.mem_zipIdx_iff_getElem?]
  simpa using h2

theorem ofKey_keyOf (q1 q2 : Orbit α) : EqKey.ofKey (keyOf q1 q2) = some (if q1 = q2 then .square q1 else .pair q2 q1) := by
  unfold keyOf
  split <;> rfl

theorem sum_single {κ : Type} [DecidableEq κ] (l : List κ) (f : κ → ℚ) {k : κ} (hk : k ∈ l) (h : ∀ x ∈ l, x ≠ k → f x = 0) :
    (l.map f).sum = 0 → f k = 0 := by
  intro hs
  have : (l.map f).sum = (l.count k : ℚ) * f k := by
    clear hs hk
    induction l with
    | nil => simp
    | cons a l ih =>
      rw [List.map_cons, List.sum_cons, ih fun x hx => h x (by simp [hx])]
      by_cases ha : a = k
      · subst ha
        rw [List.count_cons_self]
        push_cast
        ring
      · rw [h a (by simp) ha, List.count_cons_of_ne ha, zero_add]
  rw [this] at hs
  rcases mul_eq_zero.1 hs with h | h
  · have := List.count_pos_iff.2 hk
    have h' : l.count k = 0 := by exact_mod_cast h
    omega
  · exact h

/-- **C137, graphlets up to three nodes.** `independent_equations(3, nl, layers)` returns all equations of `orbit_equations`, and they are
linearly independent: only the trivial combination of the equations has no orbit left. -/
theorem C137_three_partial (C : Spec.EqCall W canon str match? gens allowed idx int neg ord layers nl) (xrange : Bool)
    (ordS : List α → List α) (ordE : List (Option (EqKey (Orbit α))) → List (Option (EqKey (Orbit α)))) :
    ∃ (T : Tables α W σ) (is : _) (ol : List (Orbit α)) (inds : _) (eqs : _),
      Spec.Prepared canon str match? gens allowed (.uncoupled none : Coupling α W) idx layers (some nl) 3 ord T is ol ∧
      orbitEquations ⟨canon, str, match?, allowed⟩ T int neg ord 3 = .ok eqs ∧
      independentEquations (W := W) xrange ⟨canon, str, match?, allowed⟩ gens idx int neg ord ordS ordE 3 nl layers = .ok (inds, eqs) ∧
      inds.Nodup ∧ (∀ x, x ∈ inds ↔ ∃ key, Dict.has eqs key = true ∧ EqKey.ofKey key = x) ∧ (∃ key, Dict.has eqs key = true) ∧
      ∀ a : OrbitKey α → ℚ, (∀ q, ((Dict.keys eqs).map fun key => a key * Spec.coefIn eqs key q).sum = 0) →
        ∀ key, Dict.has eqs key = true → a key = 0 := by
  obtain ⟨T, is, ol, eqs, P, e, ei, r1, r2⟩ := C.prepared 3
  obtain ⟨S, -, -⟩ := P.setup
  have hI : IntName int neg idx := ⟨C.integers, C.negative, C.numbers⟩
  have info : ∀ key eq, Dict.get eqs key = some eq → ∃ q1 ∈ ol, ∃ q2 ∈ ol, ∃ ops1 A1 ops2 A2,
      AtOrbit T (.uncoupled none : Coupling α W) idx layers nl 3 q1 (afterP [.uncoupled none] false 0 true ops1) (Spec.shown ops1) A1 ∧
      AtOrbit T (.uncoupled none : Coupling α W) idx layers nl 3 q2 (afterP [.uncoupled none] false 0 true ops2) (Spec.shown ops2) A2 ∧
      (∀ x, (Spec.shown ops1).layer x ↔ (Spec.shown ops2).layer x) ∧ q1.1 = 2 ∧ q2.1 = 2 ∧
      key = keyOf q1 q2 ∧ Dict.has eqs [(q1, 1), (q2, 1)] = false ∧
      (∀ q x, Dict.get eq q = some x → q ∈ ol ∧ q.1 = 3 ∧ 0 < x ∧ 0 < pairsAt (.uncoupled none : Coupling α W) allowed T.nets q1 q2 q) ∧
      ∀ q ∈ ol, q.1 = 3 → 0 < pairsAt (.uncoupled none : Coupling α W) allowed T.nets q1 q2 q → (Dict.get eq q).isSome = true := by
    intro key eq hk
    obtain ⟨q1, hq1, q2, hq2, hcb, hkey, hno, -, hoe⟩ := r1 key eq hk
    obtain ⟨ops1, A1, a1⟩ := S.atOrbit hq1
    obtain ⟨ops2, A2, a2⟩ := S.atOrbit hq2
    obtain ⟨c1, c2, c3⟩ := (S.combinable a1 a2).1 hcb
    have t1 := a1.two
    have t2 := a2.two
    obtain ⟨eq', e', -, d1, -, d3⟩ := orbitEquation_ok S hI hq1 hq2 c1 (by omega) a1 a2 c3
    rw [hoe] at e'
    cases e'
    refine ⟨q1, hq1, q2, hq2, ops1, A1, ops2, A2, a1, a2, c3, by omega, by omega, hkey, hno, fun q x hx => ?_, fun q hq h3 hp => ?_⟩
    · obtain ⟨k1, k2, k3, k4, k5⟩ := d1 q x hx
      refine ⟨k1, by omega, ?_, k4⟩
      rw [k5]
      have : (0 : ℚ) < pairsAt (.uncoupled none : Coupling α W) allowed T.nets q1 q2 q := by exact_mod_cast k4
      split
      · positivity
      · simpa using this
    · exact d3 (fun w h => by cases h) (by omega) (by omega) q hq (by omega) hp
  -- the equations found
  have hall : ∀ k ∈ Dict.keys (eqsOf eqs), ∀ o ∈ k.left, o.1 = 2 := by
    intro k hk o ho
    obtain ⟨key, hh, hk⟩ := eqsOf_mem.1 hk
    obtain ⟨eq, he⟩ := Option.isSome_iff_exists.1 hh
    obtain ⟨q1, -, q2, -, _, _, _, _, -, -, -, h1, h2, rfl, -⟩ := info key eq he
    rw [ofKey_keyOf] at hk
    cases hk
    split at ho <;> simp [EqKey.left] at ho
    · rw [ho]; exact h1
    · rcases ho with rfl | rfl
      · exact h2
      · exact h1
  have hstep : ∀ comb inds, independentStep xrange ⟨canon, str, match?, allowed⟩ T ord ordS ordE 3 nl layers (eqsOf eqs) inds comb =
      .ok (((definitelyIndependent (fun o => o.1) (if layers.length = nl then eqsOf eqs else eqsInLayers comb (eqsOf eqs) T.nets)).1.map
        some).foldl sadd inds) := by
    intro comb inds
    unfold independentStep
    simp only [if_pos trivial]
  obtain ⟨inds, ef, hnd, hmem⟩ : ∃ inds, forE (independentStep xrange ⟨canon, str, match?, allowed⟩ T ord ordS ordE 3 nl layers (eqsOf eqs))
      (Pymnet.combinations layers nl) [] = .ok inds ∧ inds.Nodup ∧ ∀ x, x ∈ inds ↔ ∃ comb ∈ Pymnet.combinations layers nl, ∃ k,
        k ∈ Dict.keys (if layers.length = nl then eqsOf eqs else eqsInLayers comb (eqsOf eqs) T.nets) ∧ x = some k := by
    refine forE_ok (P := fun pre (inds : List (Option (EqKey (Orbit α)))) => inds.Nodup ∧ ∀ x, x ∈ inds ↔ ∃ comb ∈ pre, ∃ k,
        k ∈ Dict.keys (if layers.length = nl then eqsOf eqs else eqsInLayers comb (eqsOf eqs) T.nets) ∧ x = some k)
      (s := ([] : List (Option (EqKey (Orbit α))))) _ ⟨List.nodup_nil, by simp⟩ ?_
    intro pre comb post inds hsplit ⟨hn, hm⟩
    refine ⟨_, hstep comb inds, nodup_eq_foldl _ hn, fun x => ?_⟩
    rw [mem_eq_foldl, hm]
    have hsub : ∀ k ∈ Dict.keys (if layers.length = nl then eqsOf eqs else eqsInLayers comb (eqsOf eqs) T.nets), k ∈ Dict.keys (eqsOf eqs) := by
      intro k hk
      split at hk
      · exact hk
      · exact (List.filter_sublist.map Prod.fst).subset hk
    have := definitely_all (size := fun o : Orbit α => o.1) (fun k hk => hall k (hsub k hk))
    simp only [List.mem_map, this, List.mem_append, List.mem_singleton]
    constructor
    · rintro (⟨c', h1, k, h2, h3⟩ | ⟨k, h2, h3⟩)
      · exact ⟨c', Or.inl h1, k, h2, h3⟩
      · exact ⟨comb, Or.inr rfl, k, h2, h3.symm⟩
    · rintro ⟨c', h1 | rfl, k, h2, h3⟩
      · exact Or.inl ⟨c', h1, k, h2, h3⟩
      · exact Or.inr ⟨k, h2, h3.symm⟩
  have hinds : ∀ x, x ∈ inds ↔ ∃ key, Dict.has eqs key = true ∧ EqKey.ofKey key = x := by
    intro x
    rw [hmem]
    constructor
    · rintro ⟨comb, -, k, hk, rfl⟩
      refine eqsOf_mem.1 ?_
      split at hk
      · exact hk
      · exact (List.filter_sublist.map Prod.fst).subset hk
    · rintro ⟨key, hh, hx⟩
      obtain ⟨eq, he⟩ := Option.isSome_iff_exists.1 hh
      obtain ⟨q1, hq1, q2, hq2, ops1, A1, ops2, A2, a1, a2, hl, h1, h2, hkey, -⟩ := info key eq he
      set k : EqKey (Orbit α) := if q1 = q2 then .square q1 else .pair q2 q1 with hk
      have hx' : EqKey.ofKey key = some k := by rw [hkey, ofKey_keyOf]
      have hkm : k ∈ Dict.keys (eqsOf eqs) := eqsOf_mem.2 ⟨key, hh, hx'⟩
      obtain ⟨l, l1, l2, l3⟩ := a2.layer
      refine ⟨l, Pymnet.mem_combinations.2 ⟨l1, l2⟩, k, ?_, by rw [← hx, hx']⟩
      split
      · exact hkm
      · obtain ⟨⟨k', rhs⟩, hm, hk'⟩ := List.mem_map.1 hkm
        dsimp only at hk'
        refine List.mem_map.2 ⟨(k', rhs), List.mem_filter.2 ⟨hm, decide_eq_true ?_⟩, hk'⟩
        have hf : EqKey.first k' = q2 := by
          rw [hk', hk]
          split
          · rename_i hqq; simp [EqKey.first, hqq]
          · rfl
        dsimp only
        rw [hf]
        refine mem_netsOnLayers a2.stored (decide_eq_true ?_)
        ext x
        rw [List.mem_toFinset, List.mem_toFinset, a2.is.layer_mem]
        exact l3 x
  refine ⟨T, is, ol, inds, eqs, P, e, by rw [ei, ef], hnd, hinds, ?_, fun a ha key hkey => ?_⟩
  · obtain ⟨k, o, hq⟩ := S.exists_orbit (m := 2) C.some_layer C.enough (by omega) (by omega)
    obtain ⟨ops1, A1, a1⟩ := S.atOrbit hq
    rcases r2 _ hq _ hq ((S.combinable a1 a1).2 ⟨by simp, by simp, fun _ => Iff.rfl⟩) with h | h
    · exact ⟨_, h⟩
    · exact ⟨_, h⟩
  · obtain ⟨eq, he⟩ := Option.isSome_iff_exists.1 hkey
    obtain ⟨q1, hq1, q2, hq2, ops1, A1, ops2, A2, a1, a2, hl, h1, h2, hk, hno, ht, hc⟩ := info key eq he
    obtain ⟨q, hq, h3, hpos⟩ := pairs_exists S le_rfl a1 a2 hl h1 h2
    obtain ⟨x, hx⟩ := Option.isSome_iff_exists.1 (hc q hq h3 hpos)
    have hcoef : Spec.coefIn eqs key q = x := by simp [Spec.coefIn, he, hx]
    have hx0 := (ht q x hx).2.2.1
    have hz := sum_single (Dict.keys eqs) (fun key => a key * Spec.coefIn eqs key q) (Dict.mem_keys.2 hkey) (by
      intro key' hkey' hne
      refine mul_eq_zero.2 (Or.inr ?_)
      by_contra hcne
      obtain ⟨eq', he'⟩ := Option.isSome_iff_exists.1 (Dict.mem_keys.1 hkey')
      cases hg : Dict.get eq' q with
      | none => simp [Spec.coefIn, he', hg] at hcne
      | some x' =>
        obtain ⟨q3, hq3, q4, hq4, _, _, _, _, -, -, -, h3', h4', hk', hno', ht', -⟩ := info key' eq' he'
        obtain ⟨-, -, -, hpos'⟩ := ht' q x' hg
        rcases pairs_unique S hq h3 hq1 hq2 hq3 hq4 h1 h2 h3' h4' hpos hpos' with ⟨rfl, rfl⟩ | ⟨rfl, rfl⟩
        · exact hne (hk'.trans hk.symm)
        · by_cases hqq : q1 = q2
          · subst hqq
            exact hne (hk'.trans hk.symm)
          · rw [keyOf, if_neg (Ne.symm hqq)] at hk'
            rw [← hk'] at hno
            rw [Dict.has, he'] at hno
            exact absurd hno (by simp)) (ha q)
    rcases mul_eq_zero.1 hz with h | h
    · exact h
    · rw [hcoef] at h
      exact absurd h hx0.ne'

/-- **C137 is false for graphlets of two nodes.** There are no equations of these, and `independent_equations(2, nl, layers)` fails: a variable
of `all_inds_and_deps` has no value. -/
theorem C137_false_two (C : Spec.EqCall W canon str match? gens allowed idx int neg ord layers nl) (xrange : Bool)
    (ordS : List α → List α) (ordE : List (Option (EqKey (Orbit α))) → List (Option (EqKey (Orbit α)))) :
    independentEquations (W := W) xrange ⟨canon, str, match?, allowed⟩ gens idx int neg ord ordS ordE 2 nl layers = .error .unboundLocalError := by
  obtain ⟨T, is, ol, eqs, P, e, ei, r1, r2⟩ := C.prepared 2
  obtain ⟨S, -, -⟩ := P.setup
  have h0 : eqs = [] := by
    cases eqs with
    | nil => rfl
    | cons p eqs =>
      obtain ⟨key, eq⟩ := p
      obtain ⟨q1, hq1, q2, hq2, hcb, -⟩ := r1 key eq (by simp [Dict.get])
      obtain ⟨ops1, A1, a1⟩ := S.atOrbit hq1
      obtain ⟨ops2, A2, a2⟩ := S.atOrbit hq2
      have c2 := ((S.combinable a1 a2).1 hcb).2.1
      have t1 := a1.two
      have t2 := a2.two
      omega
  subst h0
  have hstep : ∀ comb inds, independentStep xrange ⟨canon, str, match?, allowed⟩ T ord ordS ordE 2 nl layers (eqsOf []) inds comb =
      .error .unboundLocalError := by
    intro comb inds
    unfold independentStep
    have : (if layers.length = nl then eqsOf [] else eqsInLayers comb (eqsOf ([] : Dict (OrbitKey α) (Dict (Orbit α) ℚ))) T.nets) = [] := by
      split <;> rfl
    simp only [this]
    rfl
  rw [ei]
  have hc : Pymnet.combinations layers nl ≠ [] := by
    have : layers.take nl ∈ Pymnet.combinations layers nl :=
      Pymnet.mem_combinations.2 ⟨List.take_sublist _ _, by rw [List.length_take]; exact Nat.min_eq_left C.enough⟩
    exact List.ne_nil_of_mem this
  cases hcs : Pymnet.combinations layers nl with
  | nil => exact absurd hcs hc
  | cons comb cs =>
    rw [forE_head, hstep]

/-- **C137 is false for graphlets of four or more nodes in Python 3.** `partitions_with_remainder` uses `xrange`, which Python 3 does not have,
so that `independent_equations(n, nl, layers)` never returns for n ≥ 4 if it is called with all of two or more layers. -/
theorem C137_false_four (C : Spec.EqCall W canon str match? gens allowed idx int neg ord layers nl)
    (ordS : List α → List α) (ordE : List (Option (EqKey (Orbit α))) → List (Option (EqKey (Orbit α))))
    (h4 : 4 ≤ n) (hnd : layers.Nodup) (h2 : 2 ≤ nl) (hl : layers.length = nl) :
    ∃ e, independentEquations (W := W) false ⟨canon, str, match?, allowed⟩ gens idx int neg ord ordS ordE n nl layers = .error e := by
  obtain ⟨T, is, ol, eqs, P, e, ei, r1, r2⟩ := C.prepared n
  obtain ⟨S, -, -⟩ := P.setup
  obtain ⟨x, y, rest, rfl⟩ : ∃ x y rest, layers = x :: y :: rest := by
    match layers, hl with
    | [], h => simp at h; omega
    | [_], h => simp at h; omega
    | x :: y :: rest, _ => exact ⟨x, y, rest, rfl⟩
  have hxy : x ≠ y := by
    rintro rfl
    simp at hnd
  obtain ⟨a, ha, a2, opsa, hsa, la⟩ := two_orbit S (by omega) hl (fun z => z = x) (fun z h => by simp [h]) (y := x) rfl
  obtain ⟨b, hb, b2, opsb, hsb, lb⟩ := two_orbit S (by omega) hl (fun z => z ∈ x :: y :: rest) (fun z h => h) (y := x) (by simp)
  have hab : a ≠ b := by
    rintro rfl
    obtain ⟨ops, A, h⟩ := S.atOrbit ha
    rw [h.shown_eq hsa] at la
    rw [h.shown_eq hsb] at lb
    exact hxy (la.2 (lb.1 fun _ h => h) y (by simp)).symm
  have hcomb : ∀ u v, u ∈ ol → v ∈ ol → u.1 = 2 → v.1 = 2 → Spec.Combinable T (.uncoupled none : Coupling α W) n u v := by
    intro u v hu hv u2 v2
    obtain ⟨ops1, A1, a1⟩ := S.atOrbit hu
    obtain ⟨ops2, A2, a2⟩ := S.atOrbit hv
    refine (S.combinable a1 a2).2 ⟨by omega, by omega, fun z => ?_⟩
    obtain ⟨l1, s1, t1, m1⟩ := a1.layer
    obtain ⟨l2, s2, t2, m2⟩ := a2.layer
    rw [m1, m2, s1.eq_of_length (t1.trans hl.symm), s2.eq_of_length (t2.trans hl.symm)]
  -- the equations of two orbits are there in one of the orders
  have main : ∀ q1 ∈ ol, ∀ q2 ∈ ol, q1.1 = 2 → q2.1 = 2 → q1 ≠ q2 → Dict.has eqs [(q1, 1), (q2, 1)] = false →
      ∃ e, forE (independentStep false ⟨canon, str, match?, allowed⟩ T ord ordS ordE n nl (x :: y :: rest) (eqsOf eqs))
        (Pymnet.combinations (x :: y :: rest) nl) [] = .error e := by
    intro q1 hq1 q2 hq2 e1 e2 hne hno
    refine forE_stops (P := fun _ => True) _ trivial (fun _ _ _ _ _ _ => trivial) (x := x :: y :: rest)
      (Pymnet.mem_combinations.2 ⟨List.Sublist.refl _, hl⟩) ?_
    intro inds _
    have hlist := S.listed (by omega) (by
      obtain ⟨nets, invs, e, h⟩ := graphlets_main P.genOk n (some nl)
      rw [P.made] at e
      cases e
      exact auts_entries P.genOk P.generators h P.orbits)
    have hlo := (listOrbits_spec T.auts).2 2
    obtain ⟨m2, k2, o2⟩ := q2
    dsimp only at e2
    subst e2
    obtain ⟨i, z, o', hz, he⟩ := (hlist 2 k2 o2).2 hq2
    cases hos : Dict.get (listOrbits T.auts) 2 with
    | none => rw [hos] at hlo; exact absurd hz (hlo _ _ _)
    | some os =>
      rw [hos] at hlo
      obtain ⟨ops, A, h⟩ := S.atOrbit hq2
      obtain ⟨er, he'⟩ := independentMany_stops (ω := Orbit α) (size := fun o => o.1)
        (sub := subtrahend false ⟨canon, str, match?, allowed⟩ T ord ordS) (n := n) (inL := fun o => orbitInLayers T o (x :: y :: rest))
        (lists := listOrbits T.auts) (ordE := ordE) (eqs := eqsOf eqs) (os := os) hne e1 (subtrahend_noXrange _ T ord ordS)
        (by
          intro k hk
          obtain ⟨key, hh, hk⟩ := eqsOf_mem.1 hk
          obtain ⟨eq, he⟩ := Option.isSome_iff_exists.1 hh
          obtain ⟨u, -, v, -, -, rfl, -⟩ := r1 key eq he
          rw [ofKey_keyOf] at hk
          cases hk
          refine ⟨fun a b c => by split <;> simp, ?_⟩
          split
          · simp
          · rename_i huv
            intro h
            injection h with h1 h2
            rw [keyOf, if_neg huv, h1, h2, hno] at hh
            cases hh)
        (by
          rcases r2 q1 hq1 q1 hq1 (hcomb q1 q1 hq1 hq1 e1 e1) with h | h
          · exact eqsOf_mem.2 ⟨_, h, by rw [ofKey_keyOf, if_pos rfl]⟩
          · obtain ⟨eq, he⟩ := Option.isSome_iff_exists.1 h
            obtain ⟨u, -, v, -, -, hk, -⟩ := r1 _ eq he
            unfold keyOf at hk
            split at hk
            · simp at hk
            · rename_i huv
              simp at hk
              exact absurd (hk.2.symm.trans hk.1) huv)
        hos ((hlo.2.2 _).2 ⟨i, z, o', hz, he⟩)
        (by
          unfold orbitInLayers
          rw [netAt_stored h.stored]
          simp only
          congr 1
          refine decide_eq_true ?_
          ext w
          obtain ⟨l, l1, l2, l3⟩ := h.layer
          rw [List.mem_toFinset, List.mem_toFinset, h.is.layer_mem, l3, l1.eq_of_length (l2.trans hl.symm)])
        (by
          intro o ho
          obtain ⟨i, z, o', -, rfl⟩ := (hlo.2.2 o).1 ho
          simp [tooManyNodes, e1]
          omega)
      refine ⟨er, ?_⟩
      unfold independentStep
      simp only [if_pos hl]
      rw [if_neg (by omega)]
      rw [he']
  have : ∃ e, forE (independentStep false ⟨canon, str, match?, allowed⟩ T ord ordS ordE n nl (x :: y :: rest) (eqsOf eqs))
        (Pymnet.combinations (x :: y :: rest) nl) [] = .error e := by
    by_cases h : Dict.has eqs [(a, 1), (b, 1)] = false
    · exact main a ha b hb a2 b2 hab h
    · refine main b hb a ha b2 a2 hab.symm ?_
      by_contra hba
      rw [Bool.not_eq_false] at h hba
      obtain ⟨eq, he⟩ := Option.isSome_iff_exists.1 h
      obtain ⟨u, -, v, -, -, hk, hno, -⟩ := r1 _ eq he
      unfold keyOf at hk
      split at hk
      · simp at hk
      · simp at hk
        rw [← hk.1, ← hk.2, hba] at hno
        cases hno
  obtain ⟨e, he⟩ := this
  rw [ei, he]
  exact ⟨e, rfl⟩

open Classical in
/-- The hypotheses are met: graphlets on the layers 7 and 8. -/
theorem exists_eqCall : ∃ (canon : CGraph → (CGraph → Prop)) (match? : _) (gens : _),
    Spec.EqCall Int canon (id : List (List Int × Nat) × (CGraph → Prop) → _) match? gens none (fun k => (k : Int)) id (fun z => decide (z < 0))
      (fun s => s.sort (· ≤ ·)) [7, 8] 2 := by
  obtain ⟨canon, hcanon⟩ := exists_canonical
  obtain ⟨match?, hm⟩ := exists_findsIso
  obtain ⟨gens, hg⟩ := exists_findsGens
  exact ⟨canon, match?, gens, hcanon, fun a b h => h, hm, hg, fun s => ⟨Finset.sort_nodup _ _, by simp⟩, by decide, by decide, fun a b h => h,
    fun _ => rfl, fun _ => rfl, by decide, by decide, by decide⟩

open Classical in
/-- so that the three calls with 3, 2 and 4 nodes end as the theorems say -/
example : ∃ (B : Backend Int (CGraph → Prop) (List (List Int × Nat) × (CGraph → Prop))) (gens : _) (r : _) (e : _),
    independentEquations (W := Int) false B gens (fun k => (k : Int)) id (fun z => decide (z < 0)) (fun s => s.sort (· ≤ ·)) id id 3 2 [7, 8] = .ok r ∧
    r.1 ≠ [] ∧
    independentEquations (W := Int) false B gens (fun k => (k : Int)) id (fun z => decide (z < 0)) (fun s => s.sort (· ≤ ·)) id id 2 2 [7, 8] =
      .error .unboundLocalError ∧
    independentEquations (W := Int) false B gens (fun k => (k : Int)) id (fun z => decide (z < 0)) (fun s => s.sort (· ≤ ·)) id id 4 2 [7, 8] =
      .error e := by
  obtain ⟨canon, match?, gens, C⟩ := exists_eqCall
  obtain ⟨T, is, ol, inds, eqs, -, -, h3, -, h4, ⟨key, h5⟩, -⟩ := C137_three_partial C false id id
  obtain ⟨e, he⟩ := C137_false_four C id id (n := 4) le_rfl (by decide) le_rfl rfl
  exact ⟨_, gens, (inds, eqs), e, h3, List.ne_nil_of_mem ((h4 _).2 ⟨key, h5, rfl⟩), C137_false_two C false id id, he⟩

end Pymnet
