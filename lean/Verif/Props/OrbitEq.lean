import Verif.Proofs.OrbitEq2
import Verif.Props.OrbitCounts
import Verif.Spec.OrbitEq
import Verif.Props.Graphlets

/-! C107-C110: the coefficients of the equations between orbit counts. -/

set_option linter.unusedSectionVars false
set_option linter.unusedSimpArgs false
set_option linter.unusedVariables false

namespace Pymnet

open Py MPlex

variable {α W β σ : Type} [DecidableEq α] [DecidableEq W] [Zero W] [LawfulIntNames α] [LinearOrder α] [DecidableEq σ] [One W]
  {canon : CGraph → β} {str : List (List α × Nat) × β → σ} {allowed : Option (List Nat)} {c : Coupling α W}
  {idx : Nat → α} {layers : List α} {nl : Option Nat} {n0 n : Nat} {T : Tables α W σ} {is : Dict (Orbit α) Nat}
  {match? : CGraph → CGraph → Option (Dict Nat Nat)} {gens : CGraph → List (Dict Nat Nat)} {ord : Finset α → List α}
  {ops ops' ops1 ops2 : List (POp α W)} {ol : List (Orbit α)} {q q1 q2 : Orbit α} {v : α}

theorem stored_congr {nets : Dict Nat (List (MPlex α W))} {m k : Nat} (h : Stored nets m k (afterP [c] false 0 true ops))
    (h' : Stored nets m k (afterP [c] false 0 true ops')) : Spec.shown ops = Spec.shown ops' := by
  obtain ⟨l, a1, a2⟩ := h
  obtain ⟨l', b1, b2⟩ := h'
  rw [a1] at b1; cases b1
  rw [a2] at b2
  exact shown_congr (Option.some.inj b2)

/-- Internal: a role needs a layer. -/
theorem playsRole_layer {s : Finset α} {o : α} (ho : (Spec.shown ops').node o) (hl : ∃ x, (Spec.shown ops').layer x)
    (h : Spec.PlaysRole c allowed ops s v ops' o) : ∃ x, (Spec.shown ops).layer x := by
  obtain ⟨f, hf, -⟩ := h
  obtain ⟨y, hy⟩ := hl
  obtain ⟨u, ⟨hu, -⟩, -⟩ := (hf.nodeLayers [o, y]).1 (hasNodeLayer_one.2 ⟨o, y, rfl, ho, hy⟩)
  obtain ⟨-, x, -, -, hx⟩ := hasNodeLayer_one.1 hu
  exact ⟨x, hx⟩

/-- Internal: the two ways of saying which role a node has. -/
theorem Setup.role_plays {N k : Nat} (S : Setup canon str match? allowed c idx layers k N ord T ol) (hq : q ∈ ol)
    (hst : Stored T.nets q.1 q.2.1 (afterP [c] false 0 true ops')) {s : Finset α} (hs : ∀ x ∈ s, (Spec.shown ops).node x) (hv : v ∈ s) :
    Role c allowed T.nets (Spec.shown ops) s v q ↔ Spec.PlaysRole c allowed ops s v ops' q.2.2 := by
  have hrep := (S.rep hq hst).1
  constructor
  · intro h
    obtain ⟨hc, hconn, h2⟩ := S.role_set hs h
    obtain ⟨ops1, hst1, hm⟩ := h
    rw [playsRole_iff hs ⟨v, hv⟩ (connected_layer hconn (hc ▸ h2)).2, stored_congr hst hst1]
    exact hm
  · intro h
    exact ⟨ops', hst, (playsRole_iff hs ⟨v, hv⟩ (playsRole_layer hrep (stored_layer S.ok S.tab hst) h)).1 h⟩

theorem Setup.pairs_coverings {N k j : Nat} (S : Setup canon str match? allowed c idx layers k N ord T ol) (hq1 : q1 ∈ ol) (hq2 : q2 ∈ ol)
    (h1 : Stored T.nets q1.1 q1.2.1 (afterP [c] false 0 true ops1)) (h2 : Stored T.nets q2.1 q2.2.1 (afterP [c] false 0 true ops2)) :
    Pairs c allowed T.nets (Spec.shown ops) v j q1 q2 = Spec.Coverings c allowed ops v j ops1 q1.2.2 ops2 q2.2.2 := by
  ext ⟨s1, s2⟩
  unfold Pairs Spec.Coverings
  refine and_congr_right fun a1 => and_congr_right fun a2 => and_congr_right fun a3 => and_congr_right fun a4 => ?_
  exact and_congr (S.role_plays hq1 h1 (fun x hx => (a3 x).2 (Or.inl hx)) a1) (S.role_plays hq2 h2 (fun x hx => (a3 x).2 (Or.inr hx)) a2)

/-! ### C107 -/

/-- **C107.** `coefficient(node, nodes_s, nodes_both, orbit1, orbit2, net, …)` is the number of ways to cover the nodes of the network by two
sets that have as many nodes in common as `nodes_both` has, among them the node, such that the node has in one set the role of `orbit1` and in
the other the role of `orbit2`; half of that number if the orbits are the same. -/
theorem C107_coefficient (P : Spec.Prepared canon str match? gens allowed c idx layers nl n0 ord T is ol)
    (hnet : Spec.CountNet layers nl ops) (hv : (Spec.shown ops).node v) {m1 k1 m2 k2 : Nat} {o1 o2 : α} {l1 l2 : List (MPlex α W)}
    (hq1 : (m1, k1, o1) ∈ ol) (hq2 : (m2, k2, o2) ∈ ol)
    (hl1 : Dict.get T.nets m1 = some l1) (hk1 : l1[k1]? = some (afterP [c] false 0 true ops1))
    (hl2 : Dict.get T.nets m2 = some l2) (hk2 : l2[k2]? = some (afterP [c] false 0 true ops2))
    {both : List α} (hb : 1 ≤ both.length) (hb1 : both.length = 1 → both = [v]) (hm : both.length ≤ m1) :
    coefficient ⟨canon, str, match?, allowed⟩ T ord v both (m1, k1, o1) (m2, k2, o2) (afterP [c] false 0 true ops) =
      .ok ((Spec.Coverings c allowed ops v both.length ops1 o1 ops2 o2).ncard / (if (m1, k1, o1) = (m2, k2, o2) then 2 else 1)) := by
  obtain ⟨S, -, -⟩ := P.setup
  unfold coefficient
  rw [S.coefSum (hnet.netOk P.coupling) hv hb hb1 hm hq1 hq2,
    S.pairs_coverings hq1 hq2 ⟨l1, hl1, hk1⟩ ⟨l2, hl2, hk2⟩]

/-! ### C108 -/

/-- Internal: the number of pairs in the graphlet of an orbit. -/
noncomputable def pairsAt (c : Coupling α W) (allowed : Option (List Nat)) (nets : Dict Nat (List (MPlex α W))) (q1 q2 q : Orbit α) : Nat :=
  open Classical in
  if h : ∃ ops', Stored nets q.1 q.2.1 (afterP [c] false 0 true ops') then
    (Pairs c allowed nets (Spec.shown h.choose) q.2.2 (q1.1 + q2.1 - q.1) q1 q2).ncard else 0

theorem pairsAt_eq {nets : Dict Nat (List (MPlex α W))} (hst : Stored nets q.1 q.2.1 (afterP [c] false 0 true ops')) :
    (Pairs c allowed nets (Spec.shown ops') q.2.2 (q1.1 + q2.1 - q.1) q1 q2).ncard = pairsAt c allowed nets q1 q2 q := by
  have h : ∃ ops', Stored nets q.1 q.2.1 (afterP [c] false 0 true ops') := ⟨ops', hst⟩
  unfold pairsAt
  rw [dif_pos h, stored_congr hst h.choose_spec]

theorem Setup.coefficient_at {N k : Nat} (S : Setup canon str match? allowed c idx layers k N ord T ol) (hq1 : q1 ∈ ol) (hq2 : q2 ∈ ol)
    (hq : q ∈ ol) (z2 : q2.1 ≤ q.1) (z3 : q.1 < q1.1 + q2.1) {both : List α} (hb : both.length = q1.1 + q2.1 - q.1)
    (hb1 : both.length = 1 → both = [q.2.2]) {l : List (MPlex α W)} {p : MPlex α W} (hl : Dict.get T.nets q.1 = some l) (hp : l[q.2.1]? = some p) :
    coefficient ⟨canon, str, match?, allowed⟩ T ord q.2.2 both q1 q2 p =
      .ok ((pairsAt c allowed T.nets q1 q2 q : ℚ) / (if q1 = q2 then 2 else 1)) := by
  obtain ⟨ops', rfl, hg⟩ := S.tab.gen _ _ _ ⟨l, hl, hp⟩
  have hst : Stored T.nets q.1 q.2.1 (afterP [c] false 0 true ops') := ⟨l, hl, hp⟩
  unfold coefficient
  rw [S.coefSum (gen_netOk S.ok hg) (S.rep hq hst).1 (by omega) hb1 (by omega) hq1 hq2, hb, pairsAt_eq hst]

/-- **C108.** The product of the counts of two orbits at a node is the sum of the counts of the orbits with more nodes, up to one less than
the two together, each times the coefficient of the two orbits in its graphlet (and half the product if the two are the same). Here
`counts` are the counts of `orbit_counts`, and `coef q` is the coefficient the code computes in the graphlet of `q` at its node. -/
theorem C108_product (P : Spec.Prepared canon str match? gens allowed c idx layers nl n0 ord T is ol)
    (hnet : Spec.CountNet layers nl ops) (hn : n ≤ n0) (hv : (Spec.shown ops).node v) (hq1 : q1 ∈ ol) (hq2 : q2 ∈ ol)
    (hsz : q1.1 + q2.1 ≤ n + 1) :
    ∃ (d : Dict (α × Orbit α) Nat) (count : Orbit α → Nat) (coef : Orbit α → ℚ),
      orbitCounts ⟨canon, str, match?, allowed⟩ T ord n v (afterP [c] false 0 true ops) [] ol = .ok d ∧
      (∀ q ∈ ol, Dict.get d (v, q) = some (count q)) ∧
      (∀ q ∈ ol, q1.1 ≤ q.1 → q2.1 ≤ q.1 → q.1 < q1.1 + q2.1 → ∀ both : List α, both.length = q1.1 + q2.1 - q.1 →
        (both.length = 1 → both = [q.2.2]) → ∀ l p, Dict.get T.nets q.1 = some l → l[q.2.1]? = some p →
          coefficient ⟨canon, str, match?, allowed⟩ T ord q.2.2 both q1 q2 p = .ok (coef q)) ∧
      (count q1 * count q2 : ℚ) / (if q1 = q2 then 2 else 1) =
        ((ol.filter fun q => q1.1 ≤ q.1 ∧ q2.1 ≤ q.1 ∧ q.1 < q1.1 + q2.1).map fun q => (count q : ℚ) * coef q).sum := by
  obtain ⟨S, hnum, hol⟩ := P.setup
  obtain ⟨d, e, h1, -⟩ := orbitCounts_spec S (hnet.netOk P.coupling) hnet.layer hn hv []
  have key := S.product (hnet.netOk P.coupling) hnet.layer hn (v := v) (hol ▸ hnum.1) hq1 hq2 hsz (pairsAt c allowed T.nets q1 q2)
    fun q _ ops' hst _ _ _ => pairsAt_eq hst
  refine ⟨d, fun q => (Counted c allowed T.nets n (Spec.shown ops) (v, q)).ncard,
    fun q => (pairsAt c allowed T.nets q1 q2 q : ℚ) / (if q1 = q2 then 2 else 1), e, h1,
    fun q hq z1 z2 z3 both hb hb1 l p hl hp => S.coefficient_at hq1 hq2 hq z2 z3 hb hb1 hl hp, ?_⟩
  rw [← Nat.cast_mul, key, Nat.cast_list_sum, List.map_map, div_eq_mul_inv, ← List.sum_map_mul_right]
  congr 1
  refine List.map_congr_left fun q _ => ?_
  simp only [Function.comp_apply, Nat.cast_mul]
  rw [mul_assoc, div_eq_mul_inv]

/-- Internal: the graphlet of an orbit as a set of nodes. -/
theorem Setup.all_nodes {N k : Nat} (S : Setup canon str match? allowed c idx layers k N ord T ol)
    (hst : Stored T.nets q.1 q.2.1 (afterP [c] false 0 true ops')) :
    ∃ A : Finset α, A.card = q.1 ∧ ∀ x, x ∈ A ↔ (Spec.shown ops').node x := by
  refine ⟨((afterP [c] false 0 true ops').slices.headD []).toFinset, ?_, fun x => ?_⟩
  · rw [List.toFinset_card_of_nodup (nodup_slice c ops')]
    exact S.stored_card hst
  · rw [List.mem_toFinset]
    exact (mem_slices_one c ops').1 x

/-- Internal: the role of the node of an orbit in the whole graphlet. -/
theorem Setup.role_all {N k : Nat} (S : Setup canon str match? allowed c idx layers k N ord T ol) (hq : q ∈ ol) (hq2 : q2 ∈ ol)
    (hst : Stored T.nets q.1 q.2.1 (afterP [c] false 0 true ops')) {A : Finset α} (hA : ∀ x, x ∈ A ↔ (Spec.shown ops').node x) :
    Role c allowed T.nets (Spec.shown ops') A q.2.2 q2 ↔ q = q2 := by
  have hrep := S.rep hq hst
  have hf : MIso (cplRel c) (Spec.mayChange 1 allowed) (subG (Spec.shown ops') A) (Spec.shown ops') id id :=
    MIso.refl.congr_source (fun x => (hA x).symm) (fun x => Iff.rfl) fun x i j _ _ _ => Iff.rfl
  obtain ⟨-, ops2, -, hst2, -⟩ := (S.ol q2).1 hq2
  have key := role_iff S.ok S.tab S.auts (g := subG (Spec.shown ops') A) (v := q.2.2) ((hA _).2 hrep.1) hst hst2 hf (S.rep hq2 hst2)
  constructor
  · rintro ⟨ops3, hst3, h⟩
    rw [stored_congr hst3 hst2] at h
    obtain ⟨a1, a2, a3⟩ := key.2 h
    rw [id, hrep.2] at a3
    exact Prod.ext a1 (Prod.ext a2 (Option.some.inj a3))
  · rintro rfl
    exact ⟨ops', hst, id, id, hf, rfl⟩

/-- Internal: in a graphlet with as many nodes as that of `q2`. -/
theorem Setup.pairs_top {N k : Nat} (S : Setup canon str match? allowed c idx layers k N ord T ol) (hq : q ∈ ol) (hq1 : q1 ∈ ol) (hq2 : q2 ∈ ol)
    (hsz : q.1 = q2.1) (h1 : Stored T.nets q1.1 q1.2.1 (afterP [c] false 0 true ops1))
    (hst : Stored T.nets q.1 q.2.1 (afterP [c] false 0 true ops')) :
    pairsAt c allowed T.nets q1 q2 q = if q = q2 then
      {t : Finset α | q.2.2 ∈ t ∧ (∀ x ∈ t, (Spec.shown ops').node x) ∧ Spec.PlaysRole c allowed ops' t q.2.2 ops1 q1.2.2}.ncard else 0 := by
  obtain ⟨A, hAc, hA⟩ := S.all_nodes hst
  have hall : ∀ p ∈ Pairs c allowed T.nets (Spec.shown ops') q.2.2 (q1.1 + q2.1 - q.1) q1 q2, p.2 = A := by
    rintro ⟨s1, s2⟩ ⟨a1, a2, a3, a4, a5, a6⟩
    refine Finset.eq_of_subset_of_card_le (fun x hx => (hA x).2 ((a3 x).2 (Or.inr hx))) ?_
    rw [(S.role_set (fun x hx => (a3 x).2 (Or.inr hx)) a6).1, hAc, hsz]
  rw [← pairsAt_eq hst]
  split
  · rename_i hqq
    rw [← Set.ncard_image_of_injective (f := fun t : Finset α => (t, A)) _ fun a b h => (Prod.ext_iff.1 h).1]
    congr 1
    ext ⟨s1, s2⟩
    constructor
    · intro hp
      have e : s2 = A := hall _ hp
      obtain ⟨a1, a2, a3, a4, a5, a6⟩ := hp
      have hs1 : ∀ x ∈ s1, (Spec.shown ops').node x := fun x hx => (a3 x).2 (Or.inl hx)
      exact ⟨s1, ⟨a1, hs1, (S.role_plays hq1 h1 hs1 a1).1 a5⟩, by rw [e]⟩
    · rintro ⟨t, ⟨a1, a2, a3⟩, e⟩
      obtain ⟨rfl, rfl⟩ : t = s1 ∧ A = s2 := Prod.mk.inj e
      have hr := (S.role_plays hq1 h1 a2 a1).2 a3
      have htA : t ⊆ A := fun x hx => (hA x).2 (a2 x hx)
      refine ⟨a1, (hA _).2 (a2 _ a1), fun x => ?_, ?_, hr, (S.role_all hq hq2 hst hA).2 hqq⟩
      · rw [← hA]
        exact ⟨Or.inr, fun h => h.elim (fun h => htA h) id⟩
      · dsimp only
        rw [Finset.inter_eq_left.2 htA, (S.role_set a2 hr).1]
        omega
  · rename_i hne
    have : Pairs c allowed T.nets (Spec.shown ops') q.2.2 (q1.1 + q2.1 - q.1) q1 q2 = ∅ := by
      rw [Set.eq_empty_iff_forall_notMem]
      intro p hp
      have e := hall p hp
      obtain ⟨-, -, -, -, -, a6⟩ := hp
      rw [e] at a6
      exact hne ((S.role_all hq hq2 hst hA).1 a6)
    rw [this, Set.ncard_empty]

/-- **C108, as an equation.** For two orbits, the second with at least as many nodes: let `s` be the number of sets of nodes in the graphlet of the
second in which its node has the role of the first. Then `count1 - s` times `count2` is the sum over the orbits with more nodes of their
counts times the coefficients; for an orbit and itself, `s` is 1 and the left side is halved. For two orbits of graphlets with equally many nodes
`s` is 0. -/
theorem C108_equation (P : Spec.Prepared canon str match? gens allowed c idx layers nl n0 ord T is ol)
    (hnet : Spec.CountNet layers nl ops) (hn : n ≤ n0) (hv : (Spec.shown ops).node v) (hq1 : q1 ∈ ol) (hq2 : q2 ∈ ol)
    (hsz : q1.1 + q2.1 ≤ n + 1) (hle : q1.1 ≤ q2.1)
    {l1 l2 : List (MPlex α W)} (hl1 : Dict.get T.nets q1.1 = some l1) (hk1 : l1[q1.2.1]? = some (afterP [c] false 0 true ops1))
    (hl2 : Dict.get T.nets q2.1 = some l2) (hk2 : l2[q2.2.1]? = some (afterP [c] false 0 true ops2)) :
    ∃ (d : Dict (α × Orbit α) Nat) (count : Orbit α → Nat) (coef : Orbit α → ℚ) (s : Nat),
      orbitCounts ⟨canon, str, match?, allowed⟩ T ord n v (afterP [c] false 0 true ops) [] ol = .ok d ∧
      (∀ q ∈ ol, Dict.get d (v, q) = some (count q)) ∧
      (∀ q ∈ ol, q2.1 < q.1 → q.1 < q1.1 + q2.1 → ∀ both : List α, both.length = q1.1 + q2.1 - q.1 →
        (both.length = 1 → both = [q.2.2]) → ∀ l p, Dict.get T.nets q.1 = some l → l[q.2.1]? = some p →
          coefficient ⟨canon, str, match?, allowed⟩ T ord q.2.2 both q1 q2 p = .ok (coef q)) ∧
      s = {t : Finset α | q2.2.2 ∈ t ∧ (∀ x ∈ t, (Spec.shown ops2).node x) ∧
        Spec.PlaysRole c allowed ops2 t q2.2.2 ops1 q1.2.2}.ncard ∧
      (q1 = q2 → s = 1) ∧ (q1.1 = q2.1 → q1 ≠ q2 → s = 0) ∧
      ((count q1 - s) * count q2 : ℚ) / (if q1 = q2 then 2 else 1) =
        ((ol.filter fun q => q2.1 < q.1 ∧ q.1 < q1.1 + q2.1).map fun q => (count q : ℚ) * coef q).sum := by
  classical
  obtain ⟨S, hnum, hol⟩ := P.setup
  have hnd : ol.Nodup := hol ▸ hnum.1
  have h1 : Stored T.nets q1.1 q1.2.1 (afterP [c] false 0 true ops1) := ⟨l1, hl1, hk1⟩
  have h2 : Stored T.nets q2.1 q2.2.1 (afterP [c] false 0 true ops2) := ⟨l2, hl2, hk2⟩
  obtain ⟨d, e, hd, -⟩ := orbitCounts_spec S (hnet.netOk P.coupling) hnet.layer hn hv []
  have key := S.product (hnet.netOk P.coupling) hnet.layer hn (v := v) hnd hq1 hq2 hsz (pairsAt c allowed T.nets q1 q2)
    fun q _ ops' hst _ _ _ => pairsAt_eq hst
  have hm2 : 2 ≤ q1.1 := ((S.tab.keys q1.1).1 (by rw [show Dict.get (T.nets, T.invs).1 q1.1 = some l1 from hl1]; rfl)).1
  have htop := fun (q : Orbit α) (hq : q ∈ ol) (hz : q.1 = q2.1) (ops' : List (POp α W))
    (hst : Stored T.nets q.1 q.2.1 (afterP [c] false 0 true ops')) => S.pairs_top hq hq1 hq2 hz h1 hst
  have hs := htop q2 hq2 rfl ops2 h2
  rw [if_pos rfl] at hs
  refine ⟨d, fun q => (Counted c allowed T.nets n (Spec.shown ops) (v, q)).ncard,
    fun q => (pairsAt c allowed T.nets q1 q2 q : ℚ) / (if q1 = q2 then 2 else 1), pairsAt c allowed T.nets q1 q2 q2, e, hd,
    fun q hq z2 z3 both hb hb1 l p hl hp => S.coefficient_at hq1 hq2 hq z2.le z3 hb hb1 hl hp, hs, ?_, ?_, ?_⟩
  · rintro rfl
    obtain ⟨A, hAc, hA⟩ := S.all_nodes h1
    rw [hs, Set.ncard_eq_one]
    refine ⟨A, Set.ext fun t => ⟨?_, ?_⟩⟩
    · rintro ⟨a1, a2, a3⟩
      rw [stored_congr h2 h1] at a2
      refine Finset.eq_of_subset_of_card_le (fun x hx => (hA x).2 (a2 x hx)) ?_
      rw [← stored_congr h2 h1] at a2
      rw [(S.role_set a2 ((S.role_plays hq1 h1 a2 a1).2 a3)).1, hAc]
    · rintro rfl
      rw [← stored_congr h2 h1] at hA
      have hr := (S.role_all hq1 hq1 h2 hA).2 rfl
      have hin := (hA _).2 (S.rep hq1 h2).1
      exact ⟨hin, fun x hx => (hA x).1 hx, (S.role_plays hq1 h1 (fun x hx => (hA x).1 hx) hin).1 hr⟩
  · intro hz hne
    obtain ⟨A, hAc, hA⟩ := S.all_nodes h2
    rw [hs]
    convert Set.ncard_empty (Finset α)
    rw [Set.eq_empty_iff_forall_notMem]
    rintro t ⟨a1, a2, a3⟩
    have hr := (S.role_plays hq1 h1 a2 a1).2 a3
    have hta : t = A := by
      refine Finset.eq_of_subset_of_card_le (fun x hx => (hA x).2 (a2 x hx)) ?_
      rw [(S.role_set a2 hr).1, hAc, hz]
    rw [hta] at hr
    exact hne ((S.role_all hq2 hq1 h2 hA).1 hr).symm
  · have hsum : (Counted c allowed T.nets n (Spec.shown ops) (v, q1)).ncard * (Counted c allowed T.nets n (Spec.shown ops) (v, q2)).ncard =
        (Counted c allowed T.nets n (Spec.shown ops) (v, q2)).ncard * pairsAt c allowed T.nets q1 q2 q2 +
        ((ol.filter fun q => q2.1 < q.1 ∧ q.1 < q1.1 + q2.1).map fun q =>
          (Counted c allowed T.nets n (Spec.shown ops) (v, q)).ncard * pairsAt c allowed T.nets q1 q2 q).sum := by
      rw [key, ← List.sum_toFinset _ (hnd.filter _), ← List.sum_toFinset _ (hnd.filter _)]
      have hsub : (ol.filter fun q => q2.1 < q.1 ∧ q.1 < q1.1 + q2.1).toFinset ⊆
          (ol.filter fun q => q1.1 ≤ q.1 ∧ q2.1 ≤ q.1 ∧ q.1 < q1.1 + q2.1).toFinset := by
        intro q hq
        simp only [List.mem_toFinset, List.mem_filter, decide_eq_true_eq] at hq ⊢
        exact ⟨hq.1, by omega, by omega, by omega⟩
      rw [← Finset.sum_sdiff hsub]
      congr 1
      refine Finset.sum_eq_single_of_mem q2 ?_ fun q hq hne => ?_
      · simp only [Finset.mem_sdiff, List.mem_toFinset, List.mem_filter, decide_eq_true_eq]
        exact ⟨⟨hq2, by omega, by omega, by omega⟩, fun h => by omega⟩
      · simp only [Finset.mem_sdiff, List.mem_toFinset, List.mem_filter, decide_eq_true_eq] at hq
        obtain ⟨⟨hqol, z1, z2, z3⟩, z4⟩ := hq
        have hz : q.1 = q2.1 := by
          by_contra h
          exact z4 ⟨hqol, by omega, z3⟩
        obtain ⟨-, ops', -, hst, -⟩ := (S.ol q).1 hqol
        rw [htop q hqol hz ops' hst, if_neg hne, Nat.mul_zero]
    have hsumQ := congrArg (Nat.cast (R := ℚ)) hsum
    rw [Nat.cast_mul, Nat.cast_add, Nat.cast_mul, Nat.cast_list_sum, List.map_map] at hsumQ
    rw [sub_mul, hsumQ, mul_comm (pairsAt c allowed T.nets q1 q2 q2 : ℚ), add_sub_cancel_left, div_eq_mul_inv, ← List.sum_map_mul_right]
    congr 1
    refine List.map_congr_left fun q _ => ?_
    simp only [Function.comp_apply, Nat.cast_mul]
    rw [mul_assoc, div_eq_mul_inv]

/-! ### C109 -/

/-- **C109.** `orbit_name(node, net, …)` of a network with 2 to `n0` nodes, connected by links, returns the orbit whose role the node has: of the
orbits of the list, this is the only one such that an isomorphism of the network to the graphlet takes the node to the node of the orbit. -/
theorem C109_name (P : Spec.Prepared canon str match? gens allowed c idx layers nl n0 ord T is ol) (hnet : Spec.CountNet layers nl ops)
    {s : Finset α} (hs : ∀ x, x ∈ s ↔ (Spec.shown ops).node x) (hconn : Spec.ConnectedSet (Spec.shown ops) s) (h2 : 2 ≤ s.card)
    (hn0 : s.card ≤ n0) (hv : v ∈ s) :
    ∃ q ∈ ol, orbitName ⟨canon, str, match?, allowed⟩ T v (afterP [c] false 0 true ops) = .ok q ∧
      ∀ q' ∈ ol, ∀ l ops', Dict.get T.nets q'.1 = some l → l[q'.2.1]? = some (afterP [c] false 0 true ops') →
        (Spec.PlaysRole c allowed ops s v ops' q'.2.2 ↔ q' = q) := by
  obtain ⟨S, -, -⟩ := P.setup
  have hok := hnet.netOk P.coupling
  have hsn : ∀ x ∈ s, (Spec.shown ops).node x := fun x hx => (hs x).1 hx
  obtain ⟨m, k, iso0, -, h⟩ := S.identify hok hnet.layer hconn h2 hn0
  obtain ⟨o, -, ho, hr⟩ := h v hv
  obtain ⟨ops', hst, f0, f1, hf, -⟩ := (hr _ ho).1 rfl
  dsimp only at hst
  obtain ⟨ops2, e3, hg⟩ := S.tab.gen _ _ _ hst
  rw [e3] at hst
  rw [shown_congr e3] at hf
  clear e3 ops'
  rename' ops2 => ops'
  have hf' : MIso (cplRel c) (Spec.mayChange 1 allowed) (Spec.shown ops) (Spec.shown ops') f0 f1 :=
    hf.congr_source (fun x => hs x) (fun x => Iff.rfl) fun x i j _ _ _ => Iff.rfl
  have hn : ∃ i, (Spec.shown ops).node i := ⟨v, hsn v hv⟩
  obtain ⟨key, e1, hk⟩ := lookup_spec S.ok S.tab hok hn
  have e2 := (hk m k).2 ⟨ops', hst, f0, f1, hf'⟩
  have hok' : NetOk layers c ops' := gen_netOk S.ok hg
  obtain ⟨iso, g1, e4, hi, hin⟩ := iso_found S.ok S.iso hok hok' hn (stored_layer S.ok S.tab hst) hf' true
  have hsome := hin rfl v (hsn v hv)
  obtain ⟨x, hx⟩ := Option.isSome_iff_exists.1 hsome
  have hdx : dget (iso.headD []) v = x := by rw [dget, hx]; rfl
  have hxn : (Spec.shown ops').node x := hdx ▸ hi.nodes.mapsTo (hsn v hv)
  obtain ⟨o', ho', -⟩ := S.auts.val m k ops' hst x hxn
  have hq : (m, k, o') ∈ ol := by
    obtain ⟨hm, -⟩ := (S.ol _).1 ho
    exact (S.ol _).2 ⟨hm, ops', x, hst, hxn, ho'⟩
  have hi' : MIso (cplRel c) (Spec.mayChange 1 allowed) (subG (Spec.shown ops) s) (Spec.shown ops') (dget (iso.headD [])) g1 :=
    hi.congr_source (fun x => (hs x).symm) (fun x => Iff.rfl) fun x i j _ _ _ => Iff.rfl
  have hrole : Role c allowed T.nets (Spec.shown ops) s v (m, k, o') :=
    ⟨ops', hst, (role_iff S.ok S.tab S.auts (g := subG (Spec.shown ops) s) (v := v) hv hst hst hi' (S.rep hq hst)).1 ⟨rfl, rfl, by rw [hdx]; exact ho'⟩⟩
  have hoo := (hr _ hq).2 hrole
  refine ⟨(m, k, o'), hq, ?_, fun q' hq' l ops3 hl hk3 => ?_⟩
  · unfold orbitName
    rw [e1]
    simp only
    rw [e2]
    simp only
    rw [netAt_stored hst]
    simp only
    rw [e4]
    simp only
    rw [hx]
    simp only
    rw [ho']
  · rw [← S.role_plays hq' ⟨l, hl, hk3⟩ hsn hv, ← hr q' hq', hoo]

/-! ### C110 -/

/-- **C110 is false in Python 3**: `subtrahend` always raises `NameError`. -/
theorem C110_false (P : Spec.Prepared canon str match? gens allowed c idx layers nl n0 ord T is ol) (hq1 : q1 ∈ ol) (hq2 : q2 ∈ ol)
    (ordS : List α → List α) : subtrahend false ⟨canon, str, match?, allowed⟩ T ord ordS q1 q2 = .error .nameError := by
  obtain ⟨S, -, -⟩ := P.setup
  obtain ⟨-, ops1, -, h1, -⟩ := (S.ol q1).1 hq1
  obtain ⟨-, ops2, -, h2, -⟩ := (S.ol q2).1 hq2
  unfold subtrahend
  rw [netAt_stored h1]
  simp only
  rw [netAt_stored h2]
  rfl

/-- The families of sets of nodes of the network made by `ops1`, any two of which have only node `v` in common, such that `v` has in each the
role of node `o2` of the network made by `ops2`. -/
def Spec.SharingOnly (c : Coupling α W) (allowed : Option (List Nat)) (ops1 : List (POp α W)) (v : α) (ops2 : List (POp α W)) (o2 : α) :
    Set (Finset (Finset α)) :=
  {F | (∀ t ∈ F, v ∈ t ∧ (∀ x ∈ t, (Spec.shown ops1).node x) ∧ Spec.PlaysRole c allowed ops1 t v ops2 o2) ∧
    ∀ t ∈ F, ∀ u ∈ F, t ≠ u → t ∩ u = {v}}

open Classical in
theorem Setup.subTest {N k : Nat} (S : Setup canon str match? allowed c idx layers k N ord T ol) (hnet : NetOk layers c ops)
    {s : Finset α} (hs : ∀ x ∈ s, (Spec.shown ops).node x) (hv : v ∈ s) (hq : q ∈ ol) {p : MPlex α W} (hp : Stored T.nets q.1 q.2.1 p) :
    Pymnet.subTest ⟨canon, str, match?, allowed⟩ T ord (afterP [c] false 0 true ops) p v q s =
      .ok (decide (Role c allowed T.nets (Spec.shown ops) s v q)) := by
  obtain ⟨sub, key, a1, a2, a3, a4⟩ := S.sub hnet hs hv hq hp
  unfold Pymnet.subTest
  rw [a1]
  simp only
  rw [a2]
  simp only
  by_cases h : Dict.get T.invs key = some (q.1, q.2.1)
  · rw [if_pos h]
    obtain ⟨a, e, ha⟩ := a3 h
    rw [e]
    simp only [ha]
  · rw [if_neg h]
    simp [a4 h]

open Classical in
theorem Setup.subPartition {N k : Nat} (S : Setup canon str match? allowed c idx layers k N ord T ol) (hnet : NetOk layers c ops)
    (hv : (Spec.shown ops).node v) (hq : q ∈ ol) {p : MPlex α W} (hp : Stored T.nets q.1 q.2.1 p) (m : Nat) (ps : List (List α))
    (hps : ∀ b ∈ ps, ∀ x ∈ b, (Spec.shown ops).node x) :
    Pymnet.subPartition ⟨canon, str, match?, allowed⟩ T ord (afterP [c] false 0 true ops) p v q m ps =
      .ok (max m (ps.filter fun b => Role c allowed T.nets (Spec.shown ops) (b.toFinset ∪ {v}) v q).length) := by
  have loop : ∀ (ps : List (List α)), (∀ b ∈ ps, ∀ x ∈ b, (Spec.shown ops).node x) → ∀ sub : Nat,
      forE (fun sub part =>
        match Pymnet.subTest ⟨canon, str, match?, allowed⟩ T ord (afterP [c] false 0 true ops) p v q (part.toFinset ∪ {v}) with
        | .error e => .error e
        | .ok true => .ok (sub + 1)
        | .ok false => .ok sub) ps sub =
      (.ok (sub + (ps.filter fun b => Role c allowed T.nets (Spec.shown ops) (b.toFinset ∪ {v}) v q).length) : Except Err Nat) := by
    intro ps
    induction ps with
    | nil => intro _ sub; rfl
    | cons b ps ih =>
      intro h sub
      have hb : ∀ x ∈ b.toFinset ∪ {v}, (Spec.shown ops).node x := by
        intro x hx
        rcases Finset.mem_union.1 hx with hx | hx
        · exact h b (by simp) x (List.mem_toFinset.1 hx)
        · rw [Finset.mem_singleton.1 hx]; exact hv
      rw [forE, S.subTest hnet hb (by simp) hq hp]
      by_cases hr : Role c allowed T.nets (Spec.shown ops) (b.toFinset ∪ {v}) v q
      · simp only [hr, decide_true]
        rw [ih (fun b' hb' => h b' (by simp [hb'])), List.filter_cons_of_pos (by simpa using hr), List.length_cons]
        congr 1
        omega
      · simp only [hr, decide_false]
        rw [ih (fun b' hb' => h b' (by simp [hb'])), List.filter_cons_of_neg (by simpa using hr)]
  have := loop ps hps 0
  rw [Nat.zero_add] at this
  have k' : Pymnet.subPartition ⟨canon, str, match?, allowed⟩ T ord (afterP [c] false 0 true ops) p v q m ps =
      (match forE (fun sub part =>
        match Pymnet.subTest ⟨canon, str, match?, allowed⟩ T ord (afterP [c] false 0 true ops) p v q (part.toFinset ∪ {v}) with
        | .error e => .error e
        | .ok true => .ok (sub + 1)
        | .ok false => .ok sub) ps 0 with
      | .error e => .error e
      | .ok sub => .ok (max m sub)) := rfl
  rw [k', this]

theorem forE_max {ι : Type} {f : Nat → ι → Except Err Nat} {g : ι → Nat} : ∀ (l : List ι), (∀ m, ∀ x ∈ l, f m x = .ok (max m (g x))) → ∀ m0,
    ∃ m, forE f l m0 = .ok m ∧ m0 ≤ m ∧ (∀ x ∈ l, g x ≤ m) ∧ (m = m0 ∨ ∃ x ∈ l, m = g x)
  | [], _, m0 => ⟨m0, rfl, le_rfl, by simp, Or.inl rfl⟩
  | x :: l, h, m0 => by
    obtain ⟨m, e, h1, h2, h3⟩ := forE_max l (fun m y hy => h m y (by simp [hy])) (max m0 (g x))
    refine ⟨m, by rw [forE, h m0 x (by simp)]; exact e, le_trans (le_max_left _ _) h1, ?_, ?_⟩
    · intro y hy
      rcases List.mem_cons.1 hy with rfl | hy
      · exact le_trans (le_max_right _ _) h1
      · exact h2 y hy
    · rcases h3 with h3 | ⟨y, hy, h3⟩
      · rcases le_total m0 (g x) with h4 | h4
        · exact Or.inr ⟨x, by simp, by rw [h3, max_eq_right h4]⟩
        · exact Or.inl (by rw [h3, max_eq_left h4])
      · exact Or.inr ⟨y, by simp [hy], h3⟩

/-- **C110 (partial), where the name `xrange` is defined (Python 2).** `subtrahend(orbit1, orbit2, …)` is the largest number of sets of nodes of the
graphlet of `orbit1`, any two of which have only its node in common, in which the node has the role of `orbit2`. Missing: the equations need
the number of all such sets, see `C110_false_disjoint`; and Python 3, see `C110_false`. -/
theorem C110_disjoint_partial (P : Spec.Prepared canon str match? gens allowed c idx layers nl n0 ord T is ol) {ordS : List α → List α}
    (ho : ∀ l, (ordS l).Perm l) (hq1 : q1 ∈ ol) (hq2 : q2 ∈ ol)
    {l1 l2 : List (MPlex α W)} (hl1 : Dict.get T.nets q1.1 = some l1) (hk1 : l1[q1.2.1]? = some (afterP [c] false 0 true ops1))
    (hl2 : Dict.get T.nets q2.1 = some l2) (hk2 : l2[q2.2.1]? = some (afterP [c] false 0 true ops2)) :
    ∃ m, subtrahend true ⟨canon, str, match?, allowed⟩ T ord ordS q1 q2 = .ok m ∧
      IsGreatest (Finset.card '' Spec.SharingOnly c allowed ops1 q1.2.2 ops2 q2.2.2) m := by
  classical
  obtain ⟨S, -, -⟩ := P.setup
  have h1 : Stored T.nets q1.1 q1.2.1 (afterP [c] false 0 true ops1) := ⟨l1, hl1, hk1⟩
  have h2 : Stored T.nets q2.1 q2.2.1 (afterP [c] false 0 true ops2) := ⟨l2, hl2, hk2⟩
  obtain ⟨ops1', e1, hg⟩ := S.tab.gen _ _ _ h1
  have hok : NetOk layers c ops1' := gen_netOk S.ok hg
  have hsh : Spec.shown ops1 = Spec.shown ops1' := shown_congr e1
  have h1' := h1
  rw [e1] at h1'
  have hrep := (S.rep hq1 h1).1
  have hm2 : 2 ≤ q2.1 := ((S.tab.keys q2.1).1 (by rw [show Dict.get (T.nets, T.invs).1 q2.1 = some l2 from hl2]; rfl)).1
  set v := q1.2.2 with hvdef
  set s := ((afterP [c] false 0 true ops1').slices.headD []).filter (· ≠ v) with hsdef
  have hmem : ∀ x, x ∈ s ↔ (Spec.shown ops1).node x ∧ x ≠ v := by
    intro x
    rw [hsdef, List.mem_filter, decide_eq_true_eq, hsh]
    exact and_congr_left fun _ => (mem_slices_one c ops1').1 x
  obtain ⟨ps, e2, hps1, -, hps2⟩ := C67_partitions_with_remainder_partial ho (r := q2.1 - 1) (by omega) s
  have hinside : ∀ p ∈ ps, ∀ b ∈ p, ∀ x ∈ b, (Spec.shown ops1').node x ∧ x ≠ v := by
    intro p hp b hb x hx
    have := ((hps2 (Spec.blocks p)).1 (List.mem_map.2 ⟨p, hp, rfl⟩)).1.inside b.toFinset (by
      simp only [Spec.blocks, List.mem_toFinset, List.mem_map]; exact ⟨b, hb, rfl⟩) (List.mem_toFinset.2 hx)
    rw [List.mem_toFinset, hmem, hsh] at this
    exact this
  have hsub := fun m p (hp : p ∈ ps) => S.subPartition hok (v := v) (hsh ▸ hrep) hq2 h2 m p fun b hb x hx => (hinside p hp b hb x hx).1
  obtain ⟨m, e3, -, hle, hor⟩ := forE_max ps hsub 0
  refine ⟨m, ?_, ?_, ?_⟩
  · unfold subtrahend
    rw [netAt_stored h1', netAt_stored h2]
    simp only
    rw [← hvdef, ← hsdef, e2]
    exact e3
  · rcases hor with rfl | ⟨p, hp, rfl⟩
    · exact ⟨∅, ⟨by simp, by simp⟩, rfl⟩
    · have hnd := hps1 p hp
      obtain ⟨hpart, -⟩ := (hps2 (Spec.blocks p)).1 (List.mem_map.2 ⟨p, hp, rfl⟩)
      have hdis := (List.nodup_flatten.1 hnd).2
      have hne : ∀ b ∈ p, b ≠ [] := by
        rintro b hb rfl
        have := hpart.nonempty ∅ (by simp only [Spec.blocks, List.mem_toFinset, List.mem_map]; exact ⟨[], hb, rfl⟩)
        exact Finset.not_nonempty_empty this
      set L := p.filter fun b => Role c allowed T.nets (Spec.shown ops1') (b.toFinset ∪ {v}) v q2 with hL
      have hinter : L.Pairwise fun b b' => (b.toFinset ∪ {v}) ∩ (b'.toFinset ∪ {v}) = {v} := by
        refine (hdis.sublist List.filter_sublist).imp_of_mem fun {b b'} hb hb' h => ?_
        ext x
        simp only [Finset.mem_inter, Finset.mem_union, List.mem_toFinset, Finset.mem_singleton]
        constructor
        · rintro ⟨h3 | h3, h4 | h4⟩
          · exact absurd h4 (fun h4 => h h3 h4)
          · exact h4
          · exact h3
          · exact h3
        · intro h3; exact ⟨Or.inr h3, Or.inr h3⟩
      have hnotsub : ∀ b ∈ L, b.toFinset ∪ {v} ≠ {v} := by
        intro b hb e
        have hbp := (List.mem_filter.1 hb).1
        obtain ⟨x, hx⟩ := List.exists_mem_of_ne_nil b (hne b hbp)
        have : x ∈ b.toFinset ∪ {v} := Finset.mem_union_left _ (List.mem_toFinset.2 hx)
        rw [e, Finset.mem_singleton] at this
        exact (hinside p hp b hbp x hx).2 this
      have hndL : (L.map fun b => b.toFinset ∪ {v}).Nodup := by
        rw [List.Nodup, List.pairwise_map]
        refine hinter.imp_of_mem fun {b b'} hb hb' h e => ?_
        rw [← e, Finset.inter_self] at h
        exact hnotsub b hb h
      refine ⟨(L.map fun b => b.toFinset ∪ {v}).toFinset, ⟨?_, ?_⟩, ?_⟩
      · intro t ht
        rw [List.mem_toFinset, List.mem_map] at ht
        obtain ⟨b, hb, rfl⟩ := ht
        obtain ⟨hbp, hr⟩ := List.mem_filter.1 hb
        have hin : ∀ x ∈ b.toFinset ∪ {v}, (Spec.shown ops1).node x := by
          intro x hx
          rcases Finset.mem_union.1 hx with hx | hx
          · rw [hsh]; exact (hinside p hp b hbp x (List.mem_toFinset.1 hx)).1
          · rw [Finset.mem_singleton.1 hx]; exact hrep
        refine ⟨by simp, hin, (S.role_plays hq2 h2 hin (by simp)).1 ?_⟩
        rw [hsh]
        simpa using hr
      · intro t ht u hu htu
        rw [List.mem_toFinset] at ht hu
        have hpw : (L.map fun b => b.toFinset ∪ {v}).Pairwise fun t u => t ∩ u = {v} := by
          rw [List.pairwise_map]; exact hinter
        haveI : Std.Symm fun t u : Finset α => t ∩ u = {v} := ⟨fun a b h => by rw [Finset.inter_comm]; exact h⟩
        exact hpw.forall ht hu htu
      · rw [List.toFinset_card_of_nodup hndL, List.length_map]
  · rintro - ⟨F, ⟨hF1, hF2⟩, rfl⟩
    have hr : ∀ t ∈ F, Role c allowed T.nets (Spec.shown ops1) t v q2 := fun t ht =>
      (S.role_plays hq2 h2 (hF1 t ht).2.1 (hF1 t ht).1).2 (hF1 t ht).2.2
    have hcard : ∀ t ∈ F, (t.erase v).card = q2.1 - 1 := by
      intro t ht
      rw [Finset.card_erase_of_mem (hF1 t ht).1, (S.role_set (hF1 t ht).2.1 (hr t ht)).1]
    set rest := s.toFinset \ F.biUnion (fun t => t.erase v) with hrest
    set Q : Finset (Finset α) := F.image (fun t => t.erase v) ∪ (if rest.Nonempty then {rest} else ∅) with hQ
    have hQm : ∀ B, B ∈ Q ↔ (∃ t ∈ F, t.erase v = B) ∨ (rest.Nonempty ∧ B = rest) := by
      intro B
      rw [hQ, Finset.mem_union, Finset.mem_image]
      refine or_congr Iff.rfl ?_
      split
      · rename_i h; simp [h]
      · rename_i h; simp [h]
    have hpart : Spec.Partition Q s.toFinset := by
      refine ⟨fun B hB => ?_, fun B hB => ?_, fun x hx => ?_⟩
      · rcases (hQm B).1 hB with ⟨t, ht, rfl⟩ | ⟨h, rfl⟩
        · exact Finset.card_pos.1 (by rw [hcard t ht]; omega)
        · exact h
      · rcases (hQm B).1 hB with ⟨t, ht, rfl⟩ | ⟨h, rfl⟩
        · intro x hx
          obtain ⟨h3, h4⟩ := Finset.mem_erase.1 hx
          exact List.mem_toFinset.2 ((hmem x).2 ⟨(hF1 t ht).2.1 x h4, h3⟩)
        · exact Finset.sdiff_subset
      · by_cases hin : ∃ t ∈ F, x ∈ t.erase v
        · obtain ⟨t, ht, hxt⟩ := hin
          refine ⟨t.erase v, ⟨(hQm _).2 (Or.inl ⟨t, ht, rfl⟩), hxt⟩, ?_⟩
          rintro B ⟨hB, hxB⟩
          rcases (hQm B).1 hB with ⟨u, hu, rfl⟩ | ⟨h, rfl⟩
          · by_contra hne
            have htu : t ≠ u := fun e => hne (by rw [e])
            have : x ∈ t ∩ u := Finset.mem_inter.2 ⟨(Finset.mem_erase.1 hxt).2, (Finset.mem_erase.1 hxB).2⟩
            rw [hF2 t ht u hu htu, Finset.mem_singleton] at this
            exact (Finset.mem_erase.1 hxt).1 this
          · exact absurd (Finset.mem_biUnion.2 ⟨t, ht, hxt⟩) (Finset.mem_sdiff.1 hxB).2
        · have hxr : x ∈ rest := Finset.mem_sdiff.2 ⟨hx, fun h => hin (by simpa using Finset.mem_biUnion.1 h)⟩
          refine ⟨rest, ⟨(hQm _).2 (Or.inr ⟨⟨x, hxr⟩, rfl⟩), hxr⟩, ?_⟩
          rintro B ⟨hB, hxB⟩
          rcases (hQm B).1 hB with ⟨u, hu, rfl⟩ | ⟨h, rfl⟩
          · exact absurd ⟨u, hu, hxB⟩ hin
          · rfl
    have hQps := (hps2 Q).2 ⟨hpart, fun B hB C hC h3 h4 => by
      rcases (hQm B).1 hB with ⟨t, ht, rfl⟩ | ⟨h, rfl⟩
      · exact absurd (hcard t ht) h3
      · rcases (hQm C).1 hC with ⟨t, ht, rfl⟩ | ⟨h, rfl⟩
        · exact absurd (hcard t ht) h4
        · rfl⟩
    obtain ⟨p, hp, hpQ⟩ := List.mem_map.1 hQps
    refine le_trans ?_ (hle p hp)
    have hinj : Set.InjOn (fun t : Finset α => t.erase v) (F : Set (Finset α)) := by
      intro t ht u hu e
      rw [← Finset.insert_erase (hF1 t ht).1, ← Finset.insert_erase (hF1 u hu).1]
      simp only at e
      rw [e]
    rw [← Finset.card_image_of_injOn hinj]
    refine le_trans (Finset.card_le_card (t := ((p.filter fun b => Role c allowed T.nets (Spec.shown ops1') (b.toFinset ∪ {v}) v q2).map
      List.toFinset).toFinset) ?_) (le_trans (List.toFinset_card_le _) (by rw [List.length_map]))
    intro B hB
    obtain ⟨t, ht, rfl⟩ := Finset.mem_image.1 hB
    have : t.erase v ∈ Spec.blocks p := by rw [hpQ]; exact (hQm _).2 (Or.inl ⟨t, ht, rfl⟩)
    simp only [Spec.blocks, List.mem_toFinset, List.mem_map] at this
    obtain ⟨b, hb, e⟩ := this
    rw [List.mem_toFinset, List.mem_map]
    refine ⟨b, List.mem_filter.2 ⟨hb, ?_⟩, e⟩
    rw [decide_eq_true_eq, e, ← hsh]
    have : t.erase v ∪ {v} = t := by
      rw [Finset.union_comm, ← Finset.insert_eq, Finset.insert_erase (hF1 t ht).1]
    rw [this]
    exact hr t ht

end Pymnet
