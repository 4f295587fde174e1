import Verif.Proofs.OrbitCount
import Verif.Proofs.Comb
import Verif.Model.OrbitEq
import Verif.Spec.OrbitEq
import Mathlib.Data.Finset.Powerset
import Mathlib.Algebra.BigOperators.Group.Finset.Basic

/-! Coefficients of orbit equations. -/

set_option linter.unusedSectionVars false
set_option linter.unusedSimpArgs false
set_option linter.unusedVariables false

namespace Pymnet

open Py MPlex

section
variable {α W β σ : Type} [DecidableEq α] [DecidableEq W] [Zero W] [LawfulIntNames α] [LinearOrder α] [DecidableEq σ] [One W]
  {canon : CGraph → β} {str : List (List α × Nat) × β → σ} {allowed : Option (List Nat)} {c : Coupling α W}
  {idx : Nat → α} {layers : List α} {nl N n : Nat} {T : Tables α W σ} {ol : List (Orbit α)}
  {match? : CGraph → CGraph → Option (Dict Nat Nat)} {ord : Finset α → List α} {ops ops' : List (POp α W)} {s : Finset α}

/-- the sub-network of a set of nodes -/
theorem nodesNet_spec (ok : GenOk canon str allowed c idx layers) (hord : ∀ s, (ord s).Nodup ∧ ∀ x, x ∈ ord s ↔ x ∈ s)
    (hnet : NetOk layers c ops) (hs : ∀ x ∈ s, (Spec.shown ops).node x) :
    ∃ ops1, nodesNet ord (afterP [c] false 0 true ops) s = .ok (afterP [c] false 0 true ops1) ∧ NetOk layers c ops1 ∧
      (∀ x, (Spec.shown ops1).node x ↔ x ∈ s) ∧ (∀ x, (Spec.shown ops1).layer x ↔ (Spec.shown ops).layer x) ∧
      ∀ x i j, i ∈ s → j ∈ s → ((Spec.shown ops1).link x i j ↔ (Spec.shown ops).link x i j) := by
  have hcs : [c] ≠ [] := by simp
  set L := (afterP [c] false 0 true ops).slices.getD 1 [] with hLdef
  have hL : ∀ x, x ∈ L ↔ (Spec.shown ops).layer x := (mem_slices_one c ops).2
  obtain ⟨ops1, e1, P⟩ := C84_subnet (dir := false) (z := 0) (al := true) (ops := ops) hcs
    (by intro m hm; simp at hm; exact good_not_net ok m hm.symm) (sel := [some (ord s), some L]) rfl false
    (Or.inr (by
      rintro t ⟨h1, h2⟩
      obtain ⟨x, rfl⟩ := List.length_eq_one_iff.1 h1
      refine hasLayer_shown.2 ((hL x).1 ?_)
      rcases h2 0 x rfl with ⟨l, h3, h4⟩ | ⟨h3, -⟩
      · cases h3; exact h4
      · cases h3))
  have n1 : ∀ x, (Spec.shown ops1).node x ↔ x ∈ s := by
    intro x
    have := P.nodes x
    rw [if_pos rfl] at this
    refine this.trans ⟨?_, fun h => ⟨hs x h, _, rfl, fun l hl => ?_⟩⟩
    · rintro ⟨-, w, hw, h⟩
      cases hw
      exact ((hord s).2 x).1 (h _ rfl)
    · cases hl; exact ((hord s).2 x).2 h
  have l1 : ∀ x, (Spec.shown ops1).layer x ↔ (Spec.shown ops).layer x := by
    intro x
    refine (P.layers 1 x (by omega) (by simp)).trans (and_iff_left_of_imp fun h => ⟨_, rfl, fun l hl => ?_⟩)
    cases hl; exact (hL x).2 h
  have k1 : ∀ x i j, i ∈ s → j ∈ s → ((Spec.shown ops1).link x i j ↔ (Spec.shown ops).link x i j) := by
    intro x i j hi hj
    refine and_congr_right fun _ => ?_
    rw [show Spec.readP 1 false true ops1 [x] i j = _ from P.link [x] i j rfl]
    by_cases h0 : Spec.readP 1 false true ops [x] i j = 0
    · rw [show Spec.readP [c].length false true ops [x] i j = 0 from h0]; simp [h0]
    · obtain ⟨g1, -, -⟩ := readP_ne (cs := [c]) hcs (dir := false) (al := true) (ops := ops) (s := [x]) rfl h0
      rw [if_pos]
      · rfl
      · refine ⟨rfl, fun k y hy => ?_, ⟨_, rfl, fun l hl => ?_⟩, ⟨_, rfl, fun l hl => ?_⟩⟩
        · match k, hy with
          | 0, hy =>
            cases hy
            refine ⟨_, rfl, fun l hl => ?_⟩
            cases hl; exact (hL x).2 (hasLayer_shown.1 g1)
        · cases hl; exact ((hord s).2 i).2 hi
        · cases hl; exact ((hord s).2 j).2 hj
  exact ⟨ops1, e1, ⟨ok.cpl, fun x hx => hnet.lay x ((l1 x).1 hx), P.noself hnet.self⟩, n1, l1, k1⟩

/-- which graphlet the invariant of a network names -/
theorem lookup_spec (ok : GenOk canon str allowed c idx layers) (hT : NInv canon str allowed c idx nl layers N (T.nets, T.invs))
    (hnet : NetOk layers c ops) (h0 : ∃ i, (Spec.shown ops).node i) :
    ∃ key, (afterP [c] false 0 true ops).invariantKey canon str allowed = .ok key ∧ ∀ m k,
      Dict.get T.invs key = some (m, k) ↔ ∃ ops', Stored T.nets m k (afterP [c] false 0 true ops') ∧
        ∃ f0 f1, MIso (cplRel c) (Spec.mayChange 1 allowed) (Spec.shown ops) (Spec.shown ops') f0 f1 := by
  obtain ⟨key, -, e, -⟩ := netOk_keys ok hnet hnet
  obtain ⟨i0, hi0⟩ := h0
  have : Inhabited α := ⟨i0⟩
  refine ⟨key, e, fun m k => ?_⟩
  have hinv := hT.inv key m k
  rw [show Dict.get T.invs key = some (m, k) ↔ _ from hinv]
  constructor
  · rintro ⟨p, hp, hk⟩
    obtain ⟨ops', rfl, hg⟩ := hT.gen m k p hp
    have hm : 2 ≤ m := by
      obtain ⟨l, hl, -⟩ := hp
      exact ((hT.keys m).1 (by rw [hl]; rfl)).1
    obtain ⟨k1, k2, e1, e2, h⟩ := netOk_keys ok (gen_netOk ok hg) hnet
    rw [hk] at e1; cases e1
    rw [e] at e2; cases e2
    obtain ⟨f0, f1, hf⟩ := (isomorphic_iff (gen_node hg hm) (gen_layer hg ok.idx hm)).1 (h.1 rfl)
    obtain ⟨e0, e1, he, -⟩ := hf.symm
    exact ⟨ops', hp, e0, e1, he⟩
  · rintro ⟨ops', hp, f0, f1, hf⟩
    refine ⟨_, hp, ?_⟩
    obtain ⟨ops2, e2, hg⟩ := hT.gen m k _ hp
    rw [e2]
    rw [shown_congr e2] at hf
    have hm : 2 ≤ m := by
      obtain ⟨l, hl, -⟩ := hp
      exact ((hT.keys m).1 (by rw [hl]; rfl)).1
    obtain ⟨k1, k2, e3, e4, h⟩ := netOk_keys ok (gen_netOk ok hg) hnet
    rw [e] at e4; cases e4
    obtain ⟨e0, e1, he, -⟩ := hf.symm
    rw [e3, h.2 ((isomorphic_iff (gen_node hg hm) (gen_layer hg ok.idx hm)).2 ⟨e0, e1, he⟩)]

theorem MIso.congr_both {g : Spec.Multigraph α} {ops1 : List (POp α W)} {h : Spec.Multigraph α} {f0 f1 : α → α}
    (n1 : ∀ x, (Spec.shown ops1).node x ↔ x ∈ s) (l1 : ∀ x, (Spec.shown ops1).layer x ↔ g.layer x)
    (k1 : ∀ x i j, i ∈ s → j ∈ s → ((Spec.shown ops1).link x i j ↔ g.link x i j)) {cpl : α → α → Prop} {al : List Nat} :
    MIso cpl al (Spec.shown ops1) h f0 f1 ↔ MIso cpl al (subG g s) h f0 f1 :=
  ⟨fun hm => hm.congr_source n1 l1 fun x i j _ hi hj => k1 x i j ((n1 i).1 hi) ((n1 j).1 hj),
    fun hm => hm.congr_source (fun x => (n1 x).symm) (fun x => (l1 x).symm) fun x i j _ hi hj => (k1 x i j hi hj).symm⟩

/-- the isomorphism that is found -/
theorem iso_found (ok : GenOk canon str allowed c idx layers) (hF : Spec.FindsIso match?) (hnet : NetOk layers c ops)
    (hnet' : NetOk layers c ops') (h0 : ∃ i, (Spec.shown ops).node i) (h1 : ∃ x, (Spec.shown ops').layer x) {f0 f1 : α → α}
    (hf : MIso (cplRel c) (Spec.mayChange 1 allowed) (Spec.shown ops) (Spec.shown ops') f0 f1) (inc : Bool) :
    ∃ iso g1, getIsomorphism match? (afterP [c] false 0 true ops).view (afterP [c] false 0 true ops').view allowed inc = .ok (some iso) ∧
      MIso (cplRel c) (Spec.mayChange 1 allowed) (Spec.shown ops) (Spec.shown ops') (dget (iso.headD [])) g1 ∧
      (inc = true → ∀ x, (Spec.shown ops).node x → (Dict.get (iso.headD []) x).isSome = true) := by
  have hx : ∃ x, (Spec.shown ops).layer x := by
    obtain ⟨y, hy⟩ := h1
    obtain ⟨x, hx, -⟩ := hf.layers.surjOn hy
    exact ⟨x, hx⟩
  obtain ⟨-, iso, e, hlen, hperm, hk⟩ := (iso_core hnet.shows hnet'.shows (by omega) ok.al hF inc).1 ((isomorphic_iff h0 hx).2 ⟨f0, f1, hf⟩)
  have e5 : dget (iso.headD []) = Spec.permOf iso 0 := by
    funext x
    unfold dget Spec.permOf
    match iso, hlen with
    | d :: t, _ => rfl
  refine ⟨iso, Spec.permOf iso 1, e, ?_, ?_⟩
  · rw [e5]
    exact (iso_shown h0 hx _).1 hperm
  · rintro rfl x hx
    obtain ⟨D, hD, h⟩ := hk 0 (by omega)
    have : iso.headD [] = D := by
      match iso, hD with
      | d :: t, hD => exact Option.some.inj hD
    rw [this]
    exact Dict.mem_keys.1 ((h x).2 ⟨by simpa using hx, Or.inl rfl⟩)

variable {q q1 q2 : Orbit α} {v : α}

/-- the test of one set: whether the node has the role -/
theorem Setup.sub (S : Setup canon str match? allowed c idx layers nl N ord T ol) (hnet : NetOk layers c ops)
    (hs : ∀ x ∈ s, (Spec.shown ops).node x) (hv : v ∈ s) (hq : q ∈ ol) {p : MPlex α W} (hp : Stored T.nets q.1 q.2.1 p) :
    ∃ sub key, nodesNet ord (afterP [c] false 0 true ops) s = .ok sub ∧ sub.invariantKey canon str allowed = .ok key ∧
      (Dict.get T.invs key = some (q.1, q.2.1) →
        ∃ a, orbitOf ⟨canon, str, match?, allowed⟩ T sub p q.1 q.2.1 v = .ok (some a) ∧
          (a = q.2.2 ↔ Role c allowed T.nets (Spec.shown ops) s v q)) ∧
      (Dict.get T.invs key ≠ some (q.1, q.2.1) → ¬ Role c allowed T.nets (Spec.shown ops) s v q) := by
  obtain ⟨ops', rfl, hg⟩ := S.tab.gen _ _ _ hp
  have hm : 2 ≤ q.1 := by
    obtain ⟨l, hl, -⟩ := hp
    exact ((S.tab.keys q.1).1 (by rw [hl]; rfl)).1
  obtain ⟨ops1, e1, hnet1, n1, l1, k1⟩ := nodesNet_spec S.ok S.ord hnet hs
  have hn0 : ∃ i, (Spec.shown ops1).node i := ⟨v, (n1 v).2 hv⟩
  obtain ⟨key, e2, hk⟩ := lookup_spec S.ok S.tab hnet1 hn0
  refine ⟨_, key, e1, e2, fun hkey => ?_, fun hkey hr => hkey ?_⟩
  · obtain ⟨ops2, hp2, f0, f1, hf⟩ := (hk _ _).1 hkey
    have hsh : Spec.shown ops2 = Spec.shown ops' := by
      obtain ⟨l, a1, a2⟩ := hp
      obtain ⟨l', b1, b2⟩ := hp2
      rw [a1] at b1; cases b1
      rw [a2] at b2
      exact shown_congr (Option.some.inj b2).symm
    rw [hsh] at hf
    obtain ⟨iso, g1, e3, hi, -⟩ := iso_found S.ok S.iso hnet1 (gen_netOk S.ok hg) hn0 (gen_layer hg S.ok.idx hm) hf false
    have hi' := (MIso.congr_both n1 l1 k1).1 hi
    have hfv := hi'.nodes.mapsTo (show v ∈ {x | (subG (Spec.shown ops) s).node x} from hv)
    obtain ⟨a, ha, -⟩ := S.auts.val _ _ _ hp _ hfv
    refine ⟨a, ?_, ?_⟩
    · unfold orbitOf
      rw [e3]
      simp only [ha]
    · have key := role_iff S.ok S.tab S.auts (g := subG (Spec.shown ops) s) (v := v) hv hp hp hi' (S.rep hq hp)
      rw [ha] at key
      simp only [true_and, Option.some.injEq] at key
      rw [key]
      constructor
      · intro h; exact ⟨ops', hp, h⟩
      · rintro ⟨ops3, hp3, h⟩
        obtain ⟨l, a1, a2⟩ := hp
        obtain ⟨l', b1, b2⟩ := hp3
        rw [a1] at b1; cases b1
        rw [a2] at b2
        rw [shown_congr (Option.some.inj b2)]
        exact h
  · obtain ⟨ops2, hp2, f0, f1, hf, -⟩ := hr
    exact (hk _ _).2 ⟨ops2, hp2, f0, f1, (MIso.congr_both n1 l1 k1).2 hf⟩

open Classical in
theorem Setup.coefTest (S : Setup canon str match? allowed c idx layers nl N ord T ol) (hnet : NetOk layers c ops) {s1 s2 : Finset α}
    (hs1 : ∀ x ∈ s1, (Spec.shown ops).node x) (hs2 : ∀ x ∈ s2, (Spec.shown ops).node x) (hv1 : v ∈ s1) (hv2 : v ∈ s2) (hq1 : q1 ∈ ol)
    (hq2 : q2 ∈ ol) {p1 p2 : MPlex α W} (hp1 : Stored T.nets q1.1 q1.2.1 p1) (hp2 : Stored T.nets q2.1 q2.2.1 p2) :
    coefTest ⟨canon, str, match?, allowed⟩ T ord (afterP [c] false 0 true ops) p1 p2 v q1 q2 s1 s2 =
      .ok (decide (Role c allowed T.nets (Spec.shown ops) s1 v q1 ∧ Role c allowed T.nets (Spec.shown ops) s2 v q2)) := by
  obtain ⟨sub1, key1, a1, a2, a3, a4⟩ := S.sub hnet hs1 hv1 hq1 hp1
  obtain ⟨sub2, key2, b1, b2, b3, b4⟩ := S.sub hnet hs2 hv2 hq2 hp2
  unfold Pymnet.coefTest
  rw [a1]
  simp only
  rw [b1]
  simp only
  rw [a2]
  simp only
  rw [b2]
  simp only
  by_cases h1 : Dict.get T.invs key1 = some (q1.1, q1.2.1)
  · by_cases h2 : Dict.get T.invs key2 = some (q2.1, q2.2.1)
    · rw [if_pos ⟨h1, h2⟩]
      obtain ⟨x1, c1, d1⟩ := a3 h1
      obtain ⟨x2, c2, d2⟩ := b3 h2
      rw [c1]
      simp only
      rw [c2]
      simp only
      by_cases h3 : x1 = q1.2.2
      · rw [if_pos h3]
        simp only [d1.1 h3, true_and, ← d2]
      · rw [if_neg h3]
        have : ¬ Role c allowed T.nets (Spec.shown ops) s1 v q1 := fun h => h3 (d1.2 h)
        simp [this]
    · rw [if_neg fun h => h2 h.2]
      simp [b4 h2]
  · rw [if_neg fun h => h1 h.1]
    simp [a4 h1]

end

/-! ### sums over combinations -/

section comb
variable {α : Type} [DecidableEq α] {ord : Finset α → List α}

open Classical in
/-- a loop over the combinations of a set that adds a number for each -/
theorem forE_combinations (hord : ∀ s, (ord s).Nodup ∧ ∀ x, x ∈ ord s ↔ x ∈ s) (A : Finset α) (r : Nat) (f : Nat → List α → Except Err Nat)
    (a : Finset α → Nat) (h : ∀ t ⊆ A, t.card = r → ∀ l : List α, l.Nodup → l.toFinset = t → ∀ k, f k l = .ok (k + a t)) (k : Nat) :
    forE f (combinations (ord A) r) k = .ok (k + ∑ t ∈ A.powersetCard r, a t) := by
  have hA : (ord A).toFinset = A := by ext x; simp [(hord A).2]
  have key : ∀ (L : List (List α)) (k : Nat), (∀ l ∈ L, l.Nodup ∧ l.toFinset ⊆ A ∧ l.toFinset.card = r) → forE f L k = .ok (k + (L.map fun l => a l.toFinset).sum) := by
    intro L
    induction L with
    | nil => intro k _; simp [forE]
    | cons l L ih =>
      intro k hL
      obtain ⟨h1, h2, h3⟩ := hL l (by simp)
      rw [forE, h _ h2 h3 l h1 rfl k]
      simp only
      rw [ih _ fun m hm => hL m (by simp [hm])]
      simp [Nat.add_assoc]
  have hmem : ∀ l ∈ combinations (ord A) r, l.Nodup ∧ l.toFinset ⊆ A ∧ l.toFinset.card = r := by
    intro l hl
    obtain ⟨hs, hc⟩ := mem_combinations.1 hl
    refine ⟨(hord A).1.sublist hs, fun x hx => ?_, by rw [List.toFinset_card_of_nodup ((hord A).1.sublist hs), hc]⟩
    exact ((hord A).2 x).1 (hs.subset (List.mem_toFinset.1 hx))
  rw [key _ k hmem]
  congr 2
  have hnd : ((combinations (ord A) r).map List.toFinset).Nodup := by
    refine List.Nodup.map_on ?_ (nodup_combinations (hord A).1 r)
    intro l hl l' hl' he
    exact combinations_unique (hord A).1 hl hl' (List.perm_of_nodup_nodup_toFinset_eq (hmem l hl).1 (hmem l' hl').1 he)
  have hset : ((combinations (ord A) r).map List.toFinset).toFinset = A.powersetCard r := by
    ext t
    rw [List.mem_toFinset, List.mem_map, Finset.mem_powersetCard]
    constructor
    · rintro ⟨l, hl, rfl⟩
      exact (hmem l hl).2
    · rintro ⟨h1, h2⟩
      have e : ((ord A).filter (· ∈ t)).toFinset = t := by
        ext x
        simp only [List.mem_toFinset, List.mem_filter, (hord A).2, decide_eq_true_eq]
        exact ⟨fun h => h.2, fun h => ⟨h1 h, h⟩⟩
      refine ⟨(ord A).filter (· ∈ t), mem_combinations.2 ⟨List.filter_sublist, ?_⟩, e⟩
      rw [← List.toFinset_card_of_nodup ((hord A).1.filter _), e, h2]
  rw [← hset, List.sum_toFinset _ hnd, List.map_map]
  rfl

open Classical in
theorem count_pairs {A : Finset α} {v : α} (hvA : v ∈ A) {k n1 : Nat} (hb : 1 ≤ k) (R : Finset α → Finset α → Prop)
    (hroles : ∀ s1 s2, R s1 s2 → s1 ⊆ A → s1.card = n1) :
    (∑ sh ∈ (A \ {v}).powersetCard (k - 1), ∑ t ∈ ((A \ {v}) \ sh).powersetCard (n1 - k),
        if R (t ∪ (sh ∪ {v})) (A \ t) then 1 else 0) =
      ((A.powerset ×ˢ A.powerset).filter fun p => v ∈ p.1 ∧ v ∈ p.2 ∧ p.1 ∪ p.2 = A ∧ (p.1 ∩ p.2).card = k ∧ R p.1 p.2).card := by
  rw [Finset.sum_sigma', ← Finset.sum_filter, Finset.sum_const, smul_eq_mul, mul_one]
  refine Finset.card_nbij' (fun x => (x.2 ∪ (x.1 ∪ {v}), A \ x.2)) (fun p => ⟨(p.1 ∩ p.2) \ {v}, p.1 \ p.2⟩) ?_ ?_ ?_ ?_
  · rintro ⟨sh, t⟩ h
    simp only [Finset.coe_filter, Finset.mem_sigma, Finset.mem_powersetCard, Set.mem_ofPred_eq] at h
    obtain ⟨⟨⟨h1, h2⟩, h3, h4⟩, h5⟩ := h
    have a1 : ∀ x, x ∈ sh → x ∈ A ∧ x ≠ v := fun x hx => by simpa using h1 hx
    have a2 : ∀ x, x ∈ t → (x ∈ A ∧ x ≠ v) ∧ x ∉ sh := fun x hx => by simpa using h3 hx
    simp only [Finset.coe_filter, Finset.mem_product, Finset.mem_powerset, Set.mem_ofPred_eq]
    refine ⟨⟨?_, Finset.sdiff_subset⟩, by simp, ?_, ?_, ?_, h5⟩
    · intro x hx
      simp only [Finset.mem_union, Finset.mem_singleton] at hx
      rcases hx with hx | hx | rfl
      · exact (a2 x hx).1.1
      · exact (a1 x hx).1
      · exact hvA
    · exact Finset.mem_sdiff.2 ⟨hvA, fun h => (a2 v h).1.2 rfl⟩
    · ext x
      simp only [Finset.mem_union, Finset.mem_sdiff, Finset.mem_singleton]
      constructor
      · rintro ((hx | hx | rfl) | hx)
        · exact (a2 x hx).1.1
        · exact (a1 x hx).1
        · exact hvA
        · exact hx.1
      · intro hx
        by_cases ht : x ∈ t
        · exact Or.inl (Or.inl ht)
        · exact Or.inr ⟨hx, ht⟩
    · have : (t ∪ (sh ∪ {v})) ∩ (A \ t) = sh ∪ {v} := by
        ext x
        simp only [Finset.mem_inter, Finset.mem_union, Finset.mem_sdiff, Finset.mem_singleton]
        constructor
        · rintro ⟨hx | hx, -, hx'⟩
          · exact absurd hx hx'
          · exact hx
        · rintro (hx | rfl)
          · exact ⟨Or.inr (Or.inl hx), (a1 x hx).1, fun h => (a2 x h).2 hx⟩
          · exact ⟨Or.inr (Or.inr rfl), hvA, fun h => (a2 x h).1.2 rfl⟩
      rw [this, Finset.card_union_of_disjoint, h2, Finset.card_singleton]
      · omega
      · rw [Finset.disjoint_singleton_right]
        exact fun h => (a1 v h).2 rfl
  · rintro ⟨s1, s2⟩ h
    simp only [Finset.coe_filter, Finset.mem_product, Finset.mem_powerset, Set.mem_ofPred_eq] at h
    obtain ⟨⟨h1, h2⟩, h3, h4, h5, h6, h7⟩ := h
    simp only [Finset.coe_filter, Finset.mem_sigma, Finset.mem_powersetCard, Set.mem_ofPred_eq]
    have e1 : s1 \ s2 ∪ ((s1 ∩ s2) \ {v} ∪ {v}) = s1 := by
      ext x
      simp only [Finset.mem_union, Finset.mem_sdiff, Finset.mem_inter, Finset.mem_singleton]
      constructor
      · rintro (hx | hx | rfl)
        · exact hx.1
        · exact hx.1.1
        · exact h3
      · intro hx
        by_cases hxv : x = v
        · exact Or.inr (Or.inr hxv)
        · by_cases hx2 : x ∈ s2
          · exact Or.inr (Or.inl ⟨⟨hx, hx2⟩, hxv⟩)
          · exact Or.inl ⟨hx, hx2⟩
    have e2 : A \ (s1 \ s2) = s2 := by
      ext x
      rw [← h5]
      simp only [Finset.mem_union, Finset.mem_sdiff]
      tauto
    refine ⟨⟨⟨?_, ?_⟩, ?_, ?_⟩, ?_⟩
    · exact Finset.sdiff_subset_sdiff (Finset.inter_subset_left.trans h1) (Finset.Subset.refl _)
    · rw [Finset.card_sdiff_of_subset (by simpa using ⟨h3, h4⟩), h6, Finset.card_singleton]
    · intro x hx
      simp only [Finset.mem_sdiff, Finset.mem_inter, Finset.mem_singleton] at hx ⊢
      refine ⟨⟨h1 hx.1, ?_⟩, ?_⟩
      · rintro rfl; exact hx.2 h4
      · rintro ⟨⟨-, h⟩, -⟩; exact hx.2 h
    · have := Finset.card_sdiff_add_card_inter s1 s2
      have := hroles s1 s2 h7 h1
      omega
    · rw [e1, e2]; exact h7
  · rintro ⟨sh, t⟩ h
    simp only [Finset.coe_filter, Finset.mem_sigma, Finset.mem_powersetCard, Set.mem_ofPred_eq] at h
    obtain ⟨⟨⟨h1, h2⟩, h3, h4⟩, h5⟩ := h
    have a1 : ∀ x, x ∈ sh → x ∈ A ∧ x ≠ v := fun x hx => by simpa using h1 hx
    have a2 : ∀ x, x ∈ t → (x ∈ A ∧ x ≠ v) ∧ x ∉ sh := fun x hx => by simpa using h3 hx
    have e1 : ((t ∪ (sh ∪ {v})) ∩ (A \ t)) \ {v} = sh := by
      ext x
      have := a1 x
      have := a2 x
      simp only [Finset.mem_inter, Finset.mem_union, Finset.mem_sdiff, Finset.mem_singleton]
      tauto
    have e2 : (t ∪ (sh ∪ {v})) \ (A \ t) = t := by
      ext x
      have := a1 x
      have := a2 x
      have : x = v → x ∈ A := fun h => h ▸ hvA
      simp only [Finset.mem_inter, Finset.mem_union, Finset.mem_sdiff, Finset.mem_singleton]
      tauto
    simp only [e1, e2]
  · rintro ⟨s1, s2⟩ h
    simp only [Finset.coe_filter, Finset.mem_product, Finset.mem_powerset, Set.mem_ofPred_eq] at h
    obtain ⟨⟨h1, h2⟩, h3, h4, h5, h6, h7⟩ := h
    have e1 : s1 \ s2 ∪ ((s1 ∩ s2) \ {v} ∪ {v}) = s1 := by
      ext x
      have : x = v → x ∈ s1 ∧ x ∈ s2 := fun h => h ▸ ⟨h3, h4⟩
      simp only [Finset.mem_union, Finset.mem_sdiff, Finset.mem_inter, Finset.mem_singleton]
      tauto
    have e2 : A \ (s1 \ s2) = s2 := by
      ext x
      rw [← h5]
      simp only [Finset.mem_union, Finset.mem_sdiff]
      tauto
    simp only [e1, e2]

end comb

section
variable {α W β σ : Type} [DecidableEq α] [DecidableEq W] [Zero W] [LawfulIntNames α] [LinearOrder α] [DecidableEq σ] [One W]
  {canon : CGraph → β} {str : List (List α × Nat) × β → σ} {allowed : Option (List Nat)} {c : Coupling α W}
  {idx : Nat → α} {layers : List α} {nl N n : Nat} {T : Tables α W σ} {ol : List (Orbit α)}
  {match? : CGraph → CGraph → Option (Dict Nat Nat)} {ord : Finset α → List α} {ops ops' : List (POp α W)} {s : Finset α}
  {q q1 q2 : Orbit α} {v : α}

theorem connected_of_iso {cpl : α → α → Prop} {al : List Nat} {g h : Spec.Multigraph α} {f0 f1 : α → α} (hf : MIso cpl al g h f0 f1)
    (hc : Spec.LinkConnected g.node fun a b => ∃ x, g.layer x ∧ g.link x a b) :
    Spec.LinkConnected h.node fun a b => ∃ x, h.layer x ∧ h.link x a b := by
  intro i j hi hj
  obtain ⟨a, ha, rfl⟩ := hf.nodes.surjOn hi
  obtain ⟨b, hb, rfl⟩ := hf.nodes.surjOn hj
  refine Relation.ReflTransGen.lift f0 ?_ _ _ (hc a b ha hb)
  rintro x y ⟨hx, hy, l, hl, hk⟩
  exact ⟨hf.nodes.mapsTo hx, hf.nodes.mapsTo hy, f1 l, hf.layers.mapsTo hl, (hf.links l x y hl hx hy).1 hk⟩

theorem gen_nodes_card {m : Nat} (hi : Function.Injective idx) (hg : Spec.Generated idx m nl layers ops) {t : Finset α}
    (ht : ∀ x, x ∈ t ↔ (Spec.shown ops).node x) : t.card = m := by
  have : t = (Finset.range m).image idx := by
    ext x
    rw [ht, hg.nodes]
    simp only [Finset.mem_image, Finset.mem_range]
    exact ⟨fun ⟨k, h1, h2⟩ => ⟨k, h1, h2.symm⟩, fun ⟨k, h1, h2⟩ => ⟨k, h1, h2.symm⟩⟩
  rw [this, Finset.card_image_of_injective _ hi, Finset.card_range]

/-- what a role tells about the set -/
theorem Setup.role_set (S : Setup canon str match? allowed c idx layers nl N ord T ol) {g : Spec.Multigraph α} (hs : ∀ x ∈ s, g.node x)
    (h : Role c allowed T.nets g s v q) : s.card = q.1 ∧ Spec.ConnectedSet g s ∧ 2 ≤ q.1 := by
  obtain ⟨ops', hp, f0, f1, hf, hfv⟩ := h
  obtain ⟨ops2, e2, hg⟩ := S.tab.gen _ _ _ hp
  rw [shown_congr e2] at hf
  have hm : 2 ≤ q.1 := by
    obtain ⟨l, hl, -⟩ := hp
    exact ((S.tab.keys q.1).1 (by rw [hl]; rfl)).1
  refine ⟨?_, ⟨hs, ?_⟩, hm⟩
  · have hc : (s.image f0).card = q.1 := by
      refine gen_nodes_card S.ok.idx hg fun x => ?_
      rw [Finset.mem_image]
      constructor
      · rintro ⟨y, hy, rfl⟩; exact hf.nodes.mapsTo hy
      · intro hx
        obtain ⟨y, hy, rfl⟩ := hf.nodes.surjOn hx
        exact ⟨y, hy, rfl⟩
    rw [← hc, Finset.card_image_of_injOn]
    exact fun x hx y hy e => hf.nodes.injOn hx hy e
  · obtain ⟨i, hi⟩ := gen_node hg hm
    have : Inhabited α := ⟨i⟩
    obtain ⟨e0, e1, he, -⟩ := hf.symm
    exact connected_of_iso he hg.connected

theorem nodup_slice (c : Coupling α W) (ops : List (POp α W)) : ((afterP [c] false 0 true ops).slices.headD []).Nodup := by
  have := (after_pinv (cs := [c]) (by simp) false 0 true ops).core.snodup
  cases hsl : (afterP [c] false 0 true ops).slices with
  | nil => simp
  | cons a t => rw [hsl] at this; exact this a (by simp)

theorem Setup.stored_card (S : Setup canon str match? allowed c idx layers nl N ord T ol) {p : MPlex α W} {m k : Nat}
    (hp : Stored T.nets m k p) : (p.slices.headD []).length = m := by
  obtain ⟨ops', rfl, hg⟩ := S.tab.gen _ _ _ hp
  rw [← List.toFinset_card_of_nodup (nodup_slice c ops')]
  exact gen_nodes_card S.ok.idx hg fun x => by rw [List.mem_toFinset]; exact (mem_slices_one c ops').1 x

theorem netAt_stored {p : MPlex α W} {m k : Nat} (hp : Stored T.nets m k p) : netAt T m k = .ok p := by
  obtain ⟨l, h1, h2⟩ := hp
  unfold netAt
  rw [h1]
  simp only
  rw [h2]

/-- Internal: the pairs of sets that are counted. -/
def Pairs (c : Coupling α W) (allowed : Option (List Nat)) (nets : Dict Nat (List (MPlex α W))) (g : Spec.Multigraph α) (v : α) (k : Nat)
    (q1 q2 : Orbit α) : Set (Finset α × Finset α) :=
  {p | v ∈ p.1 ∧ v ∈ p.2 ∧ (∀ x, g.node x ↔ x ∈ p.1 ∨ x ∈ p.2) ∧ (p.1 ∩ p.2).card = k ∧
    Role c allowed nets g p.1 v q1 ∧ Role c allowed nets g p.2 v q2}

open Classical in
theorem Setup.help (S : Setup canon str match? allowed c idx layers nl N ord T ol) (hnet : NetOk layers c ops) {A both D : Finset α}
    (hA : A = ((afterP [c] false 0 true ops).slices.headD []).toFinset) (hb : both ⊆ A) (hv : v ∈ both) (hD : D = A \ both)
    (hq1 : q1 ∈ ol) (hq2 : q2 ∈ ol) {p1 p2 : MPlex α W} (hp1 : Stored T.nets q1.1 q1.2.1 p1) (hp2 : Stored T.nets q2.1 q2.2.1 p2)
    (hk : both.card ≤ q1.1) (coef : Nat) :
    coefficientHelp ⟨canon, str, match?, allowed⟩ T ord D v both q1 q2 (afterP [c] false 0 true ops) coef =
      .ok (coef + ∑ t ∈ D.powersetCard (q1.1 - both.card),
        if Role c allowed T.nets (Spec.shown ops) (t ∪ both) v q1 ∧ Role c allowed T.nets (Spec.shown ops) (A \ t) v q2 then 1 else 0) := by
  unfold coefficientHelp
  rw [netAt_stored hp1]
  simp only
  rw [netAt_stored hp2]
  simp only
  rw [S.stored_card hp1, if_neg (by omega)]
  have hnode : ∀ x, x ∈ A ↔ (Spec.shown ops).node x := by
    intro x
    rw [hA, List.mem_toFinset]
    exact (mem_slices_one c ops).1 x
  refine forE_combinations S.ord D _ _ _ ?_ coef
  rintro t ht - l hl rfl k
  unfold coefStep
  simp only
  rw [← hA]
  have htA : l.toFinset ⊆ A := ht.trans (by rw [hD]; exact Finset.sdiff_subset)
  have hvt : v ∉ l.toFinset := fun h => by
    have := ht h
    rw [hD, Finset.mem_sdiff] at this
    exact this.2 hv
  have e1 : A \ (A \ l.toFinset) = l.toFinset := by
    ext x
    have := @htA x
    simp only [Finset.mem_sdiff] at this ⊢
    tauto
  rw [e1, S.coefTest hnet (fun x hx => (hnode x).1 ((Finset.mem_union.1 hx).elim (fun h => htA h) fun h => hb h))
    (fun x hx => (hnode x).1 (Finset.mem_sdiff.1 hx).1) (Finset.mem_union_right _ hv) (Finset.mem_sdiff.2 ⟨hb hv, hvt⟩) hq1 hq2 hp1 hp2]
  by_cases h : Role c allowed T.nets (Spec.shown ops) (l.toFinset ∪ both) v q1 ∧ Role c allowed T.nets (Spec.shown ops) (A \ l.toFinset) v q2
  · simp only [h, and_self, decide_true, if_true]
  · simp only [h, decide_false, if_false, Nat.add_zero]

open Classical in
theorem Setup.coefSum (S : Setup canon str match? allowed c idx layers nl N ord T ol) (hnet : NetOk layers c ops)
    (hv : (Spec.shown ops).node v) {both : List α} (hb : 1 ≤ both.length) (hb1 : both.length = 1 → both = [v]) (hk : both.length ≤ q1.1)
    (hq1 : q1 ∈ ol) (hq2 : q2 ∈ ol) :
    coefficientSum ⟨canon, str, match?, allowed⟩ T ord v both q1 q2 (afterP [c] false 0 true ops) =
      .ok (Pairs c allowed T.nets (Spec.shown ops) v both.length q1 q2).ncard := by
  obtain ⟨-, ops1, -, hp1, -⟩ := (S.ol q1).1 hq1
  obtain ⟨-, ops2, -, hp2, -⟩ := (S.ol q2).1 hq2
  set A := ((afterP [c] false 0 true ops).slices.headD []).toFinset with hA
  have hnode : ∀ x, x ∈ A ↔ (Spec.shown ops).node x := by
    intro x
    rw [hA, List.mem_toFinset]
    exact (mem_slices_one c ops).1 x
  have hvA : v ∈ A := (hnode v).2 hv
  let R : Finset α → Finset α → Prop := fun s1 s2 => Role c allowed T.nets (Spec.shown ops) s1 v q1 ∧ Role c allowed T.nets (Spec.shown ops) s2 v q2
  have hsum : coefficientSum ⟨canon, str, match?, allowed⟩ T ord v both q1 q2 (afterP [c] false 0 true ops) =
      .ok (∑ sh ∈ (A \ {v}).powersetCard (both.length - 1), ∑ t ∈ ((A \ {v}) \ sh).powersetCard (q1.1 - both.length),
        if R (t ∪ (sh ∪ {v})) (A \ t) then 1 else 0) := by
    unfold coefficientSum
    simp only
    rw [← hA]
    by_cases h1 : 1 < both.length
    · rw [if_pos h1]
      have := forE_combinations S.ord (A \ {v}) (both.length - 1)
        (fun coef shared => coefficientHelp ⟨canon, str, match?, allowed⟩ T ord ((A \ {v}) \ shared.toFinset) v (shared.toFinset ∪ {v}) q1 q2
          (afterP [c] false 0 true ops) coef)
        (fun sh => ∑ t ∈ ((A \ {v}) \ sh).powersetCard (q1.1 - both.length), if R (t ∪ (sh ∪ {v})) (A \ t) then 1 else 0) (by
          rintro sh hsh hc l hl rfl k
          have hcard : (l.toFinset ∪ {v}).card = both.length := by
            rw [Finset.card_union_of_disjoint, hc, Finset.card_singleton]
            · omega
            · rw [Finset.disjoint_singleton_right]
              intro h
              have := hsh h
              simp at this
          have := S.help (ord := ord) (both := l.toFinset ∪ {v}) hnet hA
            (Finset.union_subset (hsh.trans Finset.sdiff_subset) (by simpa using hvA))
            (Finset.mem_union_right _ (Finset.mem_singleton_self v)) (D := (A \ {v}) \ l.toFinset)
            (by ext x; simp only [Finset.mem_sdiff, Finset.mem_union]; tauto) hq1 hq2 hp1 hp2 (by rw [hcard]; exact hk) k
          rw [hcard] at this
          exact this) 0
      rw [this, Nat.zero_add]
    · rw [if_neg h1]
      have h1' : both.length = 1 := by omega
      have hbv := hb1 h1'
      have := S.help (ord := ord) (v := v) (both := both.toFinset) hnet hA (by rw [hbv]; simpa using hvA) (by rw [hbv]; simp) (D := A \ {v})
        (by rw [hbv]; simp) hq1 hq2 hp1 hp2 (by rw [hbv]; simp; omega) 0
      rw [this, Nat.zero_add, h1', Nat.sub_self, Finset.powersetCard_zero, Finset.sum_singleton]
      simp [hbv, R]
  rw [hsum]
  congr 1
  have hroles : ∀ s1 s2, R s1 s2 → s1 ⊆ A → s1.card = q1.1 := fun s1 s2 h h1 => (S.role_set (fun x hx => (hnode x).1 (h1 hx)) h.1).1
  have hset : Pairs c allowed T.nets (Spec.shown ops) v both.length q1 q2 =
      ↑((A.powerset ×ˢ A.powerset).filter fun p => v ∈ p.1 ∧ v ∈ p.2 ∧ p.1 ∪ p.2 = A ∧ (p.1 ∩ p.2).card = both.length ∧ R p.1 p.2) := by
    ext ⟨s1, s2⟩
    simp only [Pairs, Set.mem_ofPred_eq, Finset.coe_filter, Finset.mem_product, Finset.mem_powerset]
    constructor
    · rintro ⟨h1, h2, h3, h4, h5, h6⟩
      have e : s1 ∪ s2 = A := by
        ext x
        rw [hnode, h3, Finset.mem_union]
      exact ⟨⟨e ▸ Finset.subset_union_left, e ▸ Finset.subset_union_right⟩, h1, h2, e, h4, h5, h6⟩
    · rintro ⟨-, h1, h2, e, h4, h5, h6⟩
      exact ⟨h1, h2, fun x => by rw [← hnode, ← e, Finset.mem_union], h4, h5, h6⟩
  rw [hset, Set.ncard_coe_finset]
  convert count_pairs hvA hb R hroles

end

end Pymnet
