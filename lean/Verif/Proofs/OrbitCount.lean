import Verif.Proofs.OrbitTables
import Verif.Proofs.CycleNet
import Verif.Props.Plex3

/-! The counts of `orbit_counts` and `orbit_counts_all`. -/

set_option linter.unusedSectionVars false
set_option linter.unusedSimpArgs false
set_option linter.unusedVariables false

namespace Pymnet

open Py MPlex

section loops

variable {κ β : Type} [DecidableEq κ]

/-- a loop that adds to counts -/
theorem addLoop {f : Dict κ Nat → β → Except Err (Dict κ Nat)} {a : β → κ → Nat} {K : κ → Prop} (l : List β) (d : Dict κ Nat)
    (hd : ∀ q, K q → (Dict.get d q).isSome = true)
    (h : ∀ b ∈ l, ∀ d, (∀ q, K q → (Dict.get d q).isSome = true) →
      ∃ d', f d b = .ok d' ∧ ∀ q, Dict.get d' q = (Dict.get d q).map (· + a b q)) :
    ∃ d', forE f l d = .ok d' ∧ ∀ q, Dict.get d' q = (Dict.get d q).map (· + (l.map fun b => a b q).sum) := by
  obtain ⟨d', e, h1, h2⟩ := forE_ok (f := f) (s := d) (P := fun pre d' => (∀ q, K q → (Dict.get d' q).isSome = true) ∧
    ∀ q, Dict.get d' q = (Dict.get d q).map (· + (pre.map fun b => a b q).sum)) l ⟨hd, fun q => by simp⟩ (by
      intro pre b post s hl ⟨h1, h2⟩
      obtain ⟨s', e, h3⟩ := h b (by simp [hl]) s h1
      refine ⟨s', e, fun q hq => ?_, fun q => ?_⟩
      · rw [h3]; simpa using h1 q hq
      · rw [h3, h2]
        simp only [Option.map_map]
        congr 1
        funext x
        simp [Nat.add_assoc])
  exact ⟨d', e, h2⟩

theorem sum_indicator {l : List β} (hl : l.Nodup) (P : β → Prop) [DecidablePred P] :
    (l.map fun b => if P b then 1 else 0).sum = {b | b ∈ l ∧ P b}.ncard := by
  classical
  rw [MNet.ncard_of_list (l := l.filter fun b => decide (P b)) (hl.filter _) (by intro b; simp)]
  clear hl
  induction l with
  | nil => rfl
  | cons b l ih =>
    by_cases h : P b
    · simp [h, ih, Nat.add_comm]
    · simp [h, ih]

end loops

variable {α W β σ : Type} [DecidableEq α] [DecidableEq W] [Zero W] [LawfulIntNames α] [LinearOrder α] [DecidableEq σ] [One W]
  {canon : CGraph → β} {str : List (List α × Nat) × β → σ} {allowed : Option (List Nat)} {c : Coupling α W}
  {idx : Nat → α} {layers : List α} {nl N n : Nat} {T : Tables α W σ} {ol : List (Orbit α)}
  {match? : CGraph → CGraph → Option (Dict Nat Nat)} {ord : Finset α → List α} {ops ops' : List (POp α W)}

open Classical in
theorem countNode_spec {auts : Dict (Orbit α) α} {i j : Nat} {iso : List (Dict α α)} {v o : α} {d : Dict (α × Orbit α) Nat}
    (h : Dict.get auts (i, j, dget (iso.headD []) v) = some o) (hd : (Dict.get d (v, (i, j, o))).isSome = true) :
    ∃ d', countNode auts i j iso d v = .ok d' ∧
      ∀ q, Dict.get d' q = (Dict.get d q).map (· + if q = (v, (i, j, o)) then 1 else 0) := by
  obtain ⟨k, hk⟩ := Option.isSome_iff_exists.1 hd
  refine ⟨Dict.set d (v, (i, j, o)) (k + 1), ?_, fun q => ?_⟩
  · unfold countNode
    rw [h]
    dsimp only
    rw [hk]
  · rw [Dict.get_set]
    by_cases hq : (v, (i, j, o)) = q
    · subst hq; simp [hk]
    · have : ¬ q = (v, (i, j, o)) := fun e => hq e.symm
      simp [hq, this]

theorem get_zeroCounts (ol : List (Orbit α)) (d : Dict (α × Orbit α) Nat) (v : α) (q : α × Orbit α) :
    Dict.get (zeroCounts ol d v) q = if q.1 = v ∧ q.2 ∈ ol then some 0 else Dict.get d q := by
  unfold zeroCounts
  induction ol generalizing d with
  | nil => simp
  | cons o ol ih =>
    rw [List.foldl_cons, ih, Dict.get_set]
    by_cases h1 : q.1 = v ∧ q.2 ∈ ol
    · simp [h1]
    · by_cases h2 : (v, o) = q
      · subst h2; simp
      · have h3 : ¬ (q.1 = v ∧ q.2 ∈ o :: ol) := by
          rintro ⟨rfl, h⟩
          rcases List.mem_cons.1 h with rfl | h
          · exact h2 rfl
          · exact h1 ⟨rfl, h⟩
        rw [if_neg h1, if_neg h2, if_neg h3]

/-- Internal: the assumptions on the tables. -/
structure Setup (canon : CGraph → β) (str : List (List α × Nat) × β → σ) (match? : CGraph → CGraph → Option (Dict Nat Nat))
    (allowed : Option (List Nat)) (c : Coupling α W) (idx : Nat → α) (layers : List α) (nl N : Nat) (ord : Finset α → List α)
    (T : Tables α W σ) (ol : List (Orbit α)) : Prop where
  ok : GenOk canon str allowed c idx layers
  nodes : 0 ∈ Spec.mayChange 1 allowed
  iso : Spec.FindsIso match?
  ord : ∀ s, (ord s).Nodup ∧ ∀ x, x ∈ ord s ↔ x ∈ s
  tab : NInv canon str allowed c idx nl layers (max N 2) (T.nets, T.invs)
  auts : AutsOk c allowed T.nets T.auts
  ol : ∀ q, q ∈ ol ↔ q.1 ≤ N ∧ ∃ ops x, Stored T.nets q.1 q.2.1 (afterP [c] false 0 true ops) ∧ (Spec.shown ops).node x ∧
        Dict.get T.auts (q.1, q.2.1, x) = some q.2.2

/-- Internal: node `v` has the role given by an orbit. -/
def Role (c : Coupling α W) (allowed : Option (List Nat)) (nets : Dict Nat (List (MPlex α W))) (g : Spec.Multigraph α) (s : Finset α)
    (v : α) (q : Orbit α) : Prop :=
  ∃ ops', Stored nets q.1 q.2.1 (afterP [c] false 0 true ops') ∧
    ∃ e0 e1, MIso (cplRel c) (Spec.mayChange 1 allowed) (subG g s) (Spec.shown ops') e0 e1 ∧ e0 v = q.2.2

theorem Setup.rep (S : Setup canon str match? allowed c idx layers nl N ord T ol) {q : Orbit α} (hq : q ∈ ol)
    (hp : Stored T.nets q.1 q.2.1 (afterP [c] false 0 true ops')) :
    (Spec.shown ops').node q.2.2 ∧ Dict.get T.auts (q.1, q.2.1, q.2.2) = some q.2.2 := by
  obtain ⟨-, ops1, x, hst, hx, ho⟩ := (S.ol q).1 hq
  obtain ⟨l, h1, h2⟩ := hst
  obtain ⟨l', h1', h2'⟩ := hp
  rw [h1] at h1'; cases h1'
  rw [h2] at h2'
  have hs := shown_congr (Option.some.inj h2')
  rw [← hs]
  obtain ⟨o', ho', ⟨f0, f1, hf, hfo⟩, -⟩ := S.auts.val _ _ _ ⟨l, h1, h2⟩ x hx
  rw [ho] at ho'; cases ho'
  have hn : (Spec.shown ops1).node q.2.2 := by rw [← hfo]; exact hf.nodes.mapsTo hx
  refine ⟨hn, ?_⟩
  rw [← (S.auts.eq _ _ _ ⟨l, h1, h2⟩ x q.2.2 hx hn).2 ⟨f0, f1, hf, hfo⟩, ho]

/-- one set of nodes: its graphlet, and the orbits of its nodes -/
theorem Setup.identify (S : Setup canon str match? allowed c idx layers nl N ord T ol) (hnet : NetOk layers c ops)
    (hlay : ∃ l : List α, l.Sublist layers ∧ l.length = nl ∧ ∀ x, (Spec.shown ops).layer x ↔ x ∈ l) {s : Finset α}
    (hs : Spec.ConnectedSet (Spec.shown ops) s) (h2 : 2 ≤ s.card) (hN : s.card ≤ N) :
    ∃ m k iso, Pymnet.identify ⟨canon, str, match?, allowed⟩ T ord (afterP [c] false 0 true ops) s = .ok (m, k, iso) ∧
      ∀ v ∈ s, ∃ o, Dict.get T.auts (m, k, dget (iso.headD []) v) = some o ∧ (m, k, o) ∈ ol ∧
        ∀ q ∈ ol, (q = (m, k, o) ↔ Role c allowed T.nets (Spec.shown ops) s v q) := by
  obtain ⟨m, k, ops1, iso, f1, e, hst, hgen, hm, hf⟩ := identify_spec S.ok S.nodes S.iso S.ord S.tab hnet hlay hs h2
    (hN.trans (le_max_left _ _))
  refine ⟨m, k, iso, e, fun v hv => ?_⟩
  have hfv := hf.nodes.mapsTo (show v ∈ {x | (subG (Spec.shown ops) s).node x} from hv)
  obtain ⟨o, ho, -⟩ := S.auts.val m k ops1 hst _ hfv
  refine ⟨o, ho, (S.ol _).2 ⟨by rw [hm]; exact hN, ops1, _, hst, hfv, ho⟩, fun q hq => ?_⟩
  obtain ⟨-, ops2, x, hst2, -⟩ := (S.ol q).1 hq
  have hrep := S.rep hq hst2
  have key := role_iff S.ok S.tab S.auts (g := subG (Spec.shown ops) s) (v := v) hv hst hst2 hf hrep
  obtain ⟨m', k', o'⟩ := q
  dsimp only at key hst2 hrep
  have e1 : ((m', k', o') : Orbit α) = (m, k, o) ↔ m = m' ∧ k = k' ∧ Dict.get T.auts (m, k, dget (iso.headD []) v) = some o' := by
    rw [ho]
    simp only [Prod.mk.injEq, Option.some.injEq, eq_comm]
  rw [e1, key]
  constructor
  · intro h; exact ⟨ops2, hst2, h⟩
  · rintro ⟨ops3, hst3, h⟩
    obtain ⟨l, h1, h2⟩ := hst2
    obtain ⟨l', h1', h2'⟩ := hst3
    dsimp only at h1 h2 h1' h2'
    rw [h1] at h1'; cases h1'
    rw [h2] at h2'
    rw [shown_congr (Option.some.inj h2')]
    exact h

theorem conn_connected {v : α} {t : Finset α} : Conn (Edge ops) (Spec.shown ops).node v t ↔
    v ∈ t ∧ Spec.ConnectedSet (Spec.shown ops) t :=
  ⟨fun h => ⟨h.mem, h.all, h.conn⟩, fun h => ⟨h.1, h.2.nodes, h.2.connected⟩⟩

/-- `orbit_counts` -/
theorem orbitCounts_spec (S : Setup canon str match? allowed c idx layers nl N ord T ol) (hnet : NetOk layers c ops)
    (hlay : ∃ l : List α, l.Sublist layers ∧ l.length = nl ∧ ∀ x, (Spec.shown ops).layer x ↔ x ∈ l) (hn : n ≤ N) {v : α}
    (hv : (Spec.shown ops).node v) (d : Dict (α × Orbit α) Nat) :
    ∃ d', orbitCounts ⟨canon, str, match?, allowed⟩ T ord n v (afterP [c] false 0 true ops) d ol = .ok d' ∧
      (∀ q ∈ ol, Dict.get d' (v, q) = some {s : Finset α | v ∈ s ∧ 2 ≤ s.card ∧ s.card ≤ n ∧ Spec.ConnectedSet (Spec.shown ops) s ∧
        Role c allowed T.nets (Spec.shown ops) s v q}.ncard) ∧
      ∀ q, ¬ (q.1 = v ∧ q.2 ∈ ol) → Dict.get d' q = Dict.get d q := by
  classical
  obtain ⟨sets, e, hnd, hm⟩ := touching_spec hnet (fun s => (S.ord s).2) hv n
  obtain ⟨d', e', h'⟩ := addLoop (f := fun (orbits : Dict (α × Orbit α) Nat) s =>
      match Pymnet.identify ⟨canon, str, match?, allowed⟩ T ord (afterP [c] false 0 true ops) s with
      | .error e => .error e
      | .ok (i, j, iso) => countNode T.auts i j iso orbits v)
    (a := fun s q => if q.1 = v ∧ q.2 ∈ ol ∧ Role c allowed T.nets (Spec.shown ops) s v q.2 then 1 else 0)
    (K := fun q => q.1 = v ∧ q.2 ∈ ol) sets (zeroCounts ol d v) (fun q hq => by rw [get_zeroCounts, if_pos hq]; rfl) (by
      intro s hs d hd
      rw [hm, conn_connected] at hs
      obtain ⟨m, k, iso, e1, h1⟩ := S.identify hnet hlay hs.1.2 hs.2.1 (hs.2.2.trans hn)
      obtain ⟨o, h2, h3, h4⟩ := h1 v hs.1.1
      obtain ⟨d', e2, h5⟩ := countNode_spec h2 (hd (v, (m, k, o)) ⟨rfl, h3⟩)
      refine ⟨d', by rw [e1]; exact e2, fun q => ?_⟩
      rw [h5]
      have : (q = (v, (m, k, o))) ↔ (q.1 = v ∧ q.2 ∈ ol ∧ Role c allowed T.nets (Spec.shown ops) s v q.2) := by
        constructor
        · rintro rfl; exact ⟨rfl, h3, (h4 _ h3).1 rfl⟩
        · rintro ⟨h6, h7, h8⟩
          exact Prod.ext h6 ((h4 _ h7).2 h8)
      simp only [this])
  refine ⟨d', ?_, fun q hq => ?_, fun q hq => ?_⟩
  · unfold orbitCounts
    rw [e]
    exact e'
  · rw [h', get_zeroCounts, if_pos ⟨rfl, hq⟩]
    simp only [Option.map_some, Nat.zero_add, hq, true_and]
    rw [sum_indicator hnd]
    congr 2
    ext s
    simp only [Set.mem_ofPred_eq, hm, conn_connected]
    tauto
  · rw [h', get_zeroCounts, if_neg hq]
    have : ∀ s : Finset α, (if q.1 = v ∧ q.2 ∈ ol ∧ Role c allowed T.nets (Spec.shown ops) s v q.2 then 1 else 0) = 0 := by
      intro s
      rw [if_neg]
      rintro ⟨h1, h2, -⟩
      exact hq ⟨h1, h2⟩
    simp [this]

/-! ### `orbit_counts_all` -/

/-- the neighbours on one layer -/
theorem neighbours_layer (ok : NetOk layers c ops) {i x : α} (hi : (Spec.shown ops).node i) (hx : (Spec.shown ops).layer x) :
    ∃ l, (afterP [c] false 0 true ops).view.iterTotal [i, x] (some [none, some x]) = .ok l ∧
      ∀ b, b ∈ l ↔ ∃ j, b = [j, x] ∧ (Spec.shown ops).link x i j := by
  obtain ⟨l, e, hn, hm⟩ := neighbours_one ok hi hx
  have hd : (afterP [c] false 0 true ops).directed = false := ok.shows.undir
  have hit : ∀ ds, (afterP [c] false 0 true ops).view.iterTotal [i, x] ds = (afterP [c] false 0 true ops).iterOut [i, x] ds := by
    intro ds
    change (if (afterP [c] false 0 true ops).directed = true then _ else _) = _
    rw [if_neg (by rw [hd]; decide)]
  rw [hit] at e
  obtain ⟨l', k1, -, k3, -⟩ := restrict_main (f := fun c n => c.iterOut n none) (cs := [c]) (aligned := true) (u := [i, x])
    (Q := fun b => Spec.Linked [c] false true ops [i, x] b) (by simp) (Or.inl rfl) (hasNodeLayer_one.2 ⟨i, x, rfl, hi, hx⟩) e hn (by
      intro b
      rw [hm]
      constructor
      · rintro ⟨j, y, rfl, h1, h2, h3⟩
        exact ⟨hasNodeLayer_one.2 ⟨j, y, rfl, h1, h2⟩, linked_one.2 h3⟩
      · rintro ⟨h1, h2⟩
        obtain ⟨j, y, rfl, h3, h4⟩ := hasNodeLayer_one.1 h1
        exact ⟨j, y, rfl, h3, h4, linked_one.1 h2⟩)
    (not_linked_self _) (ds := [none, some x]) rfl (by
      intro k a h
      rcases k with - | - | k
      · simp at h
      · simpa using h
      · simp at h)
  refine ⟨l', by rw [hit]; exact k1, fun b => ?_⟩
  rw [k3]
  constructor
  · rintro ⟨⟨h1, h2⟩, h3⟩
    obtain ⟨j, y, rfl, h4, h5⟩ := hasNodeLayer_one.1 h1
    have : y = x := by
      have := h3 _ rfl 1 x rfl
      simpa using this
    subst this
    rcases linked_one.1 h2 with h | h
    · exact ⟨j, rfl, h.2⟩
    · exact absurd rfl (cplRel_ne h.2)
  · rintro ⟨j, rfl, h⟩
    refine ⟨⟨hasNodeLayer_one.2 ⟨j, x, rfl, (link_node h).2.2, hx⟩, linked_one.2 (Or.inl ⟨rfl, h⟩)⟩, ?_⟩
    rintro ds hds k a hk
    cases hds
    rcases k with - | - | k
    · simp at hk
    · simpa using hk
    · simp at hk

theorem getItem_layer {v : View α W} (h : v.aspects = 1) (i l : α) :
    v.getItem [.val i, .colon, .val l] = .ok (.node [i, l] (some [none, some l])) := by
  unfold View.getItem
  simp only [h, List.length_cons, List.length_nil]
  rfl

/-- the links of one node on one layer are removed -/
theorem clearLayer_spec (ok : NetOk layers c ops) {v x : α} (hv : (Spec.shown ops).node v) (hx : (Spec.shown ops).layer x) :
    ∃ ops', clearLayer v (afterP [c] false 0 true ops) x = .ok (afterP [c] false 0 true ops') ∧ NetOk layers c ops' ∧
      (∀ y, (Spec.shown ops').node y ↔ (Spec.shown ops).node y) ∧ (∀ y, (Spec.shown ops').layer y ↔ (Spec.shown ops).layer y) ∧
      ∀ y i j, (Spec.shown ops').link y i j ↔ (Spec.shown ops).link y i j ∧ ¬ (y = x ∧ (i = v ∨ j = v)) := by
  classical
  obtain ⟨l, e, hl⟩ := neighbours_layer ok hv hx
  have hb := builtX_after [c] false 0 true ops
  obtain ⟨p', e', hp'⟩ := forE_ok (f := fun (net : MPlex α W) (nb : List α) =>
        match nb.head? with
        | none => .error .indexError
        | some y => (net.setItem [v, y, x] 0).toExcept) (s := afterP [c] false 0 true ops)
    (P := fun pre q => ∃ ops', q = afterP [c] false 0 true ops' ∧ Spec.NoIntraSelf ops' ∧
      (∀ y, (Spec.shown ops').node y ↔ (Spec.shown ops).node y) ∧ (∀ y, (Spec.shown ops').layer y ↔ (Spec.shown ops).layer y) ∧
      ∀ y i j, (Spec.shown ops').link y i j ↔ (Spec.shown ops).link y i j ∧
        ¬ (y = x ∧ ((i = v ∧ [j, x] ∈ pre) ∨ (j = v ∧ [i, x] ∈ pre)))) l
    ⟨ops, rfl, ok.self, fun y => Iff.rfl, fun y => Iff.rfl, by simp⟩ (by
      rintro pre b post q hlq ⟨ops1, rfl, hs1, hn1, hl1, hk1⟩
      obtain ⟨z, rfl, hz⟩ := (hl b).1 (by simp [hlq])
      obtain ⟨q', e1, hq'⟩ := (builtX_after [c] false 0 true ops1).setItem (by simp) (item := [v, z, x]) (s := [x]) hz.1
        ⟨rfl, rfl, Or.inr ⟨v, z, [x], rfl, rfl, rfl⟩⟩ 0
      obtain ⟨ops2, rfl, h1, h2, h3, h4⟩ := hq'.shown hs1
      refine ⟨_, e1, ops2, rfl, h1, fun y => ?_, fun y => ?_, fun y i j => ?_⟩
      · rw [h2]
        change ((Spec.shown ops1).node y ∨ _) ↔ _
        rw [hn1]
        constructor
        · rintro (h | rfl | rfl)
          · exact h
          · exact hv
          · exact (link_node hz).2.2
        · exact Or.inl
      · rw [h3]
        change ((Spec.shown ops1).layer y ∨ _) ↔ _
        rw [hl1]
        constructor
        · rintro (h | h)
          · exact h
          · simp at h; subst h; exact hx
        · exact Or.inl
      · have e2 : (Spec.shown ops2).link y i j ↔ (Spec.shown ops1).link y i j ∧ ¬ ([y] = [x] ∧ Spec.SameLink false v z i j) := by
          change (i ≠ j ∧ Spec.readP 1 false true ops2 [y] i j ≠ 0) ↔ (i ≠ j ∧ Spec.readP 1 false true ops1 [y] i j ≠ 0) ∧ _
          rw [h4]
          by_cases hc : [y] = [x] ∧ Spec.SameLink false v z i j
          · rw [if_pos hc]; simp [hc]
          · rw [if_neg hc]
            constructor
            · intro h; exact ⟨h, hc⟩
            · intro h; exact h.1
        rw [e2, hk1]
        unfold Spec.SameLink
        simp only [List.mem_append, List.mem_singleton, List.cons.injEq, and_true, true_and]
        tauto)
  obtain ⟨ops', rfl, hs', hn', hl', hk'⟩ := hp'
  refine ⟨ops', ?_, ⟨ok.cpl, fun y hy => ok.lay y ((hl' y).1 hy), hs'⟩, hn', hl', fun y i j => ?_⟩
  · unfold clearLayer
    rw [getItem_layer ok.shows.dim]
    dsimp only
    rw [e]
    exact e'
  · rw [hk']
    constructor
    · rintro ⟨h1, h2⟩
      refine ⟨h1, ?_⟩
      rintro ⟨rfl, rfl | rfl⟩
      · exact h2 ⟨rfl, Or.inl ⟨rfl, (hl _).2 ⟨j, rfl, h1⟩⟩⟩
      · exact h2 ⟨rfl, Or.inr ⟨rfl, (hl _).2 ⟨i, rfl, link_symm h1⟩⟩⟩
    · rintro ⟨h1, h2⟩
      refine ⟨h1, ?_⟩
      rintro ⟨rfl, h | h⟩
      · exact h2 ⟨rfl, Or.inl h.1⟩
      · exact h2 ⟨rfl, Or.inr h.1⟩

theorem clear_spec (ok : NetOk layers c ops) {v : α} (hv : (Spec.shown ops).node v) {lays : List α}
    (hlays : ∀ x, x ∈ lays ↔ (Spec.shown ops).layer x) :
    ∃ ops', forE (clearLayer v) lays (afterP [c] false 0 true ops) = .ok (afterP [c] false 0 true ops') ∧ NetOk layers c ops' ∧
      (∀ y, (Spec.shown ops').node y ↔ (Spec.shown ops).node y) ∧ (∀ y, (Spec.shown ops').layer y ↔ (Spec.shown ops).layer y) ∧
      ∀ y i j, (Spec.shown ops).layer y → ((Spec.shown ops').link y i j ↔ (Spec.shown ops).link y i j ∧ i ≠ v ∧ j ≠ v) := by
  obtain ⟨p', e', ops', rfl, h1, h2, h3, h4⟩ := forE_ok (f := clearLayer v) (s := afterP [c] false 0 true ops)
    (P := fun pre q => ∃ ops', q = afterP [c] false 0 true ops' ∧ NetOk layers c ops' ∧
      (∀ y, (Spec.shown ops').node y ↔ (Spec.shown ops).node y) ∧ (∀ y, (Spec.shown ops').layer y ↔ (Spec.shown ops).layer y) ∧
      ∀ y i j, (Spec.shown ops').link y i j ↔ (Spec.shown ops).link y i j ∧ ¬ (y ∈ pre ∧ (i = v ∨ j = v))) lays
    ⟨ops, rfl, ok, fun y => Iff.rfl, fun y => Iff.rfl, by simp⟩ (by
      rintro pre x post q hlq ⟨ops1, rfl, hs1, hn1, hl1, hk1⟩
      obtain ⟨ops2, e, h1, h2, h3, h4⟩ := clearLayer_spec hs1 ((hn1 v).2 hv) ((hl1 x).2 ((hlays x).1 (by simp [hlq])))
      refine ⟨_, e, ops2, rfl, h1, fun y => (h2 y).trans (hn1 y), fun y => (h3 y).trans (hl1 y), fun y i j => ?_⟩
      rw [h4, hk1]
      simp only [List.mem_append, List.mem_singleton]
      tauto)
  refine ⟨ops', e', h1, h2, h3, fun y i j hy => ?_⟩
  rw [h4]
  have := (hlays y).2 hy
  tauto

theorem get_zeroCountsAll (ol : List (Orbit α)) (l : List α) (d : Dict (α × Orbit α) Nat) (q : α × Orbit α) :
    Dict.get (l.foldl (zeroCounts ol) d) q = if q.1 ∈ l ∧ q.2 ∈ ol then some 0 else Dict.get d q := by
  induction l generalizing d with
  | nil => simp
  | cons v l ih =>
    rw [List.foldl_cons, ih, get_zeroCounts]
    by_cases h1 : q.1 ∈ l ∧ q.2 ∈ ol
    · rw [if_pos h1, if_pos ⟨by simp [h1.1], h1.2⟩]
    · rw [if_neg h1]
      by_cases h2 : q.1 = v ∧ q.2 ∈ ol
      · rw [if_pos h2, if_pos ⟨by simp [h2.1], h2.2⟩]
      · rw [if_neg h2, if_neg]
        rintro ⟨h3, h4⟩
        rcases List.mem_cons.1 h3 with h3 | h3
        · exact h2 ⟨h3, h4⟩
        · exact h1 ⟨h3, h4⟩

/-- Internal: two networks agree away from some nodes. -/
structure Same (pre : List α) (g g' : Spec.Multigraph α) : Prop where
  node : ∀ y, g'.node y ↔ g.node y
  layer : ∀ y, g'.layer y ↔ g.layer y
  link : ∀ y i j, g.layer y → (g'.link y i j ↔ g.link y i j ∧ i ∉ pre ∧ j ∉ pre)

theorem Same.connected {pre : List α} {g g' : Spec.Multigraph α} (h : Same pre g g') {s : Finset α} (hs : ∀ x ∈ s, x ∉ pre) :
    Spec.ConnectedSet g' s ↔ Spec.ConnectedSet g s := by
  constructor
  · rintro ⟨h1, h2⟩
    refine ⟨fun x hx => (h.node x).1 (h1 x hx), fun i j hi hj => Relation.ReflTransGen.mono ?_ _ _ (h2 i j hi hj)⟩
    rintro a b ⟨ha, hb, x, hx, hl⟩
    exact ⟨ha, hb, x, (h.layer x).1 hx, ((h.link x a b ((h.layer x).1 hx)).1 hl).1⟩
  · rintro ⟨h1, h2⟩
    refine ⟨fun x hx => (h.node x).2 (h1 x hx), fun i j hi hj => Relation.ReflTransGen.mono ?_ _ _ (h2 i j hi hj)⟩
    rintro a b ⟨ha, hb, x, hx, hl⟩
    exact ⟨ha, hb, x, (h.layer x).2 hx, (h.link x a b hx).2 ⟨hl, hs a ha, hs b hb⟩⟩

theorem Same.role {pre : List α} {g g' : Spec.Multigraph α} (h : Same pre g g') {s : Finset α} (hs : ∀ x ∈ s, x ∉ pre)
    {nets : Dict Nat (List (MPlex α W))} {v : α} {q : Orbit α} :
    Role c allowed nets g' s v q ↔ Role c allowed nets g s v q := by
  unfold Role
  refine exists_congr fun ops' => and_congr_right fun _ => exists_congr fun e0 => exists_congr fun e1 => and_congr_left fun _ => ?_
  constructor
  · intro hi
    refine hi.congr_source (fun x => Iff.rfl) h.layer fun x i j hx hi hj => ?_
    change g'.link x i j ↔ g.link x i j
    rw [h.link x i j ((h.layer x).1 hx)]
    exact ⟨fun h => h.1, fun h => ⟨h, hs i hi, hs j hj⟩⟩
  · intro hi
    refine hi.congr_source (fun x => Iff.rfl) (fun x => (h.layer x).symm) fun x i j hx hi hj => ?_
    change g.link x i j ↔ g'.link x i j
    rw [h.link x i j hx]
    exact ⟨fun h => ⟨h, hs i hi, hs j hj⟩, fun h => h.1⟩

/-- Internal: the sets counted for a node and an orbit. -/
def Counted (c : Coupling α W) (allowed : Option (List Nat)) (nets : Dict Nat (List (MPlex α W))) (n : Nat) (g : Spec.Multigraph α)
    (q : α × Orbit α) : Set (Finset α) :=
  {s | q.1 ∈ s ∧ 2 ≤ s.card ∧ s.card ≤ n ∧ Spec.ConnectedSet g s ∧ Role c allowed nets g s q.1 q.2}

/-- one set of nodes -/
theorem Setup.countSet (S : Setup canon str match? allowed c idx layers nl N ord T ol) (hnet : NetOk layers c ops)
    (hlay : ∃ l : List α, l.Sublist layers ∧ l.length = nl ∧ ∀ x, (Spec.shown ops).layer x ↔ x ∈ l) {s : Finset α}
    (hs : Spec.ConnectedSet (Spec.shown ops) s) (h2 : 2 ≤ s.card) (hN : s.card ≤ N) {d : Dict (α × Orbit α) Nat}
    (hd : ∀ q : α × Orbit α, (Spec.shown ops).node q.1 ∧ q.2 ∈ ol → (Dict.get d q).isSome = true) :
    ∃ m k iso d', Pymnet.identify ⟨canon, str, match?, allowed⟩ T ord (afterP [c] false 0 true ops) s = .ok (m, k, iso) ∧
      forE (countNode T.auts m k iso) (ord s) d = .ok d' ∧
      ∀ q, Dict.get d' q = (Dict.get d q).map (· + open Classical in
        if q.2 ∈ ol ∧ q.1 ∈ s ∧ Role c allowed T.nets (Spec.shown ops) s q.1 q.2 then 1 else 0) := by
  classical
  obtain ⟨m, k, iso, e1, h1⟩ := S.identify hnet hlay hs h2 hN
  obtain ⟨d', e2, h3⟩ := addLoop (f := countNode T.auts m k iso)
    (a := fun v q => if q.1 = v ∧ q.2 ∈ ol ∧ Role c allowed T.nets (Spec.shown ops) s v q.2 then 1 else 0)
    (K := fun q => (Spec.shown ops).node q.1 ∧ q.2 ∈ ol) (ord s) d hd (by
      intro v hv d hd
      have hv := ((S.ord s).2 v).1 hv
      obtain ⟨o, h2, h3, h4⟩ := h1 v hv
      obtain ⟨d', e2, h5⟩ := countNode_spec h2 (hd (v, (m, k, o)) ⟨hs.nodes v hv, h3⟩)
      refine ⟨d', e2, fun q => ?_⟩
      rw [h5]
      have : (q = (v, (m, k, o))) ↔ (q.1 = v ∧ q.2 ∈ ol ∧ Role c allowed T.nets (Spec.shown ops) s v q.2) := by
        constructor
        · rintro rfl; exact ⟨rfl, h3, (h4 _ h3).1 rfl⟩
        · rintro ⟨h6, h7, h8⟩
          exact Prod.ext h6 ((h4 _ h7).2 h8)
      simp only [this])
  refine ⟨m, k, iso, d', e1, e2, fun q => ?_⟩
  rw [h3, sum_indicator (S.ord s).1]
  congr 2
  by_cases hc : q.2 ∈ ol ∧ q.1 ∈ s ∧ Role c allowed T.nets (Spec.shown ops) s q.1 q.2
  · rw [if_pos hc]
    have : {b | b ∈ ord s ∧ q.1 = b ∧ q.2 ∈ ol ∧ Role c allowed T.nets (Spec.shown ops) s b q.2} = {q.1} := by
      ext b
      constructor
      · rintro ⟨-, h, -⟩; exact h.symm
      · rintro rfl; exact ⟨((S.ord s).2 _).2 hc.2.1, rfl, hc.1, hc.2.2⟩
    rw [this, Set.ncard_singleton]
  · rw [if_neg hc]
    have : {b | b ∈ ord s ∧ q.1 = b ∧ q.2 ∈ ol ∧ Role c allowed T.nets (Spec.shown ops) s b q.2} = ∅ := by
      ext b
      constructor
      · rintro ⟨h1, rfl, h2, h3⟩; exact absurd ⟨h2, ((S.ord s).2 _).1 h1, h3⟩ hc
      · intro h; cases h
    rw [this, Set.ncard_empty]

theorem finite_counted (c : Coupling α W) (P : Finset α → Prop) : {s | Spec.ConnectedSet (Spec.shown ops) s ∧ P s}.Finite := by
  refine Set.Finite.subset (Finset.finite_toSet ((afterP [c] false 0 true ops).slices.headD []).toFinset.powerset) ?_
  rintro s ⟨hs, -⟩
  simp only [Finset.coe_powerset, Set.mem_preimage, Set.mem_powerset_iff]
  intro x hx
  have := ((mem_slices_one c ops).1 x).2 (hs.nodes x hx)
  simpa using this

/-- `orbit_counts_all` -/
theorem orbitCountsAll_spec (S : Setup canon str match? allowed c idx layers nl N ord T ol) (hnet : NetOk layers c ops)
    (hlay : ∃ l : List α, l.Sublist layers ∧ l.length = nl ∧ ∀ x, (Spec.shown ops).layer x ↔ x ∈ l) (hn : n ≤ N) :
    ∃ ops' d', orbitCountsAll ⟨canon, str, match?, allowed⟩ T ord n (afterP [c] false 0 true ops) ol = .ok (afterP [c] false 0 true ops', d') ∧
      (∀ y, (Spec.shown ops').node y ↔ (Spec.shown ops).node y) ∧ (∀ y, (Spec.shown ops').layer y ↔ (Spec.shown ops).layer y) ∧
      (∀ y i j, (Spec.shown ops).layer y → ¬ (Spec.shown ops').link y i j) ∧
      ∀ q, Dict.get d' q = open Classical in if (Spec.shown ops).node q.1 ∧ q.2 ∈ ol then
        some (Counted c allowed T.nets n (Spec.shown ops) q).ncard else none := by
  classical
  set ns := (afterP [c] false 0 true ops).slices.headD [] with hns
  set lays := (afterP [c] false 0 true ops).slices.getD 1 [] with hlays
  have hmn : ∀ x, x ∈ ns ↔ (Spec.shown ops).node x := (mem_slices_one c ops).1
  have hml : ∀ x, x ∈ lays ↔ (Spec.shown ops).layer x := (mem_slices_one c ops).2
  have hnd : ns.Nodup := by
    obtain ⟨R, hR, -⟩ := hnet.shows.sound
    have := hR.snodup
    change ((afterP [c] false 0 true ops).view.slices.headD []).Nodup
    cases h : (afterP [c] false 0 true ops).view.slices with
    | nil => simp
    | cons a b => exact this a (by simp [h])
  obtain ⟨st, e, ops', h1, h2, h3, h4, h5⟩ := forE_ok (f := countAllStep ⟨canon, str, match?, allowed⟩ T ord n lays)
    (s := (afterP [c] false 0 true ops, [], ns.foldl (zeroCounts ol) []))
    (P := fun pre st => ∃ ops', st.1 = afterP [c] false 0 true ops' ∧ NetOk layers c ops' ∧
      Same pre (Spec.shown ops) (Spec.shown ops') ∧ (∀ x, x ∈ st.2.1 ↔ x ∈ pre) ∧
      ∀ q, Dict.get st.2.2 q = if (Spec.shown ops).node q.1 ∧ q.2 ∈ ol then
        some (Counted c allowed T.nets n (Spec.shown ops) q ∩ {s | ∃ x ∈ pre, x ∈ s}).ncard else none) ns
    ⟨ops, rfl, hnet, ⟨fun _ => Iff.rfl, fun _ => Iff.rfl, fun y i j _ => by simp⟩, fun _ => Iff.rfl, fun q => by
      rw [get_zeroCountsAll]
      simp [Dict.get, hmn]⟩ (by
    rintro pre v post ⟨p, processed, d⟩ hl ⟨ops1, rfl, hok, hsame, hproc, hd⟩
    dsimp only at hproc hd
    have hv : (Spec.shown ops).node v := (hmn v).1 (by simp [hl])
    have hvpre : v ∉ pre := by
      rw [hl] at hnd
      intro h
      exact (List.nodup_append.1 hnd).2.2 v h v (by simp) rfl
    have hv1 := (hsame.node v).2 hv
    have hl1 : ∀ x, x ∈ lays ↔ (Spec.shown ops1).layer x := fun x => (hml x).trans (hsame.layer x).symm
    obtain ⟨sets, e1, hsn, hsm⟩ := freshSets_spec hok (fun s => (S.ord s).2) (processed := processed) hl1 hv1
      (by rw [hproc]; exact hvpre) n
    have hsm' : ∀ t, t ∈ sets ↔ v ∈ t ∧ (∀ x ∈ t, x ∉ pre) ∧ Spec.ConnectedSet (Spec.shown ops) t ∧ 2 ≤ t.card ∧ t.card ≤ n := by
      intro t
      rw [hsm]
      constructor
      · rintro ⟨⟨h1, h2, h3⟩, h4⟩
        have hp : ∀ x ∈ t, x ∉ pre := fun x hx => by rw [← hproc]; exact (h2 x hx).2
        exact ⟨h1, hp, (hsame.connected hp).1 ⟨fun x hx => (h2 x hx).1, h3⟩, h4⟩
      · rintro ⟨h1, h2, h3, h4⟩
        have := (hsame.connected h2).2 h3
        exact ⟨⟨h1, fun x hx => ⟨this.nodes x hx, by rw [hproc]; exact h2 x hx⟩, this.connected⟩, h4⟩
    have hlay1 : ∃ l : List α, l.Sublist layers ∧ l.length = nl ∧ ∀ x, (Spec.shown ops1).layer x ↔ x ∈ l := by
      obtain ⟨l, h1, h2, h3⟩ := hlay
      exact ⟨l, h1, h2, fun x => (hsame.layer x).trans (h3 x)⟩
    obtain ⟨d', e2, hd'⟩ := addLoop (f := countSet ⟨canon, str, match?, allowed⟩ T ord (afterP [c] false 0 true ops1))
      (a := fun s q => if q.2 ∈ ol ∧ q.1 ∈ s ∧ Role c allowed T.nets (Spec.shown ops) s q.1 q.2 then 1 else 0)
      (K := fun q => (Spec.shown ops).node q.1 ∧ q.2 ∈ ol) sets d (fun q hq => by rw [hd, if_pos hq]; rfl) (by
        intro s hs d hd
        obtain ⟨h1, h2, h3, h4, h5⟩ := (hsm' s).1 hs
        obtain ⟨m, k, iso, d', e1, e2, h6⟩ := S.countSet hok hlay1 ((hsame.connected h2).2 h3) h4 (h5.trans hn)
          (d := d) (fun q hq => hd q ⟨(hsame.node _).1 hq.1, hq.2⟩)
        refine ⟨d', by unfold countSet; rw [e1]; exact e2, fun q => ?_⟩
        rw [h6]
        simp only [hsame.role h2])
    obtain ⟨ops2, e3, hok2, hn2, hl2, hk2⟩ := clear_spec hok hv1 hl1
    refine ⟨(afterP [c] false 0 true ops2, sadd processed v, d'), ?_, ops2, rfl, hok2, ⟨fun y => (hn2 y).trans (hsame.node y),
      fun y => (hl2 y).trans (hsame.layer y), fun y i j hy => ?_⟩, fun x => ?_, fun q => ?_⟩
    · unfold countAllStep
      dsimp only
      rw [e1]
      dsimp only
      rw [e2]
      dsimp only
      rw [e3]
    · rw [hk2 y i j ((hsame.layer y).2 hy), hsame.link y i j hy]
      simp only [List.mem_append, List.mem_singleton]
      tauto
    · dsimp only
      rw [mem_sadd, hproc]
      simp
    · dsimp only
      rw [hd', hd]
      by_cases hq : (Spec.shown ops).node q.1 ∧ q.2 ∈ ol
      · rw [if_pos hq, if_pos hq, sum_indicator hsn]
        simp only [Option.map_some, Option.some.injEq]
        rw [← Set.ncard_union_eq ?_ ?_ ?_]
        · congr 1
          ext s
          simp only [Counted, Set.mem_union, Set.mem_inter_iff, Set.mem_ofPred_eq, hsm', List.mem_append, List.mem_singleton]
          constructor
          · rintro (⟨h1, x, h2, h3⟩ | ⟨⟨h1, h2, h3, h4, h5⟩, h6, h7, h8⟩)
            · exact ⟨h1, x, Or.inl h2, h3⟩
            · exact ⟨⟨h7, h4, h5, h3, h8⟩, v, Or.inr rfl, h1⟩
          · rintro ⟨h1, x, h2 | rfl, h3⟩
            · exact Or.inl ⟨h1, x, h2, h3⟩
            · by_cases h4 : ∃ y ∈ pre, y ∈ s
              · exact Or.inl ⟨h1, h4⟩
              · refine Or.inr ⟨⟨h3, fun y hy hy' => h4 ⟨y, hy', hy⟩, h1.2.2.2.1, h1.2.1, h1.2.2.1⟩, hq.2, h1.1, h1.2.2.2.2⟩
        · rw [Set.disjoint_left]
          rintro s ⟨-, x, h1, h2⟩ ⟨h3, -⟩
          exact ((hsm' s).1 h3).2.1 x h2 h1
        · refine (finite_counted (ops := ops) (c := c) (fun _ => True)).subset ?_
          rintro s ⟨h, -⟩
          exact ⟨h.2.2.2.1, trivial⟩
        · refine (finite_counted (ops := ops) (c := c) (fun _ => True)).subset ?_
          rintro s ⟨h, -⟩
          exact ⟨((hsm' s).1 h).2.2.1, trivial⟩
      · rw [if_neg hq, if_neg hq]; rfl)
  obtain ⟨p, processed, d⟩ := st
  dsimp only at h1 h4 h5
  subst h1
  refine ⟨ops', d, ?_, h3.node, h3.layer, fun y i j hy h => ?_, fun q => ?_⟩
  · unfold orbitCountsAll
    rw [show forE _ _ _ = .ok _ from e]
  · have := (h3.link y i j hy).1 h
    exact this.2.1 ((hmn i).2 (link_node this.1).2.1)
  · rw [h5]
    by_cases hq : (Spec.shown ops).node q.1 ∧ q.2 ∈ ol
    · rw [if_pos hq, if_pos hq]
      congr 2
      ext s
      constructor
      · exact fun h => h.1
      · exact fun h => ⟨h, q.1, (hmn _).2 hq.1, h.1⟩
    · rw [if_neg hq, if_neg hq]

end Pymnet
