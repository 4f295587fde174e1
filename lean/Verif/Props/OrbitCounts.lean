import Verif.Proofs.OrbitCount
import Verif.Props.Isom
import Verif.Props.Plex
import Mathlib.Data.Finset.Sort

/-!
C90-C94: the sets of nodes touching a node, the orbits of the graphlets and their numbers, and the counts of the orbits.
-/

set_option linter.unusedSectionVars false

namespace Pymnet

open Py MPlex

variable {α W β σ : Type} [DecidableEq α] [DecidableEq W] [Zero W] [LawfulIntNames α] [LinearOrder α] [DecidableEq σ] [One W]
  {canon : CGraph → β} {str : List (List α × Nat) × β → σ} {allowed : Option (List Nat)} {c : Coupling α W}
  {idx : Nat → α} {layers : List α} {nl : Option Nat} {n0 n : Nat} {T : Tables α W σ} {is : Dict (Orbit α) Nat}
  {match? : CGraph → CGraph → Option (Dict Nat Nat)} {gens : CGraph → List (Dict Nat Nat)} {ord : Finset α → List α}
  {ops : List (POp α W)} {ol : List (Orbit α)}

/-- A user's preparation of an orbit count: `nets, invs = graphlets(n0, layers, nl, couplings=c)`,
`auts = automorphism_orbits(nets)`, `is = orbit_numbers(n0, nets, auts)`, `ol = ordered_orbit_list(is)` all returned, and
the things they use are as they should be: the graph library finds isomorphisms, canonical forms and automorphisms; `str`
distinguishes the invariants; sets of nodes are iterated in some order. -/
structure Spec.Prepared (canon : CGraph → β) (str : List (List α × Nat) × β → σ) (match? : CGraph → CGraph → Option (Dict Nat Nat))
    (gens : CGraph → List (Dict Nat Nat)) (allowed : Option (List Nat)) (c : Coupling α W) (idx : Nat → α) (layers : List α)
    (nl : Option Nat) (n0 : Nat) (ord : Finset α → List α) (T : Tables α W σ) (is : Dict (Orbit α) Nat) (ol : List (Orbit α)) :
    Prop where
  canonical : Spec.Canonical canon
  injective : Function.Injective str
  finds : Spec.FindsIso match?
  generators : Spec.FindsGens gens
  order : ∀ s, (ord s).Nodup ∧ ∀ x, x ∈ ord s ↔ x ∈ s
  aspects : ∀ a ∈ Spec.mayChange 1 allowed, a ≤ 1
  nodes : 0 ∈ Spec.mayChange 1 allowed
  coupling : Spec.GoodCoupling layers c
  names : Function.Injective idx
  one : (1 : W) ≠ 0
  made : graphlets canon str allowed [c] idx n0 layers nl = .ok (T.nets, T.invs)
  orbits : automorphismOrbitsAll gens allowed T.nets = .ok T.auts
  numbers : orbitNumbers n0 T.nets T.auts = .ok is
  listed : orderedOrbitList is = .ok (ol.map some)

/-- The network of a count: its layers are `nl` of the given ones (in the same order), and no link joins a node with itself
on a layer. -/
structure Spec.CountNet (layers : List α) (nl : Option Nat) (ops : List (POp α W)) : Prop where
  layer : ∃ l : List α, l.Sublist layers ∧ l.length = nl.getD layers.length ∧ ∀ x, (Spec.shown ops).layer x ↔ x ∈ l
  noself : Spec.NoIntraSelf ops

theorem Spec.CountNet.netOk (h : Spec.CountNet layers nl ops) (hc : Spec.GoodCoupling layers c) : NetOk layers c ops :=
  ⟨hc, fun x hx => by obtain ⟨l, h1, -, h3⟩ := h.layer; exact h1.subset ((h3 x).1 hx), h.noself⟩

theorem Spec.Prepared.genOk (P : Spec.Prepared canon str match? gens allowed c idx layers nl n0 ord T is ol) :
    GenOk canon str allowed c idx layers :=
  ⟨P.canonical, P.injective, P.aspects, P.coupling, P.names, P.one⟩

theorem Spec.Prepared.setup (P : Spec.Prepared canon str match? gens allowed c idx layers nl n0 ord T is ol) :
    Setup canon str match? allowed c idx layers (nl.getD layers.length) n0 ord T ol ∧ Num is ∧ Dict.keys is = ol := by
  obtain ⟨nets, invs, e, h⟩ := graphlets_main P.genOk n0 nl
  rw [P.made] at e
  cases e
  obtain ⟨auts, e1, h1⟩ := automorphismOrbitsAll_spec P.genOk P.generators h
  rw [P.orbits] at e1
  cases e1
  obtain ⟨is', e2, h2, h3⟩ := orbitNumbers_spec h h1 (le_max_left n0 2)
  rw [P.numbers] at e2
  cases e2
  have e3 := P.listed
  rw [orderedOrbitList_spec h2] at e3
  have hol : Dict.keys is = ol := List.map_injective_iff.2 (Option.some_injective _) (Except.ok.inj e3)
  exact ⟨⟨P.genOk, P.nodes, P.finds, P.order, h, h1, fun q => by rw [← hol]; exact h3 q⟩, h2, hol⟩

/-! ### C90 -/

/-- **C90.** `touching_orbit_nodes(net, node, n)` returns the sets of 2 to `n` nodes that contain the node and are connected
by links, each once. -/
theorem C90_touching (hord : ∀ s : Finset α, (ord s).Nodup ∧ ∀ x, x ∈ ord s ↔ x ∈ s) (hc : Spec.GoodCoupling layers c)
    (hnet : Spec.CountNet layers nl ops) {v : α} (hv : (Spec.shown ops).node v) (n : Nat) :
    ∃ sets, touchingOrbitNodes ord (afterP [c] false 0 true ops).view v n = .ok sets ∧ sets.Nodup ∧
      ∀ s, s ∈ sets ↔ v ∈ s ∧ 2 ≤ s.card ∧ s.card ≤ n ∧ Spec.ConnectedSet (Spec.shown ops) s := by
  obtain ⟨sets, e, h1, h2⟩ := touching_spec (hnet.netOk hc) (fun s => (hord s).2) hv n
  refine ⟨sets, e, h1, fun s => ?_⟩
  rw [h2, conn_connected]
  tauto

/-! ### C94 -/

theorem automorphic_iff (h0 : ∃ i, (Spec.shown ops).node i) (h1 : ∃ x, (Spec.shown ops).layer x) {x y : α} :
    Spec.Automorphic c allowed ops x y ↔
      ∃ f0 f1, MIso (cplRel c) (Spec.mayChange 1 allowed) (Spec.shown ops) (Spec.shown ops) f0 f1 ∧ f0 x = y := by
  constructor
  · rintro ⟨f, hf, e⟩
    exact ⟨f 0, f 1, (iso_shown h0 h1 f).1 hf, e⟩
  · rintro ⟨f0, f1, hf, e⟩
    exact ⟨fun a => if a = 0 then f0 else f1, (iso_shown h0 h1 _).2 hf, e⟩

theorem stored_layer (ok : GenOk canon str allowed c idx layers) {N k m k' : Nat} {nets : Dict Nat (List (MPlex α W))}
    {invs : Dict σ (Nat × Nat)} (h : NInv canon str allowed c idx k layers N (nets, invs))
    (hs : Stored nets m k' (afterP [c] false 0 true ops)) : ∃ x, (Spec.shown ops).layer x := by
  obtain ⟨ops1, e1, hg⟩ := h.gen m k' _ hs
  rw [shown_congr e1]
  have hm : 2 ≤ m := by
    obtain ⟨l, hl, -⟩ := hs
    exact ((h.keys m).1 (by rw [hl]; rfl)).1
  have a0 := (hg.nodes (idx 0)).2 ⟨0, by omega, rfl⟩
  have a1 := (hg.nodes (idx 1)).2 ⟨1, by omega, rfl⟩
  have := hg.connected (idx 0) (idx 1) a0 a1
  rcases Relation.ReflTransGen.cases_head this with h | ⟨b, ⟨-, -, x, hx, -⟩, -⟩
  · exact absurd (ok.idx h) (by decide)
  · exact ⟨x, hx⟩

/-- **C94, orbits.** `automorphism_orbits` of the graphlets returns. Two nodes of a graphlet get the same orbit iff an
automorphism takes one to the other; an orbit is named after its least node. -/
theorem C94_orbits (hcanon : Spec.Canonical canon) (hstr : Function.Injective str) (hgens : Spec.FindsGens gens)
    (hal : ∀ a ∈ Spec.mayChange 1 allowed, a ≤ 1) (hcpl : Spec.GoodCoupling layers c) (hidx : Function.Injective idx)
    (hone : (1 : W) ≠ 0) {nets : Dict Nat (List (MPlex α W))} {inv : Dict σ (Nat × Nat)}
    (hret : graphlets canon str allowed [c] idx n0 layers nl = .ok (nets, inv)) :
    ∃ auts, automorphismOrbitsAll gens allowed nets = .ok auts ∧
      ∀ m l (k : Nat) ops, Dict.get nets m = some l → l[k]? = some (afterP [c] false 0 true ops) →
        ∀ x, (Spec.shown ops).node x →
          (∃ o, Dict.get auts (m, k, x) = some o ∧ Spec.Automorphic c allowed ops x o ∧
            ∀ y, Spec.Automorphic c allowed ops x y → o ≤ y) ∧
          ∀ y, (Spec.shown ops).node y →
            (Dict.get auts (m, k, x) = Dict.get auts (m, k, y) ↔ Spec.Automorphic c allowed ops x y) := by
  have ok : GenOk canon str allowed c idx layers := ⟨hcanon, hstr, hal, hcpl, hidx, hone⟩
  obtain ⟨nets', invs', e, h⟩ := graphlets_main ok n0 nl
  rw [hret] at e
  cases e
  obtain ⟨auts, e1, h1⟩ := automorphismOrbitsAll_spec ok hgens h
  refine ⟨auts, e1, fun m l k ops hl hk x hx => ?_⟩
  have hst : Stored nets m k (afterP [c] false 0 true ops) := ⟨l, hl, hk⟩
  have hiff := fun x y => automorphic_iff (c := c) (allowed := allowed) (x := x) (y := y) ⟨_, hx⟩ (stored_layer ok h hst)
  refine ⟨?_, fun y hy => ?_⟩
  · obtain ⟨o, h2, h3, h4⟩ := h1.val m k ops hst x hx
    refine ⟨o, h2, (hiff _ _).2 h3, fun y hy => ?_⟩
    obtain ⟨f0, f1, hf, rfl⟩ := (hiff _ _).1 hy
    exact h4 f0 f1 hf
  · rw [h1.eq m k ops hst x y hx hy, hiff]

/-- **C94, numbers.** `orbit_numbers(n, …)` and `ordered_orbit_list` return; the list has, each once, the orbits of the nodes
of the graphlets with at most `n` nodes, and the number of an orbit is its position in the list. -/
theorem C94_numbers (hcanon : Spec.Canonical canon) (hstr : Function.Injective str) (hgens : Spec.FindsGens gens)
    (hal : ∀ a ∈ Spec.mayChange 1 allowed, a ≤ 1) (hcpl : Spec.GoodCoupling layers c) (hidx : Function.Injective idx)
    (hone : (1 : W) ≠ 0) {nets : Dict Nat (List (MPlex α W))} {inv : Dict σ (Nat × Nat)} {auts : Dict (Orbit α) α}
    (hret : graphlets canon str allowed [c] idx n0 layers nl = .ok (nets, inv))
    (hauts : automorphismOrbitsAll gens allowed nets = .ok auts) (hn : n ≤ n0) :
    ∃ (is : Dict (Orbit α) Nat) (ol : List (Orbit α)), orbitNumbers n nets auts = .ok is ∧ orderedOrbitList is = .ok (ol.map some) ∧ ol.Nodup ∧
      (∀ q i, Dict.get is q = some i ↔ ol[i]? = some q) ∧
      ∀ m k o, (m, k, o) ∈ ol ↔ m ≤ n ∧ ∃ l ops x, Dict.get nets m = some l ∧ l[k]? = some (afterP [c] false 0 true ops) ∧
        (Spec.shown ops).node x ∧ Dict.get auts (m, k, x) = some o := by
  have ok : GenOk canon str allowed c idx layers := ⟨hcanon, hstr, hal, hcpl, hidx, hone⟩
  obtain ⟨nets', invs', e, h⟩ := graphlets_main ok n0 nl
  rw [hret] at e
  cases e
  obtain ⟨auts', e1, h1⟩ := automorphismOrbitsAll_spec ok hgens h
  rw [hauts] at e1
  cases e1
  obtain ⟨is, e2, h2, h3⟩ := orbitNumbers_spec h h1 (hn.trans (le_max_left n0 2))
  refine ⟨is, Dict.keys is, e2, orderedOrbitList_spec h2, h2.1, fun q i => h2.2 i q, fun m k o => ?_⟩
  rw [h3]
  constructor
  · rintro ⟨h4, ops, x, ⟨l, h5, h6⟩, h7, h8⟩
    exact ⟨h4, l, ops, x, h5, h6, h7, h8⟩
  · rintro ⟨h4, l, ops, x, h5, h6, h7, h8⟩
    exact ⟨h4, ops, x, ⟨l, h5, h6⟩, h7, h8⟩

/-! ### C91, C92 -/

/-- Internal: the two ways of saying which role a node has. -/
theorem counted_eq {v : α} {m k N : Nat} {o : α} {l : List (MPlex α W)}
    {ops' : List (POp α W)} (hl : Dict.get T.nets m = some l) (hk : l[k]? = some (afterP [c] false 0 true ops'))
    (hlay : ∀ s : Finset α, Spec.ConnectedSet (Spec.shown ops) s → 2 ≤ s.card → ∃ x, (Spec.shown ops).layer x) :
    Counted c allowed T.nets N (Spec.shown ops) (v, (m, k, o)) =
      {s | v ∈ s ∧ 2 ≤ s.card ∧ s.card ≤ N ∧ Spec.ConnectedSet (Spec.shown ops) s ∧ Spec.PlaysRole c allowed ops s v ops' o} := by
  ext s
  unfold Counted Role
  refine and_congr_right fun h1 => and_congr_right fun h2 => and_congr_right fun h3 => and_congr_right fun h4 => ?_
  rw [playsRole_iff h4.nodes ⟨v, h1⟩ (hlay s h4 h2)]
  constructor
  · rintro ⟨ops1, ⟨l1, h5, h6⟩, h7⟩
    dsimp only at h5 h6 h7
    rw [hl] at h5; cases h5
    rw [hk] at h6
    rw [shown_congr (Option.some.inj h6)]
    exact h7
  · intro h
    exact ⟨ops', ⟨l, hl, hk⟩, h⟩

/-- **C91.** `orbit_counts(n, node, net, nets, orbits, auts, invs, orbit_list)` returns, and for each orbit of the list the
entry of the node is the number of connected sets of 2 to `n` nodes in which the node has the role of that orbit: the
sub-network of the set is isomorphic to the graphlet with the node in the place of the orbit. Other entries of `orbits` are
kept. -/
theorem C91_counts (P : Spec.Prepared canon str match? gens allowed c idx layers nl n0 ord T is ol)
    (hnet : Spec.CountNet layers nl ops) (hn : n ≤ n0) {v : α} (hv : (Spec.shown ops).node v) (d : Dict (α × Orbit α) Nat) :
    ∃ d', orbitCounts ⟨canon, str, match?, allowed⟩ T ord n v (afterP [c] false 0 true ops) d ol = .ok d' ∧
      (∀ m k o l ops', (m, k, o) ∈ ol → Dict.get T.nets m = some l → l[k]? = some (afterP [c] false 0 true ops') →
        Dict.get d' (v, (m, k, o)) = some (Spec.roleCount c allowed n ops v ops' o)) ∧
      ∀ q, ¬ (q.1 = v ∧ q.2 ∈ ol) → Dict.get d' q = Dict.get d q := by
  obtain ⟨S, -, -⟩ := P.setup
  obtain ⟨d', e, h1, h2⟩ := orbitCounts_spec S (hnet.netOk P.coupling) hnet.layer hn hv d
  refine ⟨d', e, fun m k o l ops' hq hl hk => ?_, h2⟩
  rw [h1 _ hq]
  exact congrArg (fun s : Set (Finset α) => some s.ncard) (counted_eq (T := T) (v := v) (N := n) (o := o) hl hk fun s h1 h2 => (connected_layer h1 h2).2)

/-- **C92.** `orbit_counts_all(net, n, nets, invs, auts, orbit_list)` returns, and has for every node and every orbit of the
list the same count: the number of connected sets of 2 to `n` nodes in which the node has the role of the orbit. It has no
other entries. -/
theorem C92_all (P : Spec.Prepared canon str match? gens allowed c idx layers nl n0 ord T is ol)
    (hnet : Spec.CountNet layers nl ops) (hn : n ≤ n0) :
    ∃ p d, orbitCountsAll ⟨canon, str, match?, allowed⟩ T ord n (afterP [c] false 0 true ops) ol = .ok (p, d) ∧
      (∀ v m k o l ops', (Spec.shown ops).node v → (m, k, o) ∈ ol → Dict.get T.nets m = some l →
        l[k]? = some (afterP [c] false 0 true ops') →
        Dict.get d (v, (m, k, o)) = some (Spec.roleCount c allowed n ops v ops' o)) ∧
      ∀ q, ¬ ((Spec.shown ops).node q.1 ∧ q.2 ∈ ol) → Dict.get d q = none := by
  obtain ⟨S, -, -⟩ := P.setup
  obtain ⟨ops1, d, e, -, -, -, h⟩ := orbitCountsAll_spec S (hnet.netOk P.coupling) hnet.layer hn
  refine ⟨_, d, e, fun v m k o l ops' hv hq hl hk => ?_, fun q hq => ?_⟩
  · rw [h, if_pos ⟨hv, hq⟩]
    exact congrArg (fun s : Set (Finset α) => some s.ncard) (counted_eq (T := T) (v := v) (N := n) (o := o) hl hk fun s h1 h2 => (connected_layer h1 h2).2)
  · rw [h, if_neg hq]

/-- **C92, both ways agree.** The counts of `orbit_counts_all` are those of `orbit_counts` for each node. -/
theorem C92_agree (P : Spec.Prepared canon str match? gens allowed c idx layers nl n0 ord T is ol)
    (hnet : Spec.CountNet layers nl ops) (hn : n ≤ n0) {v : α} (hv : (Spec.shown ops).node v) :
    ∃ p d d', orbitCountsAll ⟨canon, str, match?, allowed⟩ T ord n (afterP [c] false 0 true ops) ol = .ok (p, d) ∧
      orbitCounts ⟨canon, str, match?, allowed⟩ T ord n v (afterP [c] false 0 true ops) [] ol = .ok d' ∧
      ∀ o, Dict.get d (v, o) = Dict.get d' (v, o) := by
  obtain ⟨p, d, e1, h1, h2⟩ := C92_all P hnet hn
  obtain ⟨d', e2, h3, h4⟩ := C91_counts P hnet hn hv []
  refine ⟨p, d, d', e1, e2, fun q => ?_⟩
  obtain ⟨m, k, o⟩ := q
  by_cases hq : (m, k, o) ∈ ol
  · obtain ⟨S, -, -⟩ := P.setup
    obtain ⟨-, ops1, x, ⟨l, hl, hk⟩, -⟩ := (S.ol _).1 hq
    rw [h1 v m k o l ops1 hv hq hl hk, h3 m k o l ops1 hq hl hk]
  · rw [h2 _ (fun h => hq h.2), h4 _ (fun h => hq h.2)]; rfl

/-! ### C93 -/

/-- **C93 is false of the code**: after `orbit_counts_all`, every link of the network it was called with reads 0, whatever
it was before. -/
theorem C93_false (P : Spec.Prepared canon str match? gens allowed c idx layers nl n0 ord T is ol)
    (hnet : Spec.CountNet layers nl ops) (hn : n ≤ n0) :
    ∃ p d, orbitCountsAll ⟨canon, str, match?, allowed⟩ T ord n (afterP [c] false 0 true ops) ol = .ok (p, d) ∧
      ∀ i j x, i ≠ j → (Spec.shown ops).layer x → p.view.readItem [i, j, x] = .ok (.weight 0) := by
  obtain ⟨S, -, -⟩ := P.setup
  obtain ⟨ops1, d, e, h1, h2, h3, -⟩ := orbitCountsAll_spec S (hnet.netOk P.coupling) hnet.layer hn
  refine ⟨_, d, e, fun i j x hij hx => ?_⟩
  have hl : Spec.HasLayer [c].length true ops1 (.ofList [x]) := by
    refine ⟨[x], rfl, rfl, fun k y hk => ?_⟩
    rcases k with - | k
    · cases hk; exact (h2 x).2 hx
    · simp at hk
  rw [(C18_read (cs := [c]) (by simp) false 0 true ops1 hl i j).1 [i, j, x] hij ⟨rfl, rfl, Or.inr ⟨i, j, [x], rfl, rfl, rfl⟩⟩]
  by_contra hne
  exact h3 x i j hx ⟨hij, fun h => hne (by rw [show Spec.readP [c].length false true ops1 [x] i j = 0 from h])⟩

/-- **C93, what remains true**: the nodes and the layers of the network stay. -/
theorem C93_partial (P : Spec.Prepared canon str match? gens allowed c idx layers nl n0 ord T is ol)
    (hnet : Spec.CountNet layers nl ops) (hn : n ≤ n0) :
    ∃ ops' d, orbitCountsAll ⟨canon, str, match?, allowed⟩ T ord n (afterP [c] false 0 true ops) ol =
        .ok (afterP [c] false 0 true ops', d) ∧
      (∀ x, (Spec.shown ops').node x ↔ (Spec.shown ops).node x) ∧ ∀ x, (Spec.shown ops').layer x ↔ (Spec.shown ops).layer x := by
  obtain ⟨S, -, -⟩ := P.setup
  obtain ⟨ops1, d, e, h1, h2, -, -⟩ := orbitCountsAll_spec S (hnet.netOk P.coupling) hnet.layer hn
  exact ⟨ops1, d, e, h1, h2⟩

/-! ### A preparation exists -/

open Classical in
/-- Every call of the preparation returns, for graphlets on the layers 7 and 8 up to any size. -/
theorem exists_prepared (n0 : Nat) : ∃ (canon : CGraph → (CGraph → Prop)) (match? : _) (gens : _) (T : _) (is : _) (ol : _),
    Spec.Prepared canon (id : List (List Int × Nat) × (CGraph → Prop) → _) match? gens none (.uncoupled none : Coupling Int Int)
      (fun k => (k : Int)) [7, 8] none n0 (fun s => s.sort (· ≤ ·)) T is ol := by
  obtain ⟨canon, hcanon⟩ := exists_canonical
  obtain ⟨match?, hm⟩ := exists_findsIso
  obtain ⟨gens, hg⟩ := exists_findsGens
  have hal : ∀ a ∈ Spec.mayChange 1 none, a ≤ 1 := by decide
  have hc : Spec.GoodCoupling [7, 8] (.uncoupled none : Coupling Int Int) := trivial
  have hi : Function.Injective (fun k : Nat => (k : Int)) := fun a b h => by simpa using h
  have hs : Function.Injective (id : List (List Int × Nat) × (CGraph → Prop) → _) := fun a b h => h
  have ok : GenOk canon (id : List (List Int × Nat) × (CGraph → Prop) → _) none (.uncoupled none : Coupling Int Int)
    (fun k => (k : Int)) [7, 8] := ⟨hcanon, hs, hal, hc, hi, by decide⟩
  obtain ⟨nets, invs, e, -⟩ := graphlets_main ok n0 none
  obtain ⟨auts, e1, -⟩ := C94_orbits (n0 := n0) (nl := none) hcanon hs hg hal hc hi (by decide) e
  obtain ⟨is, ol, e2, e3, -⟩ := C94_numbers (n0 := n0) (nl := none) hcanon hs hg hal hc hi (by decide) e e1 le_rfl
  exact ⟨canon, match?, gens, ⟨nets, invs, auts⟩, is, ol, hcanon, hs, hm, hg, fun s => ⟨Finset.sort_nodup _ _, by simp⟩, hal,
    by decide, hc, hi, by decide, e, e1, e2, e3⟩

/-- A network that can be counted: three nodes on a path, its two links on different layers. -/
def countSample : List (POp Int Int) := [.setItem [10, 11, 7] 5, .setItem [11, 12, 8] 3]

theorem countSample_net : Spec.CountNet [7, 8] none countSample ∧ (Spec.shown countSample).node 11 := by
  obtain ⟨s0, s1, -, -, s4⟩ := after_spec (cs := [(.uncoupled none : Coupling Int Int)]) (by simp) false 0 true countSample
  refine ⟨⟨⟨[7, 8], List.Sublist.refl _, rfl, fun x => ?_⟩, ?_⟩, ?_⟩
  · refine (s1 1 x (by omega)).symm.trans ?_
    rw [inSlice_getElem? (s := [7, 8]) (by decide +kernel)]
  · intro L i w h
    simp [countSample] at h
  · refine (s0 11).1 ?_
    rw [inSlice_getElem? (s := [10, 11, 12]) (by decide +kernel)]
    simp

open Classical in
/-- the hypotheses of C91, C92 and C93 are met: the counts of the middle node of the path, and the links afterwards -/
example : ∃ (B : Backend Int (CGraph → Prop) (List (List Int × Nat) × (CGraph → Prop))) (T : _) (ord : _) (ol : _) (p : _) (d : _) (d' : _),
    orbitCountsAll B T ord 3 (afterP [(.uncoupled none : Coupling Int Int)] false 0 true countSample) ol = .ok (p, d) ∧
    orbitCounts B T ord 3 11 (afterP [(.uncoupled none : Coupling Int Int)] false 0 true countSample) [] ol = .ok d' ∧
    (∀ o, Dict.get d (11, o) = Dict.get d' (11, o)) ∧
    p.view.readItem [10, 11, 7] = .ok (.weight 0) ∧
    (afterP [(.uncoupled none : Coupling Int Int)] false 0 true countSample).view.readItem [10, 11, 7] = .ok (.weight 5) := by
  obtain ⟨canon, match?, gens, T, is, ol, P⟩ := exists_prepared 3
  obtain ⟨p, d, d', e1, e2, h⟩ := C92_agree P countSample_net.1 le_rfl countSample_net.2
  obtain ⟨p', d'', e3, h3⟩ := C93_false P countSample_net.1 le_rfl
  rw [e1] at e3
  cases e3
  refine ⟨_, T, _, ol, p, d, d', e1, e2, h, h3 10 11 7 (by decide) ?_, by decide +kernel⟩
  obtain ⟨l, h1, h2, h3⟩ := countSample_net.1.layer
  obtain rfl : l = [7, 8] := h1.eq_of_length h2
  exact (h3 7).2 (by simp)

end Pymnet
