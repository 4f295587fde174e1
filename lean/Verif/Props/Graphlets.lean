import Verif.Proofs.Orbits
import Verif.Proofs.Partitions
import Verif.Props.Isom

/-! Properties C46, C47, C66–C68: automorphism orbits and the enumerations of the graphlet analysis. -/

set_option linter.unusedSectionVars false
set_option linter.unusedSimpArgs false

namespace Pymnet

open Py MPlex

variable {α W : Type} [DecidableEq α] [DecidableEq W]

/-! ### C46 -/

section Orbits

variable [LinearOrder α]

/-- A dictionary as a map: names without entry do not change. -/
def Spec.mapOf (g : Dict α α) (x : α) : α := (Dict.get g x).getD x

/-- **C46.** For every list of generators (each a permutation of the nodes, the fixed ones may be left out), in any
order and with the nodes in any order, the result assigns every node the least node that a composition of the generators
takes it to; two nodes get the same value exactly if a composition of generators takes one to the other. -/
theorem C46_generators {nodes : List α} (hn : nodes.Nodup) {gens : List (Dict α α)}
    (hg : ∀ g ∈ gens, Set.BijOn (Spec.mapOf g) {x | x ∈ nodes} {x | x ∈ nodes}) :
    ∃ out, automorphismOrbits nodes gens = .ok out ∧ Dict.keys out = nodes ∧
      (∀ x ∈ nodes, ∃ o, Dict.get out x = some o ∧
        (∃ qs : List (Dict α α), (∀ q ∈ qs, q ∈ gens) ∧ o = qs.foldr Spec.mapOf x) ∧
        ∀ qs : List (Dict α α), (∀ q ∈ qs, q ∈ gens) → o ≤ qs.foldr Spec.mapOf x) ∧
      ∀ x ∈ nodes, ∀ y ∈ nodes, (Dict.get out x = Dict.get out y ↔
        ∃ qs : List (Dict α α), (∀ q ∈ qs, q ∈ gens) ∧ y = qs.foldr Spec.mapOf x) := by
  have hit : ∀ g : Dict α α, ∀ u v, (u, v) ∈ items g ↔ u ∈ Dict.keys g ∧ v = Spec.mapOf g u := fun g u v => mem_items
  have hflat : ∀ u v, (u, v) ∈ (gens.map items).flatten ↔ ∃ g ∈ gens, u ∈ Dict.keys g ∧ v = Spec.mapOf g u := by
    intro u v
    simp only [List.mem_flatten, List.mem_map, exists_exists_and_eq_and, hit]
  have hself : ∀ g : Dict α α, ∀ x, x ∉ Dict.keys g → Spec.mapOf g x = x := by
    intro g x hx
    rw [Spec.mapOf, Dict.get_eq_none.2 hx]; rfl
  have hreach : ∀ x y, Reach (gens.map items).flatten x y ↔
      ∃ qs : List (Dict α α), (∀ q ∈ qs, q ∈ gens) ∧ y = qs.foldr Spec.mapOf x := by
    intro x y
    constructor
    · intro h
      induction h with
      | refl => exact ⟨[], by simp, rfl⟩
      | tail _ h ih =>
        obtain ⟨qs, h1, h2⟩ := ih
        obtain ⟨g, hg, -, hv⟩ := (hflat _ _).1 h
        exact ⟨g :: qs, by simpa [hg] using h1, by rw [List.foldr_cons, ← h2]; exact hv⟩
    · rintro ⟨qs, h1, rfl⟩
      induction qs with
      | nil => exact .refl
      | cons q qs ih =>
        have ih' := ih fun q hq => h1 q (by simp [hq])
        rw [List.foldr_cons]
        by_cases hk : qs.foldr Spec.mapOf x ∈ Dict.keys q
        · exact ih'.tail ((hflat _ _).2 ⟨q, h1 q (by simp), hk, rfl⟩)
        · rw [hself q _ hk]; exact ih'
  obtain ⟨d, out, e1, e2, e3, e4, e5⟩ := orbits_core hn (gens := gens.map items) (by
    rintro ⟨u, v⟩ hp hu
    obtain ⟨g, hgg, hk, hv⟩ := (hflat u v).1 hp
    refine ⟨_, hg g hgg, hv.symm, fun x hx => ?_⟩
    by_cases hk : x ∈ Dict.keys g
    · exact .inr ((hflat _ _).2 ⟨g, hgg, hk, rfl⟩)
    · exact .inl (hself g x hk))
  refine ⟨out, ?_, e3, fun x hx => ?_, fun x hx y hy => (e5 x hx y hy).trans (hreach x y)⟩
  · unfold automorphismOrbits; rw [e1]; exact e2
  · obtain ⟨o, h1, h2, h3⟩ := e4 x hx
    exact ⟨o, h1, (hreach _ _).1 h2, fun qs hq => h3 _ ((hreach _ _).2 ⟨qs, hq, rfl⟩)⟩

/-- a rotation of four nodes and an exchange of two others -/
example : automorphismOrbits [5, 3, 1, 4, 2, 6] [[(1, 2), (2, 3), (3, 4), (4, 1)], [(5, 6), (6, 5)]] =
    .ok [(5, 5), (3, 1), (1, 1), (4, 1), (2, 1), (6, 5)] := by decide

example : ∀ g ∈ [[(1, 2), (2, 3), (3, 4), (4, 1)], [(5, 6), (6, 5)]],
    Set.BijOn (Spec.mapOf g) {x | x ∈ [5, 3, 1, 4, 2, 6]} {x | x ∈ [5, 3, 1, 4, 2, 6]} := by
  intro g hg
  have h1 : ∀ x ∈ [5, 3, 1, 4, 2, 6], Spec.mapOf g x ∈ [5, 3, 1, 4, 2, 6] := by revert g; decide
  have h2 : ∀ x ∈ [5, 3, 1, 4, 2, 6], ∀ y ∈ [5, 3, 1, 4, 2, 6], Spec.mapOf g x = Spec.mapOf g y → x = y := by
    revert g; decide
  have h3 : ∀ y ∈ [5, 3, 1, 4, 2, 6], ∃ x ∈ [5, 3, 1, 4, 2, 6], Spec.mapOf g x = y := by revert g; decide
  exact ⟨fun x hx => h1 x hx, fun x hx y hy h => h2 x hx y hy h, fun y hy => h3 y hy⟩

variable {m : MNet α W} {d : Nat} {z : W} {al : Bool} {S : Nat → α → Prop} {NL : List α → Prop}
  {R : List α → List α → W} {allowed : Option (List Nat)}

/-- **C46.** The orbits of a network: every node gets the least node that an automorphism of the network takes it to, and
two nodes get the same value exactly if an automorphism takes one to the other. -/
theorem C46_orbits (h : Spec.Looks m d z false al S NL R) (hd : 1 ≤ d) (hal : ∀ a ∈ Spec.mayChange d allowed, a ≤ d)
    {gens : CGraph → List (Dict Nat Nat)} (hG : Spec.FindsGens gens)
    {nodes : List α} (hn : nodes.Nodup) (hm : ∀ x, x ∈ nodes ↔ S 0 x) :
    let Auto := Spec.Isomorphism d (Spec.mayChange d allowed) S NL (fun u v => R u v ≠ z) S NL (fun u v => R u v ≠ z)
    ∃ out, networkOrbits gens m.view allowed nodes = .ok out ∧ Dict.keys out = nodes ∧
      (∀ x, S 0 x → ∃ o, Dict.get out x = some o ∧ (∃ f, Auto f ∧ f 0 x = o) ∧ ∀ f, Auto f → o ≤ f 0 x) ∧
      ∀ x y, S 0 x → S 0 y → (Dict.get out x = Dict.get out y ↔ ∃ f, Auto f ∧ f 0 x = y) :=
  networkOrbits_core (looks_shows h) hd hal hG hn hm

/-- **C46**, multiplex networks. -/
theorem C46_multiplex [Zero W] [LawfulIntNames α] {cs : List (Coupling α W)} {aligned : Bool}
    {ops : List (POp α W)} (hU : Spec.Usable cs aligned ops) (hs : Spec.NoIntraSelf ops)
    (hal : aligned = true ∨ ∃ w, cs = [.categorical w]) (haa : ∀ a ∈ Spec.mayChange cs.length allowed, a ≤ cs.length)
    {gens : CGraph → List (Dict Nat Nat)} (hG : Spec.FindsGens gens)
    {nodes : List α} (hn : nodes.Nodup) (hm : ∀ x, x ∈ nodes ↔ Spec.Happened (Spec.NamesNodeP cs.length aligned x) ops) :
    let NM := Spec.HasNameP cs.length aligned ops
    let L := fun u v => Spec.weight cs false aligned ops u v ≠ 0
    let Auto := Spec.Isomorphism cs.length (Spec.mayChange cs.length allowed) NM (Spec.HasNodeLayer cs.length aligned ops) L
      NM (Spec.HasNodeLayer cs.length aligned ops) L
    ∃ out, networkOrbits gens (afterP cs false 0 aligned ops).view allowed nodes = .ok out ∧ Dict.keys out = nodes ∧
      (∀ x ∈ nodes, ∃ o, Dict.get out x = some o ∧ (∃ f, Auto f ∧ f 0 x = o) ∧ ∀ f, Auto f → o ≤ f 0 x) ∧
      ∀ x ∈ nodes, ∀ y ∈ nodes, (Dict.get out x = Dict.get out y ↔ ∃ f, Auto f ∧ f 0 x = y) := by
  have hm' : ∀ x, x ∈ nodes ↔ Spec.HasNameP cs.length aligned ops 0 x := by
    intro x; rw [hm]; unfold Spec.HasNameP; rw [if_pos rfl]
  obtain ⟨out, h1, h2, h3, h4⟩ := networkOrbits_core (plex_shows hU hs hal) (List.length_pos_iff.2 hU.some_aspect)
    haa hG hn hm'
  exact ⟨out, h1, h2, fun x hx => h3 x ((hm' x).1 hx), fun x hx y hy => h4 x y ((hm' x).1 hx) ((hm' y).1 hy)⟩

/-! ### C66 -/

/-- **C66.** The orbits of the node-layers of a network with one aspect: every node-layer gets the least node-layer (in the
order of tuples) that an automorphism takes it to; two get the same value exactly if an automorphism takes one to the
other. -/
theorem C66_orbits (h : Spec.Looks m 1 z false al S NL R) (hal : ∀ a ∈ Spec.mayChange 1 allowed, a ≤ 1)
    {gens : CGraph → List (Dict Nat Nat)} (hG : Spec.FindsGens gens)
    {nls : List (α ×ₗ α)} (hn : nls.Nodup) (hm : ∀ n l, toLex (n, l) ∈ nls ↔ NL [n, l]) :
    let Auto := Spec.Isomorphism 1 (Spec.mayChange 1 allowed) S NL (fun u v => R u v ≠ z) S NL (fun u v => R u v ≠ z)
    ∃ out, networkOrbitsNl gens m.view allowed nls = .ok out ∧ Dict.keys out = nls ∧
      (∀ n l, NL [n, l] → ∃ o, Dict.get out (toLex (n, l)) = some o ∧ (∃ f, Auto f ∧ toLex (f 0 n, f 1 l) = o) ∧
        ∀ f, Auto f → o ≤ toLex (f 0 n, f 1 l)) ∧
      ∀ n l n' l', NL [n, l] → NL [n', l'] → (Dict.get out (toLex (n, l)) = Dict.get out (toLex (n', l')) ↔
        ∃ f, Auto f ∧ f 0 n = n' ∧ f 1 l = l') :=
  networkOrbitsNl_core (looks_shows h) hal hG hn hm

/-- **C66**, multiplex networks. -/
theorem C66_multiplex [Zero W] [LawfulIntNames α] {c : Coupling α W} {aligned : Bool}
    {ops : List (POp α W)} (hU : Spec.Usable [c] aligned ops) (hs : Spec.NoIntraSelf ops)
    (hal : aligned = true ∨ ∃ w, c = .categorical w) (haa : ∀ a ∈ Spec.mayChange 1 allowed, a ≤ 1)
    {gens : CGraph → List (Dict Nat Nat)} (hG : Spec.FindsGens gens)
    {nls : List (α ×ₗ α)} (hn : nls.Nodup) (hm : ∀ n l, toLex (n, l) ∈ nls ↔ Spec.HasNodeLayer 1 aligned ops [n, l]) :
    let NM := Spec.HasNameP 1 aligned ops
    let NL := Spec.HasNodeLayer 1 aligned ops
    let L := fun u v => Spec.weight [c] false aligned ops u v ≠ 0
    let Auto := Spec.Isomorphism 1 (Spec.mayChange 1 allowed) NM NL L NM NL L
    ∃ out, networkOrbitsNl gens (afterP [c] false 0 aligned ops).view allowed nls = .ok out ∧ Dict.keys out = nls ∧
      (∀ n l, NL [n, l] → ∃ o, Dict.get out (toLex (n, l)) = some o ∧ (∃ f, Auto f ∧ toLex (f 0 n, f 1 l) = o) ∧
        ∀ f, Auto f → o ≤ toLex (f 0 n, f 1 l)) ∧
      ∀ n l n' l', NL [n, l] → NL [n', l'] → (Dict.get out (toLex (n, l)) = Dict.get out (toLex (n', l')) ↔
        ∃ f, Auto f ∧ f 0 n = n' ∧ f 1 l = l') :=
  networkOrbitsNl_core (plex_shows hU hs (by simpa using hal)) haa hG hn hm

/-- the hypotheses are met by this network -/
example : ∃ (nodes : List Nat), nodes.Nodup ∧ (∀ x, x ∈ nodes ↔ Spec.HasName 1 true isoOps 0 x) ∧ nodes = [1, 2, 3] := by
  obtain ⟨l, h1, h2, h3⟩ := (network_looks 1 0 false true isoOps).layers 0 (by omega)
  have : l = [1, 2, 3] := by
    have h4 : (after 1 0 false true isoOps).getLayers 0 = .ok [1, 2, 3] := by decide
    rw [h4] at h1; cases h1; rfl
  exact ⟨l, h2, h3, this⟩

end Orbits

/-! ### C47 -/

/-- **C47.** `layer_combinations` yields every non-empty set of layers exactly once. -/
theorem C47_layer_combinations {layers : List α} (hn : layers.Nodup) :
    (∀ c ∈ layerCombinations layers, c.Nodup) ∧ ((layerCombinations layers).map List.toFinset).Nodup ∧
      ∀ P : Finset α, P ∈ (layerCombinations layers).map List.toFinset ↔ P.Nonempty ∧ ∀ x ∈ P, x ∈ layers := by
  obtain ⟨h1, h2, h3⟩ := layerCombinations_spec hn
  refine ⟨h2, h1, fun P => (h3 P).trans (and_congr_right fun _ => ?_)⟩
  exact ⟨fun h x hx => by simpa using h hx, fun h x hx => by simpa using h x hx⟩

example : layerCombinations [1, 2, 3] = [[1], [2], [3], [1, 2], [1, 3], [2, 3], [1, 2, 3]] := by decide

/-- **C47.** In whatever order sets are iterated, `partitions(s,r)` yields every partition of the elements of `s` into
blocks of `r` elements, each exactly once (as a set of sets), and no block lists an element twice. -/
theorem C47_partitions {ord : List α → List α} (ho : ∀ l, (ord l).Perm l) {r : Nat} (hr : 1 ≤ r) {s : List α}
    (hd : r ∣ s.toFinset.card) :
    ∃ ps, partitions ord s r = .ok ps ∧ (∀ p ∈ ps, p.flatten.Nodup ∧ ∀ b ∈ p, b.length = r) ∧
      (ps.map Spec.blocks).Nodup ∧
      ∀ P, P ∈ ps.map Spec.blocks ↔ Spec.Partition P s.toFinset ∧ ∀ B ∈ P, B.card = r := by
  obtain ⟨ps, h1, h2⟩ := partitions_spec ho hr (Nat.mod_eq_zero_of_dvd hd)
  exact ⟨ps, h1, h2.shape, h2.nodup, h2.all⟩

/-- **C47.** Otherwise it raises: `ZeroDivisionError` for `r = 0`, `AssertionError` if `r` does not divide the number of
elements. -/
theorem C47_partitions_raises (ord : List α → List α) (r : Nat) (s : List α) :
    (r = 0 → partitions ord s r = .error .zeroDivisionError) ∧
    (1 ≤ r → ¬ r ∣ s.toFinset.card → partitions ord s r = .error .assertionError) :=
  ⟨partitions_error.1, fun h h' => partitions_error.2 h fun e => h' (Nat.dvd_of_mod_eq_zero e)⟩

example : partitions id [1, 2, 3, 4] 2 = .ok [[[1, 2], [3, 4]], [[1, 3], [2, 4]], [[1, 4], [2, 3]]] := by decide

/-! ### C67 -/

/-- **C67, where the name `xrange` is defined (Python 2).** `partitions_with_remainder(s,r)` yields every partition of the
elements of `s` in which at most one block has a size other than `r`, each exactly once. -/
theorem C67_partitions_with_remainder_partial {ord : List α → List α} (ho : ∀ l, (ord l).Perm l) {r : Nat} (hr : 1 ≤ r)
    (s : List α) :
    ∃ ps, partitionsWithRemainder true ord s r = .ok ps ∧ (∀ p ∈ ps, p.flatten.Nodup) ∧ (ps.map Spec.blocks).Nodup ∧
      ∀ P, P ∈ ps.map Spec.blocks ↔
        Spec.Partition P s.toFinset ∧ ∀ B ∈ P, ∀ C ∈ P, B.card ≠ r → C.card ≠ r → B = C :=
  partitionsWithRemainder_spec ho hr s

/-- **C67 is false in Python 3**: the call always raises `NameError`. -/
theorem C67_false (ord : List α → List α) (s : List α) (r : Nat) :
    partitionsWithRemainder false ord s r = .error .nameError := rfl

example : partitionsWithRemainder true id [1, 2, 3] 2 =
    .ok [[[1, 2, 3]], [[2, 3], [1]], [[1, 3], [2]], [[1, 2], [3]]] := by decide

/-! ### C68 -/

/-- **C68.** `list_orbits` lists, under each number of nodes, every orbit (network index and orbit value) that occurs
among the entries with this number of nodes, exactly once; numbers of nodes without entries do not occur. -/
theorem C68_list_orbits (auts : Dict (Nat × Nat × α) α) :
    (Dict.keys (listOrbits auts)).Nodup ∧
    ∀ n, match Dict.get (listOrbits auts) n with
      | none => ∀ i x o, ((n, i, x), o) ∉ auts
      | some l => l.Nodup ∧ l ≠ [] ∧ ∀ t, t ∈ l ↔ ∃ i x o, ((n, i, x), o) ∈ auts ∧ t = (n, i, o) :=
  listOrbits_spec auts

example : listOrbits [((2, 0, 1), 1), ((2, 0, 2), 1), ((3, 0, 1), 1), ((3, 0, 2), 2), ((3, 0, 3), 1)] =
    [(2, [(2, 0, 1)]), (3, [(3, 0, 1), (3, 0, 2)])] := by decide

end Pymnet
