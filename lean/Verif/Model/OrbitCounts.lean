import Verif.Model.GraphletGen
import Mathlib.Data.Finset.Basic

/-!
Model of `/repo/pymnet/graphlets/graphlet_measures.py`: `orbit_counts_all` (8-88), `orbit_numbers` (90-118),
`ordered_orbit_list` (122-141), `orbit_counts` (146-182), `touching_orbit_nodes` (185-205), and of
`automorphism_orbits` (`graphlets.py` 89-124) for all networks together.

A `frozenset` of nodes is a `Finset`, iterated in an arbitrary order `ord`. Sets of `frozenset`s are lists without
repetition. The graph library (`gens`, `match?`, `canon`) and `str` are parameters, as in `Model/Isom` and
`Model/GraphletGen`. The dictionaries `auts` and `orbits` are `defaultdict`s without default factory: looking up a missing
key is a `KeyError`.
-/

namespace Pymnet

open Py

variable {α W β σ : Type} [DecidableEq α] [DecidableEq W] [Zero W] [IntNames α] [LinearOrder α] [DecidableEq σ]

/-- An orbit: number of nodes, index of the network, node. -/
abbrev Orbit (α : Type) := Nat × Nat × α

/-- `automorphism_orbits` (graphlets.py 89-124). -/
def automorphismOrbitsAll (gens : CGraph → List (Dict Nat Nat)) (allowed : Option (List Nat))
    (nets : Dict Nat (List (MPlex α W))) : Except Err (Dict (Orbit α) α) :=
  forE (fun auts k =>
    match Dict.get nets k with
    | none => .error .keyError
    | some l => forE (fun auts q =>
        match networkOrbits gens q.1.view allowed (q.1.slices.headD []) with
        | .error err => .error err
        | .ok d => .ok (d.foldl (fun a r => Dict.set a (k, q.2, r.1) r.2) auts)) l.zipIdx auts) (Dict.keys nets) []

/-- one node of the loop of `orbit_numbers` (graphlet_measures.py 113-116). -/
def numberNode (auts : Dict (Orbit α) α) (k j : Nat) (is : Dict (Orbit α) Nat) (node : α) : Except Err (Dict (Orbit α) Nat) :=
  match Dict.get auts (k, j, node) with
  | none => .error .keyError
  | some aut => if Dict.has is (k, j, aut) then .ok is else .ok (Dict.set is (k, j, aut) is.length)

/-- `orbit_numbers` (graphlet_measures.py 90-118). -/
def orbitNumbers (n : Nat) (nets : Dict Nat (List (MPlex α W))) (auts : Dict (Orbit α) α) : Except Err (Dict (Orbit α) Nat) :=
  forE (fun is k =>
    match Dict.get nets k with
    | none => .error .keyError
    | some l => forE (fun is q => forE (numberNode auts k q.2) (q.1.slices.headD []) is) l.zipIdx is)
    (List.range' 2 (n - 1)) []

/-- `ordered_orbit_list` (graphlet_measures.py 122-141); an index that is too large is an `IndexError`. -/
def orderedOrbitList (is : Dict (Orbit α) Nat) : Except Err (List (Option (Orbit α))) :=
  forE (fun l orbit =>
    match Dict.get is orbit with
    | none => .error .keyError
    | some i => if i < l.length then .ok (l.set i (some orbit)) else .error .indexError) (Dict.keys is)
    (List.replicate is.length none)

/-- the neighbours of one node on one layer, added to a set of nodes `p` (graphlet_measures.py 58-62; 196-200 with
`processed` empty). -/
def growLayer (v : View α W) (processed : List α) (p : Finset α) (node : α) (c : List (Finset α)) (layer : α) :
    Except Err (List (Finset α)) :=
  match v.iterTotal [node, layer] none with
  | .error e => .error e
  | .ok ns => forE (fun c nb =>
      match nb.head? with
      | none => .error .indexError
      | some x => if x ∈ p ∨ x ∈ processed then .ok c else .ok (sadd c (insert x p))) ns c

/-- one round of growth of the sets `ps` (graphlet_measures.py 55-62, 193-200). -/
def growSets (ord : Finset α → List α) (v : View α W) (processed layers : List α) (ps : List (Finset α)) (c : List (Finset α)) :
    Except Err (List (Finset α)) :=
  forE (fun c p => forE (fun c node => forE (growLayer v processed p node) layers c) (ord p) c) ps c

/-- one round of `touching_orbit_nodes` (graphlet_measures.py 193-203); the state is `set_p`, `set_c`, `node_sets`. -/
def touchRound (ord : Finset α → List α) (v : View α W) (layers : List α)
    (st : List (Finset α) × List (Finset α) × List (Finset α)) (_ : Nat) :
    Except Err (List (Finset α) × List (Finset α) × List (Finset α)) :=
  match growSets ord v [] layers st.1 st.2.1 with
  | .error e => .error e
  | .ok c => .ok (c, c, c.foldl sadd st.2.2)

/-- `touching_orbit_nodes` (graphlet_measures.py 185-205). -/
def touchingOrbitNodes (ord : Finset α → List α) (v : View α W) (node0 : α) (n : Nat) : Except Err (List (Finset α)) :=
  match forE (touchRound ord v (v.slices.getD 1 [])) (List.range (n - 1)) ([{node0}], [], []) with
  | .error e => .error e
  | .ok st => .ok st.2.2

/-- The tables used to name the orbits: `nets`, `invs` and `auts`. -/
structure Tables (α W σ : Type) where
  nets : Dict Nat (List (MPlex α W))
  invs : Dict σ (Nat × Nat)
  auts : Dict (Orbit α) α

/-- The functions of the graph library and `str`, and the aspects that may change. -/
structure Backend (α β σ : Type) where
  canon : CGraph → β
  str : List (List α × Nat) × β → σ
  match? : CGraph → CGraph → Option (Dict Nat Nat)
  allowed : Option (List Nat)

/-- the graphlet of a set of nodes and an isomorphism to it (graphlet_measures.py 69-76, 173-178). -/
def identify (B : Backend α β σ) (T : Tables α W σ) (ord : Finset α → List α) (net : MPlex α W) (s : Finset α) :
    Except Err (Nat × Nat × List (Dict α α)) :=
  match net.subnet [some (ord s), some (net.slices.getD 1 [])] false with
  | .error e => .error e
  | .ok sub =>
    match sub.invariantKey B.canon B.str B.allowed with
    | .error e => .error e
    | .ok key =>
      match Dict.get T.invs key with
      | none => .error .keyError
      | some (i, j) =>
        match Dict.get T.nets i with
        | none => .error .keyError
        | some l =>
          match l[j]? with
          | none => .error .indexError
          | some nw =>
            match getIsomorphism B.match? sub.view nw.view B.allowed false with
            | .error e => .error e
            | .ok none => .error .typeError
            | .ok (some iso) => .ok (i, j, iso)

/-- the orbit of `node` is counted (graphlet_measures.py 78-81, 179-182). -/
def countNode (auts : Dict (Orbit α) α) (i j : Nat) (iso : List (Dict α α)) (orbits : Dict (α × Orbit α) Nat) (node : α) :
    Except Err (Dict (α × Orbit α) Nat) :=
  match Dict.get auts (i, j, dget (iso.headD []) node) with
  | none => .error .keyError
  | some o =>
    match Dict.get orbits (node, (i, j, o)) with
    | none => .error .keyError
    | some k => .ok (Dict.set orbits (node, (i, j, o)) (k + 1))

/-- `orbits[node,orbit]=0` for all orbits (graphlet_measures.py 45-46, 167-168). -/
def zeroCounts (orbitList : List (Orbit α)) (orbits : Dict (α × Orbit α) Nat) (node : α) : Dict (α × Orbit α) Nat :=
  orbitList.foldl (fun d o => Dict.set d (node, o) 0) orbits

/-- `orbit_counts` (graphlet_measures.py 146-182): the dictionary `orbits` afterwards. -/
def orbitCounts (B : Backend α β σ) (T : Tables α W σ) (ord : Finset α → List α) (n : Nat) (node0 : α) (net : MPlex α W)
    (orbits : Dict (α × Orbit α) Nat) (orbitList : List (Orbit α)) : Except Err (Dict (α × Orbit α) Nat) :=
  match touchingOrbitNodes ord net.view node0 n with
  | .error e => .error e
  | .ok sets => forE (fun orbits s =>
      match identify B T ord net s with
      | .error e => .error e
      | .ok (i, j, iso) => countNode T.auts i j iso orbits node0) sets (zeroCounts orbitList orbits node0)

/-- one round of `orbit_counts_all` (graphlet_measures.py 54-65); the state is `set_p`, `node_sets`. -/
def freshRound (ord : Finset α → List α) (v : View α W) (processed layers : List α)
    (st : List (Finset α) × List (Finset α)) (_ : Nat) : Except Err (List (Finset α) × List (Finset α)) :=
  match growSets ord v processed layers st.1 [] with
  | .error e => .error e
  | .ok c => .ok (c, c.foldl sadd st.2)

/-- the sets of nodes with `node0` and without the nodes already processed (graphlet_measures.py 51-65). -/
def freshSets (ord : Finset α → List α) (v : View α W) (processed layers : List α) (node0 : α) (n : Nat) :
    Except Err (List (Finset α)) :=
  match forE (freshRound ord v processed layers) (List.range (n - 1)) ([{node0}], []) with
  | .error e => .error e
  | .ok st => .ok st.2

/-- the links of `node0` on one layer are removed (graphlet_measures.py 84-86). -/
def clearLayer (node0 : α) (net : MPlex α W) (layer : α) : Except Err (MPlex α W) :=
  match net.view.getItem [.val node0, .colon, .val layer] with
  | .error e => .error e
  | .ok (.weight _) => .error .typeError
  | .ok (.node nl dims) =>
    match net.view.iterTotal nl dims with
    | .error e => .error e
    | .ok nls => forE (fun (net : MPlex α W) nb =>
        match nb.head? with
        | none => .error .indexError
        | some x => (net.setItem [node0, x, layer] 0).toExcept) nls net

/-- all nodes of one set are counted (graphlet_measures.py 67-82). -/
def countSet (B : Backend α β σ) (T : Tables α W σ) (ord : Finset α → List α) (net : MPlex α W) (orbits : Dict (α × Orbit α) Nat)
    (s : Finset α) : Except Err (Dict (α × Orbit α) Nat) :=
  match identify B T ord net s with
  | .error e => .error e
  | .ok (i, j, iso) => forE (countNode T.auts i j iso) (ord s) orbits

/-- one node of the main loop of `orbit_counts_all` (graphlet_measures.py 50-86); the state is the network, `processed` and
`orbits`. -/
def countAllStep (B : Backend α β σ) (T : Tables α W σ) (ord : Finset α → List α) (n : Nat) (layers : List α)
    (st : MPlex α W × List α × Dict (α × Orbit α) Nat) (node0 : α) :
    Except Err (MPlex α W × List α × Dict (α × Orbit α) Nat) :=
  match freshSets ord st.1.view st.2.1 layers node0 n with
  | .error e => .error e
  | .ok sets =>
    match forE (countSet B T ord st.1) sets st.2.2 with
    | .error e => .error e
    | .ok orbits =>
      match forE (clearLayer node0) layers st.1 with
      | .error e => .error e
      | .ok net => .ok (net, sadd st.2.1 node0, orbits)

/-- `orbit_counts_all` (graphlet_measures.py 8-88): the network and the counts afterwards. -/
def orbitCountsAll (B : Backend α β σ) (T : Tables α W σ) (ord : Finset α → List α) (n : Nat) (net : MPlex α W)
    (orbitList : List (Orbit α)) : Except Err (MPlex α W × Dict (α × Orbit α) Nat) :=
  match forE (countAllStep B T ord n (net.slices.getD 1 [])) (net.slices.headD [])
      (net, [], (net.slices.headD []).foldl (zeroCounts orbitList) []) with
  | .error e => .error e
  | .ok st => .ok (st.1, st.2.2)

end Pymnet
