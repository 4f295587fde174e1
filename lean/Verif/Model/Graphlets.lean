import Verif.Model.Sampling
import Verif.Model.Isom
import Mathlib.Data.Prod.Lex

/-!
Model of the parts of `/repo/pymnet/graphlets/graphlets.py` that do not call the isomorphism backends:
`automorphism_orbits` (89-124), `automorphism_orbits_nl` (126-160), `list_orbits` (316-341),
`layer_combinations` (547-555), `partitions` (661-678), `partitions_with_remainder` (680-698).

The order in which a Python set is iterated is an argument `ord` of the model wherever it matters.
-/

namespace Pymnet

open Py

variable {α κ : Type} [DecidableEq α] [DecidableEq κ]

/-- `layer_combinations` (graphlets.py 547-555). -/
def layerCombinations (layers : List α) : List (List α) :=
  (List.range' 1 layers.length).flatMap fun k => combinations layers k

/-- `partitions` (graphlets.py 661-678), for `r >= 0`. `ord` is the order in which a set is iterated. The
argument `fuel` bounds the depth of the recursion; `partitions` below starts it large enough (every call
removes at least one element). A generator is modelled by the list of the values it yields. -/
def partitionsAux (ord : List α → List α) (r : Nat) : Nat → List α → Except Err (List (List (List α)))
  | 0, _ => .ok []
  | fuel + 1, s =>
    if r = 0 then .error .zeroDivisionError
    else if s.length % r ≠ 0 then .error .assertionError
    else
      match ord s with
      | [] => .ok [[]]
      | first :: _ =>
        forE (fun out c =>
            match partitionsAux ord r fuel ((s.filter (· ≠ first)).filter (· ∉ c)) with
            | .error e => .error e
            | .ok ps => .ok (out ++ ps.map fun p => (first :: c) :: p))
          (combinations (ord (s.filter (· ≠ first))) (r - 1)) []

/-- `partitions(s,r)` (graphlets.py 661-678). -/
def partitions (ord : List α → List α) (s : List α) (r : Nat) : Except Err (List (List (List α))) :=
  partitionsAux ord r (s.length + 1) (toSet s)

/-- `range(n,-1,-r)` for `r >= 1`: `n, n-r, ...` down to the last value that is not negative. -/
def rangeDown (n r : Nat) : List Nat := (List.range (n / r + 1)).map fun i => n - i * r

/-- one remainder of `partitions_with_remainder` (graphlets.py 695-698). -/
def withRemainder (ord : List α → List α) (s : List α) (r : Nat) (out : List (List (List α))) (rem : List α) :
    Except Err (List (List (List α))) :=
  match partitions ord (s.filter (· ∉ rem)) r with
  | .error e => .error e
  | .ok ps => .ok (out ++ ps.map fun p => p ++ [rem])

/-- one size of the remainder (graphlets.py 691-698). -/
def remainderSize (ord : List α → List α) (s : List α) (r : Nat) (out : List (List (List α))) (n : Nat) :
    Except Err (List (List (List α))) :=
  if n = 0 then
    match partitions ord s r with
    | .error e => .error e
    | .ok ps => .ok (out ++ ps)
  else if n ≠ r then forE (withRemainder ord s r) (combinations (ord s) n) out
  else .ok out

/-- `partitions_with_remainder(s,r)` (graphlets.py 680-698). `xrange` tells whether the name `xrange` is
defined: the module uses it without the usual fallback, so it is only defined in Python 2. A zero step of
`range` is a `ValueError`. -/
def partitionsWithRemainder (xrange : Bool) (ord : List α → List α) (s : List α) (r : Nat) :
    Except Err (List (List (List α))) :=
  if xrange = false then .error .nameError
  else if r = 0 then .error .valueError
  else forE (remainderSize ord (toSet s) r) (rangeDown (toSet s).length r) []

/-- one node `j` of the innermost loop of `automorphism_orbits` (graphlets.py 117-119): if `u` is in the set
of `j`, the set of `v` is added to it. Also the innermost loop of `automorphism_orbits_nl`
(graphlets.py 151-154). -/
def orbitStep (u v : κ) (d : Dict κ (List κ)) (j : κ) : Except Err (Dict κ (List κ)) :=
  match Dict.get d j with
  | none => .error .keyError
  | some s =>
    if u ∈ s then
      match Dict.get d v with
      | none => .error .keyError
      | some t => .ok (Dict.set d j (t.foldl sadd s))
    else .ok d

/-- the loops over the generators and their items (graphlets.py 115-119, 147-154). `vs` is the order in which
the nodes (node-layers) are iterated. -/
def orbitSets (vs : List κ) (gens : List (List (κ × κ))) : Except Err (Dict κ (List κ)) :=
  forE (fun d a => forE (fun d p => forE (orbitStep p.1 p.2) vs d) a d) gens
    (vs.foldl (fun d v => Dict.set d v [v]) [])

/-- `min` of a set (graphlets.py 122, 157); `ValueError` if it is empty. -/
def minE [LinearOrder κ] : List κ → Except Err κ
  | [] => .error .valueError
  | a :: t => .ok (t.foldl min a)

/-- the loop replacing every set by its minimum (graphlets.py 121-122, 156-157). -/
def orbitMins [LinearOrder κ] (vs : List κ) (d : Dict κ (List κ)) : Except Err (Dict κ κ) :=
  forE (fun (out : Dict κ κ) v =>
    match Dict.get d v with
    | none => .error .keyError
    | some s =>
      match minE s with
      | .error e => .error e
      | .ok m => .ok (Dict.set out v m)) vs []

/-- `for key in a` with the value `a[key]` (graphlets.py 116-119). -/
def items (a : Dict κ κ) : List (κ × κ) := (Dict.keys a).map fun k => (k, (Dict.get a k).getD k)

/-- The orbits of one network in `automorphism_orbits` (graphlets.py 107-124). `gens` are the node parts `a[0]`
of the generators that the backend returned, `nodes` the order in which `net.slices[0]` is iterated. The keys
`(n_nodes,i,node)` of the result differ between networks, so the networks do not affect each other. Python
stores the sets and the minima in the same dictionary; here they are two. -/
def automorphismOrbits [LinearOrder α] (nodes : List α) (gens : List (Dict α α)) : Except Err (Dict α α) :=
  match orbitSets nodes (gens.map items) with
  | .error e => .error e
  | .ok d => orbitMins nodes d

/-- the items of the map on node-layers given by a map of nodes and a map of layers (graphlets.py 148-153) -/
def pairItems (a : Dict α α × Dict α α) : List ((α ×ₗ α) × (α ×ₗ α)) :=
  (items a.1).flatMap fun n => (items a.2).map fun l => (toLex (n.1, l.1), toLex (n.2, l.2))

/-- The orbits of one network with one aspect in `automorphism_orbits_nl` (graphlets.py 126-160). Tuples are
compared lexicographically. -/
def automorphismOrbitsNl [LinearOrder α] (nls : List (α ×ₗ α)) (gens : List (Dict α α × Dict α α)) :
    Except Err (Dict (α ×ₗ α) (α ×ₗ α)) :=
  match orbitSets nls (gens.map pairItems) with
  | .error e => .error e
  | .ok d => orbitMins nls d

/-- `list_orbits` (graphlets.py 316-341): the entries of `auts` without repetition, grouped by the number of
nodes. -/
def listOrbits (auts : Dict (Nat × Nat × α) α) : Dict Nat (List (Nat × Nat × α)) :=
  auts.foldl (fun d e =>
    let l := (Dict.get d e.1.1).getD []
    Dict.set d e.1.1 (if (e.1.1, e.1.2.1, e.2) ∈ l then l else l ++ [(e.1.1, e.1.2.1, e.2)])) []

/-- The entries of one network in the result of `automorphism_orbits` (graphlets.py 107-124): the generators are those
of `get_automorphism_generators` (`gens` is the backend), `nodes` is the order in which `net.slices[0]` is
iterated. `a[0]` of a network is always there. -/
def networkOrbits {W : Type} [DecidableEq W] [LinearOrder α] (gens : CGraph → List (Dict Nat Nat)) (v : View α W)
    (allowed : Option (List Nat)) (nodes : List α) : Except Err (Dict α α) :=
  match automorphismGenerators gens v allowed false with
  | .error e => .error e
  | .ok ps => automorphismOrbits nodes (ps.map fun p => p.headD [])

/-- The entries of one network with one aspect in the result of `automorphism_orbits_nl`
(graphlets.py 142-160). -/
def networkOrbitsNl {W : Type} [DecidableEq W] [LinearOrder α] (gens : CGraph → List (Dict Nat Nat)) (v : View α W)
    (allowed : Option (List Nat)) (nls : List (α ×ₗ α)) : Except Err (Dict (α ×ₗ α) (α ×ₗ α)) :=
  match automorphismGenerators gens v allowed true with
  | .error e => .error e
  | .ok ps => automorphismOrbitsNl nls (ps.map fun p => (p.headD [], (p[1]?).getD []))

end Pymnet
