import Verif.Model.OrbitEq
import Verif.Model.PlexTransforms

/-!
Model of `orbit_equations` (`/repo/pymnet/graphlets/graphlets.py` 162-259) and of the functions it uses to make networks:
`combine_orbits` (344-416), `merge_nodes` (418-492), `add_possible_edges` (494-545).

The names of the nodes that `combine_orbits` gives to the second graphlet are negative integers: `int` is the embedding of the
integers in the names, and `neg` the test `node < 0`. Sets of nodes are iterated in the order `ord`; sets of layers in the order of
the lists that model them.
-/

namespace Pymnet

open Py

variable {α W β σ : Type} [DecidableEq α] [DecidableEq W] [Zero W] [One W] [IntNames α] [LinearOrder α] [DecidableEq σ]

/-- `itertools.permutations(l,n)`. -/
def permutationsOf {γ : Type} : Nat → List γ → List (List γ)
  | 0, _ => [[]]
  | n + 1, l => (List.range l.length).flatMap fun i =>
      match l[i]? with
      | none => []
      | some x => (permutationsOf n (l.eraseIdx i)).map (x :: ·)

/-- `nodeNames` of `combine_orbits` (graphlets.py 375, 383-384): the node of the second orbit gets the name of that of the first, the
others the names -2, -3, ... -/
def combineNames (int : Int → α) (ord : Finset α → List α) (nodes2 : Finset α) (node1 node2 : α) : Dict α α :=
  ((ord (nodes2 \ {node2})).zipIdx).foldl (fun d p => Dict.set d p.1 (int (-2 - (p.2 : Int)))) (Dict.set [] node2 node1)

/-- `for i in range(len(perm)): layerNames[perm[i-1]] = perm[i]` (graphlets.py 403-404). -/
def shiftNames (d : Dict α α) (perm : List α) : Dict α α :=
  ((perm.rotate (perm.length - 1)).zip perm).foldl (fun d p => Dict.set d p.1 p.2) d

/-- one edge of the renamed second graphlet (graphlets.py 390-392, 408-410). -/
def combineEdge (new : MPlex α W) (e : List α × W) : Except Err (MPlex α W) :=
  match e.1 with
  | [i, j, x, y] => if i ≠ j then (new.setItem [i, j, x, y] e.2).toExcept else .ok new
  | _ => .error .indexError

/-- the combination of two graphlets, the second one renamed (graphlets.py 388-392, 406-410). -/
def combineNet (net1 net2 : MPlex α W) (nodeNames layerNames : Dict α α) : Except Err (MPlex α W) :=
  match net1.subnet [some (net1.slices.headD []), some (net1.slices.getD 1 [])] false with
  | .error e => .error e
  | .ok new =>
    match net2.relabel nodeNames [layerNames] with
    | .error e => .error e
    | .ok r =>
      match r.view.edges with
      | .error e => .error e
      | .ok es => forE combineEdge es new

/-- one permutation of the layers (graphlets.py 402-415); the state is `layerNames`, `new_nets` and `new_invs`. -/
def combineStep (B : Backend α β σ) (net1 net2 : MPlex α W) (nodeNames : Dict α α)
    (st : Dict α α × List (MPlex α W) × List σ) (perm : List α) : Except Err (Dict α α × List (MPlex α W) × List σ) :=
  match combineNet net1 net2 nodeNames (shiftNames st.1 perm) with
  | .error e => .error e
  | .ok new =>
    match new.invariantKey B.canon B.str B.allowed with
    | .error e => .error e
    | .ok ci =>
      if ci ∈ st.2.2 then .ok (shiftNames st.1 perm, st.2)
      else .ok (shiftNames st.1 perm, st.2.1 ++ [new], st.2.2 ++ [ci])

/-- `combine_orbits` (graphlets.py 344-416). -/
def combineOrbits (B : Backend α β σ) (T : Tables α W σ) (int : Int → α) (ord : Finset α → List α) (q1 q2 : Orbit α) :
    Except Err (Option (List (MPlex α W))) :=
  match netAt T q1.1 q1.2.1 with
  | .error e => .error e
  | .ok net1 =>
    match netAt T q2.1 q2.2.1 with
    | .error e => .error e
    | .ok net2 =>
      if (net1.slices.getD 1 []).toFinset ≠ (net2.slices.getD 1 []).toFinset then .ok none
      else
        let nodeNames := combineNames int ord (net2.slices.headD []).toFinset q1.2.2 q2.2.2
        match combineNet net1 net2 nodeNames [] with
        | .error e => .error e
        | .ok new =>
          match new.invariantKey B.canon B.str B.allowed with
          | .error e => .error e
          | .ok ci =>
            if B.allowed = some [0] then .ok (some [new])
            else
              match forE (combineStep B net1 net2 nodeNames)
                  (permutationsOf (net2.slices.getD 1 []).length (net2.slices.getD 1 [])) ([], [new], [ci]) with
              | .error e => .error e
              | .ok st => .ok (some st.2.1)

/-- the nodes that are not in `both_orbit_nodes`, divided by their sign (graphlets.py 438-447, 513-521). -/
def splitNodes (neg : α → Bool) (ord : Finset α → List α) (both : List α) (net : MPlex α W) : List α × List α :=
  let nodes := ord ((net.slices.headD []).toFinset \ both.toFinset)
  (nodes.filter fun x => neg x = false, nodes.filter fun x => neg x = true)

/-- the layers of a node (graphlets.py 458-463). -/
def netLayersOf (nls : List (List α)) (node : α) : Finset α :=
  (nls.filterMap fun nl => if nl.head? = some node then nl[1]? else none).toFinset

/-- the links of `node2` are given to `node1` (graphlets.py 477-481). -/
def mergeLayer (net : MPlex α W) (node1 node2 : α) (new : MPlex α W) (layer : α) : Except Err (MPlex α W) :=
  match net.view.iterTotal [node2, layer] none with
  | .error e => .error e
  | .ok nbs => forE (fun (new : MPlex α W) nb =>
      match nb with
      | x :: y :: _ => if x ≠ node2 then (new.setItem [node1, x, layer, y] 1).toExcept else .ok new
      | _ => .error .indexError) nbs new

/-- one pair of nodes (graphlets.py 453-490); the state is `new_nets_and_nodes` and `new_invs`. `net.__getitem__((node2,layer))`
is the node-layer, whose neighbours are iterated. -/
def mergePair (B : Backend α β σ) (ord : Finset α → List α) (both : List α) (net : MPlex α W)
    (st : List (MPlex α W × List α) × List σ) (comb : α × α) : Except Err (List (MPlex α W × List α) × List σ) :=
  match net.nodeLayers with
  | .error e => .error e
  | .ok nls =>
    if netLayersOf nls comb.1 ≠ netLayersOf nls comb.2 then .ok st
    else
      match net.subnet [some (both ++ [comb.1]), some (net.slices.getD 1 [])] false with
      | .error e => .error e
      | .ok sub1 =>
        match net.subnet [some (both ++ [comb.2]), some (net.slices.getD 1 [])] false with
        | .error e => .error e
        | .ok sub2 =>
          match isIsomorphic B.match? sub1.view sub2.view (some [0]) with
          | .error e => .error e
          | .ok false => .ok st
          | .ok true =>
            match nodesNet ord net ((net.slices.headD []).toFinset \ {comb.2}) with
            | .error e => .error e
            | .ok new =>
              match forE (mergeLayer net comb.1 comb.2) (net.slices.getD 1 []) new with
              | .error e => .error e
              | .ok new =>
                match new.invariantKey B.canon B.str B.allowed with
                | .error e => .error e
                | .ok ci => if ci ∈ st.2 then .ok st else .ok (st.1 ++ [(new, both ++ [comb.1])], st.2 ++ [ci])

/-- `merge_nodes` (graphlets.py 418-492). -/
def mergeNodes (B : Backend α β σ) (neg : α → Bool) (ord : Finset α → List α) (both : List α) (net : MPlex α W) :
    Except Err (List (MPlex α W × List α)) :=
  let nodes := splitNodes neg ord both net
  match forE (mergePair B ord both net) (nodes.1.flatMap fun a => nodes.2.map fun b => (a, b)) ([], []) with
  | .error e => .error e
  | .ok st => .ok st.1

/-- the links of one choice are set (graphlets.py 537-541). -/
def addEdgeChoices (choice : List ((α × α) × List α)) (new : MPlex α W) : Except Err (MPlex α W) :=
  forE (fun new (c : (α × α) × List α) => forE (fun (new : MPlex α W) x => (new.setItem [c.1.1, c.1.2, x] 1).toExcept) c.2 new) choice new

/-- `add_possible_edges` (graphlets.py 494-545). -/
def addPossibleEdges (neg : α → Bool) (ord : Finset α → List α) (both : List α) (net : MPlex α W) : Except Err (List (MPlex α W)) :=
  let nodes := splitNodes neg ord both net
  let edges := nodes.1.flatMap fun a => nodes.2.map fun b => (a, b)
  let layerCombs := layerCombinations (net.slices.getD 1 [])
  View.collect (fun edgeComb => View.collect (fun edgeLayers =>
      match nodesNet ord net (net.slices.headD []).toFinset with
      | .error e => .error e
      | .ok new =>
        match addEdgeChoices (edgeComb.zip edgeLayers) new with
        | .error e => .error e
        | .ok new => .ok [new]) (product (List.replicate edgeComb.length layerCombs)))
    ((List.range' 1 edges.length).flatMap fun k => combinations edges k)

/-- a key of the result: `((orbit2,1),(orbit1,1))`, or `(orbit,2)`, which is represented by a list with one entry. -/
abbrev OrbitKey (α : Type) := List (Orbit α × Nat)

/-- one round of merging (graphlets.py 211-216); the state is the networks of the last round, and all of them. -/
def mergeRound (B : Backend α β σ) (neg : α → Bool) (ord : Finset α → List α) (st : List (MPlex α W × List α) × List (MPlex α W × List α))
    (_ : Nat) : Except Err (List (MPlex α W × List α) × List (MPlex α W × List α)) :=
  match View.collect (fun (m : MPlex α W × List α) => mergeNodes B neg ord m.2 m.1) st.1 with
  | .error e => .error e
  | .ok merged => .ok (merged, st.2 ++ merged)

/-- a network with additional links (graphlets.py 219-224). -/
def moreLinks (neg : α → Bool) (ord : Finset α → List α) (m : MPlex α W × List α) : Except Err (List (MPlex α W × List α)) :=
  match addPossibleEdges neg ord m.2 m.1 with
  | .error e => .error e
  | .ok nets => .ok (nets.map fun net => (net, m.2))

/-- the networks that are made from the combinations of two graphlets (graphlets.py 205-227): merged nodes, additional links. -/
def combNets (B : Backend α β σ) (neg : α → Bool) (ord : Finset α → List α) (n1 n2 : Nat) (combs : List (MPlex α W × List α)) :
    Except Err (List (MPlex α W × List α)) :=
  match forE (mergeRound B neg ord) (List.range (n1 + n2 - 1 - (max n1 n2 + 1))) (combs, combs) with
  | .error e => .error e
  | .ok st =>
    match View.collect (moreLinks neg ord) st.2 with
    | .error e => .error e
    | .ok added => .ok (st.2 ++ added)

/-- the orbit of a combined network (graphlets.py 229-241); `new_orbits` and `new_nets` are one dictionary. -/
def findOrbit (B : Backend α β σ) (T : Tables α W σ) (node1 : α) (d : Dict (Orbit α) (MPlex α W × List α))
    (comb : MPlex α W × List α) : Except Err (Dict (Orbit α) (MPlex α W × List α)) :=
  match comb.1.invariantKey B.canon B.str B.allowed with
  | .error e => .error e
  | .ok ci =>
    match Dict.get T.invs ci with
    | none => .error .keyError
    | some (i, j) =>
      match netAt T i j with
      | .error e => .error e
      | .ok net =>
        match orbitOf B T comb.1 net i j node1 with
        | .error e => .error e
        | .ok none => .error .keyError
        | .ok (some o) => if Dict.has d (i, j, o) then .ok d else .ok (Dict.set d (i, j, o) comb)

/-- one orbit of an equation (graphlets.py 251-254). -/
def addTerm (B : Backend α β σ) (T : Tables α W σ) (ord : Finset α → List α) (q1 q2 : Orbit α) (eq : Dict (Orbit α) ℚ)
    (o : Orbit α × (MPlex α W × List α)) : Except Err (Dict (Orbit α) ℚ) :=
  match coefficient B T ord q1.2.2 o.2.2 q1 q2 o.2.1 with
  | .error e => .error e
  | .ok coef => if 0 < coef then .ok (Dict.set eq o.1 coef) else .ok eq

/-- the equation of two orbits (graphlets.py 199-257); `none` if they cannot be combined. -/
def orbitEquation (B : Backend α β σ) (T : Tables α W σ) (int : Int → α) (neg : α → Bool) (ord : Finset α → List α) (q1 q2 : Orbit α) :
    Except Err (Option (OrbitKey α × Dict (Orbit α) ℚ)) :=
  match combineOrbits B T int ord q1 q2 with
  | .error e => .error e
  | .ok none => .ok none
  | .ok (some combs) =>
    match combNets B neg ord q1.1 q2.1 (combs.map fun net => (net, [q1.2.2])) with
    | .error e => .error e
    | .ok nets =>
      match forE (findOrbit B T q1.2.2) nets [] with
      | .error e => .error e
      | .ok found =>
        match forE (addTerm B T ord q1 q2) found [] with
        | .error e => .error e
        | .ok eq => .ok (some (if q1 = q2 then [(q1, 2)] else [(q2, 1), (q1, 1)], eq))

/-- one pair of orbits (graphlets.py 195-257). -/
def equationStep (B : Backend α β σ) (T : Tables α W σ) (int : Int → α) (neg : α → Bool) (ord : Finset α → List α) (q1 : Orbit α)
    (eqs : Dict (OrbitKey α) (Dict (Orbit α) ℚ)) (q2 : Orbit α) : Except Err (Dict (OrbitKey α) (Dict (Orbit α) ℚ)) :=
  if Dict.has eqs [(q1, 1), (q2, 1)] then .ok eqs
  else
    match orbitEquation B T int neg ord q1 q2 with
    | .error e => .error e
    | .ok none => .ok eqs
    | .ok (some (key, eq)) => .ok (Dict.set eqs key eq)

/-- one orbit and all orbits of some size (graphlets.py 192-257). -/
def equationsOf (B : Backend α β σ) (T : Tables α W σ) (int : Int → α) (neg : α → Bool) (ord : Finset α → List α) (n : Nat) (q1 : Orbit α)
    (eqs : Dict (OrbitKey α) (Dict (Orbit α) ℚ)) (e : Nat × List (Orbit α)) : Except Err (Dict (OrbitKey α) (Dict (Orbit α) ℚ)) :=
  if q1.1 + e.1 - 1 ≤ n then forE (equationStep B T int neg ord q1) e.2 eqs else .ok eqs

/-- all orbits of some size (graphlets.py 188-257). -/
def equationsAt (B : Backend α β σ) (T : Tables α W σ) (int : Int → α) (neg : α → Bool) (ord : Finset α → List α) (n : Nat)
    (eqs : Dict (OrbitKey α) (Dict (Orbit α) ℚ)) (n1 : Nat) : Except Err (Dict (OrbitKey α) (Dict (Orbit α) ℚ)) :=
  match Dict.get (listOrbits T.auts) n1 with
  | none => .error .keyError
  | some l1 => forE (fun eqs q1 => forE (equationsOf B T int neg ord n q1) (listOrbits T.auts) eqs) l1 eqs

/-- `orbit_equations` (graphlets.py 162-259). An orbit of the list of `n_nodes1` has `n_nodes1` as its first component. -/
def orbitEquations (B : Backend α β σ) (T : Tables α W σ) (int : Int → α) (neg : α → Bool) (ord : Finset α → List α) (n : Nat) :
    Except Err (Dict (OrbitKey α) (Dict (Orbit α) ℚ)) :=
  forE (equationsAt B T int neg ord n) (List.range' 2 (min (n + 1) 4 - 2)) []

end Pymnet
