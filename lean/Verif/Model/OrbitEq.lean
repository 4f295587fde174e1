import Verif.Model.OrbitCounts
import Verif.Model.Graphlets
import Mathlib.Algebra.Order.Field.Rat
import Mathlib.Data.Finset.Card

/-!
Model of the coefficients of orbit equations in `/repo/pymnet/graphlets/graphlets.py`: `subtrahend` (262-314), `coefficient`
(557-610), `coefficient_help` (612-651), `orbit_name` (653-659).

Sets of nodes are `Finset`s, iterated in an arbitrary order `ord`. The tables and the graph library are as in
`Model/OrbitCounts`.
-/

namespace Pymnet

open Py

variable {α W β σ : Type} [DecidableEq α] [DecidableEq W] [Zero W] [IntNames α] [LinearOrder α] [DecidableEq σ]

/-- `nets[i][j]` (graphlets.py 291, 292, 620, 621). -/
def netAt (T : Tables α W σ) (i j : Nat) : Except Err (MPlex α W) :=
  match Dict.get T.nets i with
  | none => .error .keyError
  | some l =>
    match l[j]? with
    | none => .error .indexError
    | some p => .ok p

/-- `pymnet.subnet(net,s,layers)` with the layers of the network (graphlets.py 300, 627, 628). -/
def nodesNet (ord : Finset α → List α) (net : MPlex α W) (s : Finset α) : Except Err (MPlex α W) :=
  net.subnet [some (ord s), some (net.slices.getD 1 [])] false

/-- the orbit of `node` in a graphlet, found with an isomorphism (graphlets.py 303-309, 634-646): the node has the name of the
isomorphism, or its own if that leaves it fixed. -/
def orbitOf (B : Backend α β σ) (T : Tables α W σ) (sub net : MPlex α W) (i j : Nat) (node : α) : Except Err (Option α) :=
  match getIsomorphism B.match? sub.view net.view B.allowed false with
  | .error e => .error e
  | .ok none => .error .typeError
  | .ok (some iso) => .ok (Dict.get T.auts (i, j, dget (iso.headD []) node))

/-- the two sets of nodes given by one choice of nodes (graphlets.py 624-649): whether it is counted. The isomorphism of the second
sub-network is looked for before the orbits are compared; the orbit of the second is only looked up if that of the first is right. -/
def coefTest (B : Backend α β σ) (T : Tables α W σ) (ord : Finset α → List α) (net net1 net2 : MPlex α W) (v : α) (q1 q2 : Orbit α)
    (s1 s2 : Finset α) : Except Err Bool :=
  match nodesNet ord net s1 with
  | .error e => .error e
  | .ok sub1 =>
    match nodesNet ord net s2 with
    | .error e => .error e
    | .ok sub2 =>
      match sub1.invariantKey B.canon B.str B.allowed with
      | .error e => .error e
      | .ok ci1 =>
        match sub2.invariantKey B.canon B.str B.allowed with
        | .error e => .error e
        | .ok ci2 =>
          if Dict.get T.invs ci1 = some (q1.1, q1.2.1) ∧ Dict.get T.invs ci2 = some (q2.1, q2.2.1) then
            match orbitOf B T sub1 net1 q1.1 q1.2.1 v with
            | .error e => .error e
            | .ok a1 =>
              match orbitOf B T sub2 net2 q2.1 q2.2.1 v with
              | .error e => .error e
              | .ok a2 =>
                match a1 with
                | none => .error .keyError
                | some a1 =>
                  if a1 = q1.2.2 then
                    match a2 with
                    | none => .error .keyError
                    | some a2 => .ok (decide (a2 = q2.2.2))
                  else .ok false
          else .ok false

/-- one choice of nodes (graphlets.py 624-649). -/
def coefStep (B : Backend α β σ) (T : Tables α W σ) (ord : Finset α → List α) (net net1 net2 : MPlex α W) (v : α) (q1 q2 : Orbit α)
    (both : Finset α) (coef : Nat) (comb : List α) : Except Err Nat :=
  let nodesA := (net.slices.headD []).toFinset
  let s2 := nodesA \ comb.toFinset
  let s1 := (nodesA \ s2) ∪ both
  match coefTest B T ord net net1 net2 v q1 q2 s1 s2 with
  | .error e => .error e
  | .ok true => .ok (coef + 1)
  | .ok false => .ok coef

/-- `coefficient_help` (graphlets.py 612-651), added to `coef`; a negative number of nodes to choose is a `ValueError`. -/
def coefficientHelp (B : Backend α β σ) (T : Tables α W σ) (ord : Finset α → List α) (nodes : Finset α) (v : α) (both : Finset α)
    (q1 q2 : Orbit α) (net : MPlex α W) (coef : Nat) : Except Err Nat :=
  match netAt T q1.1 q1.2.1 with
  | .error e => .error e
  | .ok net1 =>
    match netAt T q2.1 q2.2.1 with
    | .error e => .error e
    | .ok net2 =>
      let n1 := (net1.slices.headD []).length
      if n1 < both.card then .error .valueError
      else forE (coefStep B T ord net net1 net2 v q1 q2 both) (combinations (ord nodes) (n1 - both.card)) coef

/-- the sum of `coefficient` (graphlets.py 581-603) before it is divided. -/
def coefficientSum (B : Backend α β σ) (T : Tables α W σ) (ord : Finset α → List α) (v : α) (both : List α) (q1 q2 : Orbit α)
    (net : MPlex α W) : Except Err Nat :=
  let nodes := (net.slices.headD []).toFinset \ {v}
  if 1 < both.length then
    forE (fun coef shared => coefficientHelp B T ord (nodes \ shared.toFinset) v (shared.toFinset ∪ {v}) q1 q2 net coef)
      (combinations (ord nodes) (both.length - 1)) 0
  else coefficientHelp B T ord nodes v both.toFinset q1 q2 net 0

/-- `coefficient` (graphlets.py 557-610). -/
def coefficient (B : Backend α β σ) (T : Tables α W σ) (ord : Finset α → List α) (v : α) (both : List α) (q1 q2 : Orbit α)
    (net : MPlex α W) : Except Err ℚ :=
  match coefficientSum B T ord v both q1 q2 net with
  | .error e => .error e
  | .ok coef => .ok ((coef : ℚ) / (if q1 = q2 then 2 else 1))

/-- `orbit_name` (graphlets.py 653-659). -/
def orbitName (B : Backend α β σ) (T : Tables α W σ) (node : α) (net : MPlex α W) : Except Err (Orbit α) :=
  match net.invariantKey B.canon B.str B.allowed with
  | .error e => .error e
  | .ok ci =>
    match Dict.get T.invs ci with
    | none => .error .keyError
    | some (i, j) =>
      match netAt T i j with
      | .error e => .error e
      | .ok p =>
        match getIsomorphism B.match? net.view p.view B.allowed true with
        | .error e => .error e
        | .ok none => .error .typeError
        | .ok (some iso) =>
          match Dict.get (iso.headD []) node with
          | none => .error .keyError
          | some x =>
            match Dict.get T.auts (i, j, x) with
            | none => .error .keyError
            | some k => .ok (i, j, k)

/-- one set of a partition (graphlets.py 298-311): whether it is counted. -/
def subTest (B : Backend α β σ) (T : Tables α W σ) (ord : Finset α → List α) (net1 net2 : MPlex α W) (v : α) (q2 : Orbit α)
    (s : Finset α) : Except Err Bool :=
  match nodesNet ord net1 s with
  | .error e => .error e
  | .ok sub =>
    match sub.invariantKey B.canon B.str B.allowed with
    | .error e => .error e
    | .ok ci =>
      if Dict.get T.invs ci = some (q2.1, q2.2.1) then
        match orbitOf B T sub net2 q2.1 q2.2.1 v with
        | .error e => .error e
        | .ok none => .error .keyError
        | .ok (some a) => .ok (decide (a = q2.2.2))
      else .ok false

/-- one partition (graphlets.py 296-312). -/
def subPartition (B : Backend α β σ) (T : Tables α W σ) (ord : Finset α → List α) (net1 net2 : MPlex α W) (v : α) (q2 : Orbit α)
    (subMax : Nat) (partition : List (List α)) : Except Err Nat :=
  match forE (fun sub part =>
      match subTest B T ord net1 net2 v q2 (part.toFinset ∪ {v}) with
      | .error e => .error e
      | .ok true => .ok (sub + 1)
      | .ok false => .ok sub) partition 0 with
  | .error e => .error e
  | .ok sub => .ok (max subMax sub)

/-- `subtrahend` (graphlets.py 262-314). `xrange` tells whether that name is defined, see `partitionsWithRemainder`. (The partitions
are generated before they are used; an error in a later one is raised before the earlier ones are used.) -/
def subtrahend (xrange : Bool) (B : Backend α β σ) (T : Tables α W σ) (ord : Finset α → List α) (ordS : List α → List α)
    (q1 q2 : Orbit α) : Except Err Nat :=
  match netAt T q1.1 q1.2.1 with
  | .error e => .error e
  | .ok net1 =>
    match netAt T q2.1 q2.2.1 with
    | .error e => .error e
    | .ok net2 =>
      match partitionsWithRemainder xrange ordS ((net1.slices.headD []).filter (· ≠ q1.2.2)) (q2.1 - 1) with
      | .error e => .error e
      | .ok ps => forE (subPartition B T ord net1 net2 q1.2.2 q2) ps 0

end Pymnet
