import Verif.Model.IndepEq
import Verif.Model.OrbitEqs

/-!
Model of `independent_equations` of `/repo/pymnet/graphlets/independent_equations.py` (8-76) and of the functions that only it uses:
`eqs_in_layers` (123-160), `orbit_in_layers` (163-183), `eq_network` (258-330), `too_many_nodes` (333-354), `find_equations` (357-369),
`find_key` (372-383), `three_orbit_equations` (386-469).

A key of a set of equations may be `None` (`find_key` returns it if there is no such equation), so sets of equations have elements
`Option (EqKey ω)`. Sets are iterated in the order of the lists that model them.
-/

namespace Pymnet

open Py

variable {α W β σ : Type} [DecidableEq α] [DecidableEq W] [Zero W] [One W] [IntNames α] [LinearOrder α] [DecidableEq σ]

/-- the keys of `orbit_equations` and those of this module are the same; here the two forms `((o1,1),(o2,1))` and `(o,2)` are told apart.
There are no keys of other forms. -/
def EqKey.ofKey : OrbitKey α → Option (EqKey (Orbit α))
  | [(q, _)] => some (.square q)
  | [(q1, _), (q2, _)] => some (.pair q1 q2)
  | _ => none

/-- the equations with the orbits on their right sides; coefficients are not used here. -/
def eqsOf (eqs : Dict (OrbitKey α) (Dict (Orbit α) ℚ)) : Dict (EqKey (Orbit α)) (List (Orbit α)) :=
  eqs.filterMap fun p => (EqKey.ofKey p.1).map fun k => (k, Dict.keys p.2)

/-- the orbit that `eqs_in_layers` looks at: the first one of the key (independent_equations.py 149-155). -/
def EqKey.first : EqKey (Orbit α) → Orbit α
  | .pair o1 _ => o1
  | .square o => o
  | .triple o1 _ _ => o1

/-- `net.slices[1] == set(layers)`. -/
def onLayers (layers : List α) (net : MPlex α W) : Bool := decide ((net.slices.getD 1 []).toFinset = layers.toFinset)

/-- `nets_sub` (independent_equations.py 142-146). -/
def netsOnLayers (layers : List α) (nets : Dict Nat (List (MPlex α W))) : List (Nat × Nat) :=
  nets.flatMap fun p => (p.2.zipIdx.filter fun q => onLayers layers q.1).map fun q => (p.1, q.2)

/-- `eqs_in_layers` (independent_equations.py 123-160). -/
def eqsInLayers (layers : List α) (eqs : Dict (EqKey (Orbit α)) (List (Orbit α))) (nets : Dict Nat (List (MPlex α W))) :
    Dict (EqKey (Orbit α)) (List (Orbit α)) :=
  eqs.filter fun p => decide ((p.1.first.1, p.1.first.2.1) ∈ netsOnLayers layers nets)

/-- `orbit_in_layers` (independent_equations.py 163-183). -/
def orbitInLayers (T : Tables α W σ) (orbit : Orbit α) (layers : List α) : Except Err Bool :=
  match netAt T orbit.1 orbit.2.1 with
  | .error e => .error e
  | .ok net => .ok (onLayers layers net)

section generic

variable {ω : Type} [DecidableEq ω]

/-- `too_many_nodes` (independent_equations.py 333-354); `size o` is `o[0]`. The subtraction `- 2` is moved to the other side. -/
def tooManyNodes (size : ω → Nat) (eq : EqKey ω) (orbit : ω) (maxNodes : Nat) : Bool :=
  match eq with
  | .pair o1 o2 => decide (maxNodes + 2 < size o1 + size o2 + size orbit)
  | .square o => decide (maxNodes + 2 < 2 * size o + size orbit)
  | .triple o _ _ => decide (maxNodes + 2 < 2 * size o + size orbit)

/-- `find_key` (independent_equations.py 372-383). -/
def findKey (o1 o2 : ω) (eqs : Dict (EqKey ω) (List ω)) : Option (EqKey ω) :=
  if o1 = o2 ∧ Dict.has eqs (.square o1) then some (.square o1)
  else if Dict.has eqs (.pair o1 o2) then some (.pair o1 o2)
  else if Dict.has eqs (.pair o2 o1) then some (.pair o2 o1)
  else none

/-- the loop of `find_equations` (independent_equations.py 361-369): `break` with the empty set. -/
def findEquationsLoop (orbit : ω) (setEqs : Dict (EqKey ω) (List ω)) : List ω → List (Option (EqKey ω)) → List (Option (EqKey ω))
  | [], eqs => eqs
  | o :: os, eqs =>
    match findKey orbit o setEqs with
    | some key => findEquationsLoop orbit setEqs os (sadd eqs (some key))
    | none => []

/-- `find_equations` (independent_equations.py 357-369); `set_eqs[None]` is a `KeyError`. -/
def findEquations (orbit : ω) (eq : Option (EqKey ω)) (setEqs : Dict (EqKey ω) (List ω)) : Except Err (List (Option (EqKey ω))) :=
  match eq with
  | none => .error .keyError
  | some eq =>
    match Dict.get setEqs eq with
    | none => .error .keyError
    | some os => .ok (findEquationsLoop orbit setEqs os [])

/-- The dictionary `eq_net`: for each equation its alternative sets of equations. -/
abbrev EqNet (ω : Type) := Dict (Option (EqKey ω)) (List (List (Option (EqKey ω))))

/-- the permutations of three orbits, in the order of `itertools.permutations`. -/
def keys3 (o1 o2 o3 : ω) : List (Option (EqKey ω)) :=
  [some (.triple o1 o2 o3), some (.triple o1 o3 o2), some (.triple o2 o1 o3), some (.triple o2 o3 o1), some (.triple o3 o1 o2),
    some (.triple o3 o2 o1)]

/-- the orbits of an equation (independent_equations.py 388-394). -/
def EqKey.orbits2 : EqKey ω → ω × ω
  | .pair o1 o2 => (o1, o2)
  | .square o => (o, o)
  | .triple o _ _ => (o, o)

/-- `find_equations(orbit,eq,set_eqs) | set(more)`. -/
def foundWith (orbit : ω) (eq : Option (EqKey ω)) (more : List (Option (EqKey ω))) (setEqs : Dict (EqKey ω) (List ω)) :
    Except Err (List (Option (EqKey ω))) :=
  match findEquations orbit eq setEqs with
  | .error e => .error e
  | .ok eqs => .ok (more.foldl sadd eqs)

/-- the sets of equations of three orbits (independent_equations.py 401-466); `sub` is `subtrahend`. -/
def threeSets (size : ω → Nat) (sub : ω → ω → Except Err Nat) (eq : EqKey ω) (o1 o2 orbit : ω) (setEqs : Dict (EqKey ω) (List ω)) :
    Except Err (List (List (Option (EqKey ω)))) :=
  if o1 = o2 ∧ o2 = orbit then do
    let e1 ← foundWith orbit (some eq) [some eq] setEqs
    pure [e1]
  else if o1 = o2 then
    if size orbit < size o1 then do
      let e1 ← foundWith orbit (some eq) [some eq] setEqs
      pure [e1]
    else do
      let s ← sub orbit o1
      let key := findKey orbit o1 setEqs
      let e1 ← foundWith orbit (some eq) (if s = 0 then [some eq] else [some eq, key]) setEqs
      let e2 ← foundWith o1 key [key] setEqs
      pure [e1, e2]
  else if o2 = orbit then do
    let e1 ← foundWith orbit (some eq) [some eq] setEqs
    let s ← sub o1 orbit
    let key := findKey o2 orbit setEqs
    let e2 ← if s = 0 then foundWith o1 key [key] setEqs else foundWith orbit (some eq) [some eq, key] setEqs
    pure [e1, e2]
  else if o1 = orbit then do
    let e1 ← foundWith orbit (some eq) [some eq] setEqs
    let key := findKey o1 orbit setEqs
    let e2 ← foundWith o2 key [key] setEqs
    pure [e1, e2]
  else do
    let e1 ← foundWith orbit (some eq) [some eq] setEqs
    let key1 := findKey o1 orbit setEqs
    let e2 ← foundWith o2 key1 [key1] setEqs
    let key2 := findKey o2 orbit setEqs
    let e3 ← foundWith o1 key2 [key2] setEqs
    pure [e1, e2, e3]

/-- `three_orbit_equations` (independent_equations.py 386-469): the new `eq_net` and the key that is returned. After the loop `key3` is the
last permutation. -/
def threeOrbitEquations (size : ω → Nat) (sub : ω → ω → Except Err Nat) (eq : EqKey ω) (orbit : ω) (setEqs : Dict (EqKey ω) (List ω))
    (net : EqNet ω) : Except Err (EqNet ω × Option (EqKey ω)) :=
  let o := eq.orbits2
  match (keys3 o.1 o.2 orbit).find? (Dict.has net) with
  | some key => .ok (net, key)
  | none =>
    match threeSets size sub eq o.1 o.2 orbit setEqs with
    | .error e => .error e
    | .ok l => .ok (Dict.set net (some (.triple orbit o.2 o.1)) l, some (.triple orbit o.2 o.1))

/-- one equation of `set_eqs` (independent_equations.py 308-327); the state is `depends` and `deps`. -/
def eqNetEq (size : ω → Nat) (sub : ω → ω → Except Err Nat) (maxNodes : Nat) (setEqs : Dict (EqKey ω) (List ω)) (un : EqKey ω)
    (orbit multi : ω) (st : EqNet ω × List (List (Option (EqKey ω)))) (p : EqKey ω × List ω) :
    Except Err (EqNet ω × List (List (Option (EqKey ω)))) :=
  if orbit ∈ p.2 then
    if tooManyNodes size p.1 multi maxNodes then .ok st
    else
      match threeOrbitEquations size sub p.1 multi setEqs st.1 with
      | .error e => .error e
      | .ok (net, eq3) =>
        match findEquations multi (some p.1) setEqs with
        | .error e => .error e
        | .ok found =>
          let newEqs := found.filter (· ≠ some un)
          if newEqs.length = 0 then .ok (net, st.2) else .ok (net, st.2 ++ [sadd (newEqs.foldl sadd [some p.1]) eq3])
  else .ok st

/-- the pairs `(orbits[i],multi)` of an equation (independent_equations.py 286-306): `orbits[i-1]` is the other orbit. -/
def EqKey.sides : EqKey ω → List (ω × ω)
  | .pair o1 o2 => [(o1, o2), (o2, o1)]
  | .square o => [(o, o)]
  | .triple o _ _ => [(o, o)]

/-- one equation of `undefined` (independent_equations.py 285-328). -/
def eqNetStep (size : ω → Nat) (sub : ω → ω → Except Err Nat) (maxNodes : Nat) (setEqs : Dict (EqKey ω) (List ω)) (net : EqNet ω)
    (un : EqKey ω) : Except Err (EqNet ω) :=
  match forE (fun st (om : ω × ω) => forE (eqNetEq size sub maxNodes setEqs un om.1 om.2) setEqs st) un.sides (net, []) with
  | .error e => .error e
  | .ok (net, deps) => .ok (Dict.set net (some un) deps)

/-- `eq_network` (independent_equations.py 258-330). -/
def eqNetwork (size : ω → Nat) (sub : ω → ω → Except Err Nat) (maxNodes : Nat) (undefined : List (EqKey ω))
    (setEqs : Dict (EqKey ω) (List ω)) : Except Err (EqNet ω) :=
  forE (eqNetStep size sub maxNodes setEqs) undefined []

/-- `for orbit in orbit_lists[i]` with its `break` (independent_equations.py 55-62). -/
def threeLoop (size : ω → Nat) (sub : ω → ω → Except Err Nat) (n : Nat) (inLayers : ω → Except Err Bool)
    (setEqs : Dict (EqKey ω) (List ω)) (eq : EqKey ω) : List ω → EqNet ω → Except Err (EqNet ω)
  | [], net => .ok net
  | orbit :: os, net =>
    if tooManyNodes size eq orbit n then .ok net
    else
      match inLayers orbit with
      | .error e => .error e
      | .ok false => threeLoop size sub n inLayers setEqs eq os net
      | .ok true =>
        match threeOrbitEquations size sub eq orbit setEqs net with
        | .error e => .error e
        | .ok (net, _) => threeLoop size sub n inLayers setEqs eq os net

/-- `for i in range(2,4)` (independent_equations.py 54-62). -/
def threeLoops (size : ω → Nat) (sub : ω → ω → Except Err Nat) (n : Nat) (inLayers : ω → Except Err Bool) (lists : Dict Nat (List ω))
    (setEqs : Dict (EqKey ω) (List ω)) (net : EqNet ω) (eq : EqKey ω) : Except Err (EqNet ω) :=
  forE (fun net i =>
    match Dict.get lists i with
    | none => .error .keyError
    | some os => threeLoop size sub n inLayers setEqs eq os net) [2, 3] net

/-- `len(eq)==3` of a key. -/
def isThree : Option (EqKey ω) → Bool
  | none => false
  | some k => k.three

/-- `for dep in eqNet.items(): if len(dep[1])==0` (independent_equations.py 64-67): the equations moved from `undefined` to `independent`;
`set.remove` of what is not in the set is a `KeyError`. -/
def moveEmpty (undefined : List (EqKey ω)) (independent : List (Option (EqKey ω))) (dep : Option (EqKey ω) × List (List (Option (EqKey ω)))) :
    Except Err (List (Option (EqKey ω))) :=
  if dep.2.length = 0 then
    match dep.1 with
    | none => .error .keyError
    | some k => if k ∈ undefined then .ok (sadd independent (some k)) else .error .keyError
  else .ok independent

/-- the body of the loop over the combinations of layers for more than three nodes (independent_equations.py 49-73): `independent`, as it is at
the end. `ord` is the order in which the sets of equations are iterated. -/
def independentMany (size : ω → Nat) (sub : ω → ω → Except Err Nat) (n : Nat) (inLayers : ω → Except Err Bool) (lists : Dict Nat (List ω))
    (ordE : List (Option (EqKey ω)) → List (Option (EqKey ω))) (eqsSub : Dict (EqKey ω) (List ω)) : Except Err (List (Option (EqKey ω))) :=
  let r := definitelyIndependent size eqsSub
  match eqNetwork size sub n r.2.1 r.2.2 with
  | .error e => .error e
  | .ok net =>
    match forE (threeLoops size sub n inLayers lists r.2.2) (Dict.keys eqsSub) net with
    | .error e => .error e
    | .ok net =>
      match forE (moveEmpty r.2.1) net (r.1.map some) with
      | .error e => .error e
      | .ok independent =>
        match allIndsAndDeps isThree ordE (independent.foldl (fun d ind => Dict.set d ind []) net) with
        | .error e => .error e
        | .ok (inds, _, _) => .ok inds

end generic

/-- one combination of layers (independent_equations.py 39-74). -/
def independentStep (xrange : Bool) (B : Backend α β σ) (T : Tables α W σ) (ord : Finset α → List α) (ordS : List α → List α)
    (ordE : List (Option (EqKey (Orbit α))) → List (Option (EqKey (Orbit α)))) (n nl : Nat) (layers : List α)
    (eqs : Dict (EqKey (Orbit α)) (List (Orbit α))) (inds : List (Option (EqKey (Orbit α)))) (layerComb : List α) :
    Except Err (List (Option (EqKey (Orbit α)))) :=
  let eqsSub := if layers.length = nl then eqs else eqsInLayers layerComb eqs T.nets
  if n = 3 then .ok (((definitelyIndependent (fun o => o.1) eqsSub).1.map some).foldl sadd inds)
  else
    match independentMany (fun o => o.1) (subtrahend xrange B T ord ordS) n (fun o => orbitInLayers T o layerComb) (listOrbits T.auts)
      ordE eqsSub with
    | .error e => .error e
    | .ok independent => .ok (independent.foldl sadd inds)

/-- `independent_equations` (independent_equations.py 8-76): the set `inds` and the equations. `graphlets` is called without couplings. -/
def independentEquations (xrange : Bool) (B : Backend α β σ) (gens : CGraph → List (Dict Nat Nat)) (idx : Nat → α) (int : Int → α)
    (neg : α → Bool) (ord : Finset α → List α) (ordS : List α → List α)
    (ordE : List (Option (EqKey (Orbit α))) → List (Option (EqKey (Orbit α)))) (n nl : Nat) (layers : List α) :
    Except Err (List (Option (EqKey (Orbit α))) × Dict (OrbitKey α) (Dict (Orbit α) ℚ)) :=
  match graphlets (W := W) B.canon B.str B.allowed [.uncoupled none] idx n layers (some nl) with
  | .error e => .error e
  | .ok (nets, invs) =>
    match automorphismOrbitsAll gens B.allowed nets with
    | .error e => .error e
    | .ok auts =>
      match orbitEquations B ⟨nets, invs, auts⟩ int neg ord n with
      | .error e => .error e
      | .ok eqs =>
        match forE (independentStep xrange B ⟨nets, invs, auts⟩ ord ordS ordE n nl layers (eqsOf eqs)) (combinations layers nl) [] with
        | .error e => .error e
        | .ok inds => .ok (inds, eqs)

end Pymnet
