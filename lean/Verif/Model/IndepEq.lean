import Verif.Model.Graphlets

/-!
Model of `/repo/pymnet/graphlets/independent_equations.py`: `redundant_orbits` (79-119), `definitely_independent` (186-255),
`all_inds_and_deps` (470-505), `SCCs` (508-525), `reverse` (528-539), `explore` (542-553), `DFS` (556-564),
`independents_and_dependents` (567-591).

A dependency network is a dictionary from equations to sets of equations. Sets are duplicate-free lists; where the order in which a set
is iterated matters it is an argument `ord`. The recursion limit of Python is not modelled.
-/

namespace Pymnet

open Py

variable {κ ω : Type} [DecidableEq κ] [DecidableEq ω]

/-- `explore(v,net,visited,post)` (independent_equations.py 542-553): the set `visited_c` and the list `post` it returns. `visited` is
copied by the code, `post` is shared, but the callers go on with the returned list. The first argument bounds the depth of the
recursion; the callers start it with more than the number of equations (every call visits one more). The test of
`len(net[v]) > 0` before the loop changes nothing. -/
def explore (net : Dict κ (List κ)) : Nat → κ → List κ × List κ → Except Err (List κ × List κ)
  | 0, _, _ => .error .exception
  | fuel + 1, v, s =>
    match Dict.get net v with
    | none => .error .keyError
    | some us =>
      match forE (fun (s : List κ × List κ) u => if u ∈ s.1 then .ok s else explore net fuel u s) us (sadd s.1 v, s.2) with
      | .error e => .error e
      | .ok s => .ok (s.1, s.2 ++ [v])

/-- `DFS(net)` (independent_equations.py 556-564). -/
def dfs (net : Dict κ (List κ)) : Except Err (List κ) :=
  match forE (fun (s : List κ × List κ) v => if v ∈ s.1 then .ok s else explore net (net.length + 1) v s) (Dict.keys net) ([], []) with
  | .error e => .error e
  | .ok s => .ok s.2

/-- `net_r[eq2].add(eq1)` (independent_equations.py 537). -/
def addReversed (eq1 : κ) (d : Dict κ (List κ)) (eq2 : κ) : Except Err (Dict κ (List κ)) :=
  match Dict.get d eq2 with
  | none => .error .keyError
  | some s => .ok (Dict.set d eq2 (sadd s eq1))

/-- `reverse(eq_net)` (independent_equations.py 528-539). -/
def reverseNet (net : Dict κ (List κ)) : Except Err (Dict κ (List κ)) :=
  forE (fun d p => forE (addReversed p.1) p.2 d) net (net.foldl (fun d p => Dict.set d p.1 []) [])

/-- State of the loop of `SCCs`: the components found so far, the number of the next, the visited equations, `post2`. -/
structure SccState (κ : Type) where
  scc : Dict Nat (List κ)
  k : Nat
  visited : List κ
  post2 : List κ

/-- one `v=post.pop()` of the loop of `SCCs` (independent_equations.py 518-523). -/
def sccStep (net : Dict κ (List κ)) (s : SccState κ) (v : κ) : Except Err (SccState κ) :=
  if v ∈ s.visited then .ok s
  else
    match explore net (net.length + 1) v (s.visited, s.post2) with
    | .error e => .error e
    | .ok r => .ok { scc := Dict.set s.scc s.k (r.1.filter (· ∉ s.visited)), k := s.k + 1, visited := r.1, post2 := r.2 }

/-- `SCCs(net)` (independent_equations.py 508-525). -/
def sccs (net : Dict κ (List κ)) : Except Err (Dict Nat (List κ)) :=
  match reverseNet net with
  | .error e => .error e
  | .ok r =>
    match dfs r with
    | .error e => .error e
    | .ok post =>
      match forE (sccStep net) post.reverse { scc := [], k := 1, visited := [], post2 := [] } with
      | .error e => .error e
      | .ok s => .ok s.scc

/-- one equation of a component without equations of three orbits (independent_equations.py 581-589). -/
def placeEq (net : Dict κ (List κ)) (s : List κ × List κ) (eq : κ) : Except Err (List κ × List κ) :=
  match Dict.get net eq with
  | none => .error .keyError
  | some ds =>
    if ds.length = 0 then .ok (sadd s.1 eq, s.2)
    else if ds.all (fun d => d ∈ s.1 || d ∈ s.2) then .ok (s.1, sadd s.2 eq)
    else .ok (sadd s.1 eq, s.2)

/-- one component (independent_equations.py 572-589): `three eq` is `len(eq)==3`. -/
def placeScc (three : κ → Bool) (ord : List κ → List κ) (net : Dict κ (List κ)) (s : List κ × List κ) (c : List κ) :
    Except Err (List κ × List κ) :=
  match (ord c).find? three with
  | some eq => .ok ((c.filter (· ≠ eq)).foldl sadd s.1, sadd s.2 eq)
  | none => forE (placeEq net) (ord c) s

/-- `independents_and_dependents(SCC,eq_net)` (independent_equations.py 567-591). -/
def indepsAndDeps (three : κ → Bool) (ord : List κ → List κ) (scc : Dict Nat (List κ)) (net : Dict κ (List κ)) :
    Except Err (List κ × List κ) :=
  forE (placeScc three ord net) (scc.map Prod.snd) ([], [])

/-- State of the loop of `all_inds_and_deps`. `best` is `none` before `eq_net_best` is assigned. -/
structure BestState (κ : Type) where
  maxDeps : Nat
  inds : List κ
  deps : List κ
  best : Option (Dict κ (List κ))

/-- the dependency network of one combination of alternatives (independent_equations.py 489-492): `eqs` are the equations with several
alternatives, `choice` the sets taken for them. -/
def choose (base : Dict κ (List κ)) (eqs : List κ) (choice : List (List κ)) : Dict κ (List κ) :=
  (eqs.zip choice).foldl (fun d p => Dict.set d p.1 p.2) base

/-- one combination (independent_equations.py 488-501). -/
def tryChoice (three : κ → Bool) (ord : List κ → List κ) (base : Dict κ (List κ)) (eqs : List κ) (s : BestState κ)
    (choice : List (List κ)) : Except Err (BestState κ) :=
  match sccs (choose base eqs choice) with
  | .error e => .error e
  | .ok scc =>
    match indepsAndDeps three ord scc (choose base eqs choice) with
    | .error e => .error e
    | .ok r =>
      if s.maxDeps < r.2.length then
        .ok { maxDeps := r.2.length, inds := r.1, deps := r.2, best := some (choose base eqs choice) }
      else .ok s

/-- `all_inds_and_deps(eq_net)` (independent_equations.py 470-505), for a dictionary from equations to lists of sets. Equations with
one set get this set, those with none an empty list (lines 476-484); the sets of equations with several are overwritten by every
combination before they are read, so their value in `base` does not matter. The combinations of indices are combinations of sets
here. If no combination has a dependent equation, `eq_net_best` is not assigned. -/
def allIndsAndDeps (three : κ → Bool) (ord : List κ → List κ) (net : Dict κ (List (List κ))) :
    Except Err (List κ × List κ × Dict κ (List κ)) :=
  let several := net.filter fun p => 1 < p.2.length
  match forE (tryChoice three ord (net.map fun p => (p.1, p.2.headD [])) (several.map Prod.fst)) (product (several.map Prod.snd))
      { maxDeps := 0, inds := [], deps := [], best := none } with
  | .error e => .error e
  | .ok s =>
    match s.best with
    | none => .error .unboundLocalError
    | some b => .ok (s.inds, s.deps, b)

/-- The key of an equation: `((o1,1),(o2,1))`, `(o,2)`, or `(o1,o2,o3)` (graphlets.py 246-251, independent_equations.py 402-405). -/
inductive EqKey (ω : Type)
  | pair (o1 o2 : ω)
  | square (o : ω)
  | triple (o1 o2 o3 : ω)
  deriving DecidableEq, Repr

/-- `len(eq)==3`. -/
def EqKey.three : EqKey ω → Bool
  | .triple _ _ _ => true
  | _ => false

/-- the orbits that `definitely_independent` takes from the key (independent_equations.py 215-232): those on the left side (of a
key `(o1,o2,o3)` only the first; such keys do not occur in its argument). -/
def EqKey.left : EqKey ω → List ω
  | .pair o1 o2 => [o1, o2]
  | .square o => [o]
  | .triple o1 _ _ => [o1]

/-- `eq_set` of an equation (independent_equations.py 209-232). `rhs` are the keys of `eqs[eq]`. -/
def eqSet (eq : EqKey ω) (rhs : List ω) : List ω := eq.left.foldl sadd (toSet rhs)

/-- `while len(eq_set) > 0 and j < len(eq_sets)` (independent_equations.py 242-248): `eq_set` without the other equations' orbits.
Leaving the loop early changes nothing. -/
def without (i : Nat) (s : List ω) : List (List ω) → Nat → List ω
  | [], _ => s
  | t :: ts, j => without i (if i ≠ j then s.filter (· ∉ t) else s) ts (j + 1)

/-- `definitely_independent(eqs)` (independent_equations.py 186-255): the sets `independent` and `undefined`, and `set_eqs`. `size o` is
the number of nodes `o[0]` of the graphlet. -/
def definitelyIndependent (size : ω → Nat) (eqs : Dict (EqKey ω) (List ω)) :
    List (EqKey ω) × List (EqKey ω) × Dict (EqKey ω) (List ω) :=
  let small := (eqs.map Prod.fst).filter fun eq => eq.left.all fun o => size o = 2
  let sets := eqs.map fun p => eqSet p.1 p.2
  let r := ((eqs.map Prod.fst).zipIdx).foldl (fun (r : List (EqKey ω) × List (EqKey ω)) p =>
    if p.1 ∈ r.1 then r
    else if 0 < (without p.2 (sets.getD p.2 []) sets 0).length then (sadd r.1 p.1, r.2) else (r.1, sadd r.2 p.1)) (toSet small, [])
  (r.1, r.2, eqs.map fun p => (p.1, toSet p.2))

/-- `max` of a set of numbers; `ValueError` if it is empty. -/
def maxE : List Nat → Except Err Nat
  | [] => .error .valueError
  | a :: t => .ok (t.foldl max a)

/-- `while o_max in redundants` (independent_equations.py 107-110). The first argument bounds the number of rounds; every round
removes one number. -/
def freeMax (redundants : List Nat) : Nat → List Nat → Nat → Except Err Nat
  | 0, _, m => .ok m
  | fuel + 1, os, m =>
    if m ∈ redundants then
      match maxE (os.filter (· ≠ m)) with
      | .error e => .error e
      | .ok m' => freeMax redundants fuel (os.filter (· ≠ m)) m'
    else .ok m

/-- the numbers of the orbits of an equation (independent_equations.py 101-104). -/
def orbitNumbersOf (orbitIs : Dict ω Nat) (rhs : List ω) : Except Err (List Nat) :=
  forE (fun os o => match Dict.get orbitIs o with
    | none => .error .keyError
    | some n => .ok (sadd os n)) rhs []

/-- one independent equation (independent_equations.py 100-112). -/
def addRedundant (eqs : Dict κ (List ω)) (orbitIs : Dict ω Nat) (redundants : List Nat) (eq : κ) : Except Err (List Nat) :=
  match Dict.get eqs eq with
  | none => .error .keyError
  | some rhs =>
    match orbitNumbersOf orbitIs rhs with
    | .error e => .error e
    | .ok os =>
      match maxE os with
      | .error e => .error e
      | .ok m =>
        match freeMax redundants os.length os m with
        | .error e => .error e
        | .ok m => .ok (sadd redundants m)

/-- `redundant_orbits(inds,eqs,orbit_is,orbit_list)` (independent_equations.py 79-119). `inds` is the order in which the set of equations
is iterated, `ord` that of the set of numbers, `str` is `str` of an orbit. -/
def redundantOrbits {τ : Type} (str : ω → τ) (ord : List Nat → List Nat) (inds : List κ) (eqs : Dict κ (List ω)) (orbitIs : Dict ω Nat)
    (orbitList : List ω) : Except Err (List τ) :=
  match forE (addRedundant eqs orbitIs) inds [] with
  | .error e => .error e
  | .ok rs => forE (fun out i => match orbitList[i]? with
      | none => .error .indexError
      | some o => .ok (out ++ [str o])) (ord rs) []

end Pymnet
