import Verif.Model.Transforms

/-!
Model of `/repo/pymnet/sampling/{reqs,dumb,esu}.py` for one-aspect `MultilayerNetwork` objects: the
requirements on induced subgraphs, their exhaustive enumeration, and the sampling algorithm. Parameters of
the model: `conn` (what `pymnet.nx.is_connected` answers for a monoplex network, `False` where it raises
`NetworkXPointlessConcept`, which the callers turn into `False`), `name` (`str` of a node-layer), `coin`
(the outcome of `random.random() < p[depth]`) and `pick` (which element `set.pop()` takes).
-/

namespace Pymnet

open Py

variable {α W β : Type} [DecidableEq α] [DecidableEq W] [DecidableEq β]

/-! ### Python's `itertools` and short-circuiting loops -/

/-- `itertools.combinations(l,k)`. -/
def combinations {γ : Type} : List γ → Nat → List (List γ)
  | _, 0 => [[]]
  | [], _ + 1 => []
  | a :: t, k + 1 => (combinations t k).map (a :: ·) ++ combinations t (k + 1)

/-- every element of a list with the others. -/
def picks {γ : Type} : List γ → List (γ × List γ)
  | [] => []
  | a :: t => (a, t) :: (picks t).map fun p => (p.1, a :: p.2)

/-- `itertools.permutations(l,n)`. -/
def permsN {γ : Type} : Nat → List γ → List (List γ)
  | 0, _ => [[]]
  | n + 1, l => (picks l).flatMap fun p => (permsN n p.2).map (p.1 :: ·)

/-- `itertools.permutations(l)`. -/
def permutations {γ : Type} (l : List γ) : List (List γ) := permsN l.length l

/-- a loop that stops at the first element failing the test. -/
def allE {γ : Type} (f : γ → Except Err Bool) : List γ → Except Err Bool
  | [] => .ok true
  | a :: t =>
    match f a with
    | .error e => .error e
    | .ok false => .ok false
    | .ok true => allE f t

/-- a loop that stops at the first element passing the test. -/
def anyE {γ : Type} (f : γ → Except Err Bool) : List γ → Except Err Bool
  | [] => .ok false
  | a :: t =>
    match f a with
    | .error e => .error e
    | .ok true => .ok true
    | .ok false => anyE f t

/-! ### Requirements -/

/-- the body of the loop of `default_calculate_required_lengths` (reqs.py 329-334). -/
def requiredStep (isects : List Int) (ii : Nat) (s : Int × Nat) : Except Err (Int × Nat) :=
  match isects[s.2]? with
  | none => .error .indexError
  | some k => if ii % 2 = 0 then .ok (s.1 - k, s.2 + 1) else .ok (s.1 + k, s.2 + 1)

/-- `default_calculate_required_lengths` (reqs.py 271-335). The requirements are integers, so the
`isinstance` tests are true. -/
def requiredLengths (sizes isects : List Int) : Except Err (Int × Int) :=
  if sizes = [] then .error .assertionError
  else if isects.length ≠ 2 ^ sizes.length - sizes.length - 1 then .error .assertionError
  else if ¬ ((∀ i ∈ sizes, i ≥ 1) ∧ ∀ j ∈ isects, j ≥ 0) then .error .assertionError
  else if isects = [] then .ok (sizes.headD 0, 1)
  else
    match forE (fun s ii => forE (fun s _ => requiredStep isects ii s) (combinations sizes ii) s)
        (List.range' 2 (sizes.length - 1)) (sizes.sum, 0) with
    | .error e => .error e
    | .ok s => .ok (s.1, sizes.length)

/-- is the induced subgraph connected (reqs.py 199-203, 386-390)? -/
def inducedConnected (conn : MNet β W → Bool) (name : List α → β) (ind : MNet α W) : Except Err Bool :=
  match ind.view.underlying name with
  | .error e => .error e
  | .ok g => .ok (conn g)

/-- no empty layers and no empty nodes (reqs.py 206-222, 392-408). -/
def noEmpty (nls : List (List α)) (nodes layers : List α) : Bool :=
  (layers.all fun l => nodes.any fun n => decide ([n, l] ∈ nls)) &&
    nodes.all fun n => layers.any fun l => decide ([n, l] ∈ nls)

/-- `relaxed_check_reqs` (reqs.py 339-410). -/
def relaxedCheck (conn : MNet β W → Bool) (name : List α → β) (m : MNet α W) (nodes layers : List α) :
    Except Err Bool :=
  match m.subnet [some nodes, some layers] false with
  | .error e => .error e
  | .ok ind =>
    match inducedConnected conn name ind with
    | .error e => .error e
    | .ok c => if c then .ok (noEmpty ind.nodeLayers nodes layers) else .ok false

/-- the argument `intersection_type`. -/
inductive IType
  | strict | lessOrEqual | other
  deriving DecidableEq, Repr

/-- `d[nodelayer[1]].append(nodelayer[0])` after `setdefault` (reqs.py 224-227). -/
def byLayer : List (List α) → Dict α (List α) → Dict α (List α)
  | [], d => d
  | nl :: t, d =>
    match nl with
    | n :: l :: _ => byLayer t (Dict.set d l ((Dict.get d l).getD [] ++ [n]))
    | _ => byLayer t d

/-- `d_isect[combination] = intersections[indexer]` (reqs.py 234-235). -/
def tableStep (isects : List (Option Int)) (s : Dict (List Nat) (Option Int) × Nat) (c : List Nat) :
    Except Err (Dict (List Nat) (Option Int) × Nat) :=
  match isects[s.2]? with
  | none => .error .indexError
  | some k => .ok (Dict.set s.1 c k, s.2 + 1)

/-- `d_isect` (reqs.py 230-235). -/
def isectTable (nlayers : Nat) (isects : List (Option Int)) : Except Err (Dict (List Nat) (Option Int)) :=
  match forE (fun s jj => forE (tableStep isects) (combinations (List.range nlayers) jj) s)
      (List.range' 2 (nlayers - 1)) (([], 0) : Dict (List Nat) (Option Int) × Nat) with
  | .error e => .error e
  | .ok s => .ok s.1

/-- `d[l]` for the layers `l` of a combination, intersected (reqs.py 249-252). -/
def meetAll (d : Dict α (List α)) : List α → List α → Except Err (List α)
  | acc, [] => .ok acc
  | acc, l :: t =>
    match Dict.get d l with
    | none => .error .keyError
    | some ns => meetAll d (acc.filter (· ∈ ns)) t

/-- the test of one combination of layers (reqs.py 243-262). -/
def combFits (d : Dict α (List α)) (sizes : List Int) (table : Dict (List Nat) (Option Int)) (it : IType)
    (perm comb : List α) : Except Err Bool :=
  match comb with
  | [] => .error .assertionError
  | [c] =>
    match Dict.get d c with
    | none => .error .keyError
    | some ns =>
      match sizes[perm.idxOf c]? with
      | none => .error .indexError
      | some s => .ok (decide ((ns.length : Int) = s))
  | c :: _ =>
    match Dict.get d c with
    | none => .error .keyError
    | some ns =>
      match meetAll d (toSet ns) comb with
      | .error e => .error e
      | .ok common =>
        if it = .other then .ok true
        else
          match Dict.get table (pySorted (comb.map perm.idxOf)) with
          | none => .error .keyError
          | some none => .ok true
          | some (some k) =>
            if it = .strict then .ok (decide ((common.length : Int) = k)) else .ok (decide ((common.length : Int) ≤ k))

/-- the test of one permutation of the layers (reqs.py 236-265). -/
def permFits (d : Dict α (List α)) (sizes : List Int) (table : Dict (List Nat) (Option Int)) (it : IType)
    (perm : List α) : Except Err Bool :=
  allE (fun ii => allE (combFits d sizes table it perm) (combinations perm ii)) (List.range' 1 perm.length)

/-- `default_calculate_required_lengths(sizes,intersections)` where `intersections` may contain `None`
(reqs.py 173-179, 188-193). -/
def requiredOf (sizes : List Int) (isects : List (Option Int)) : Except Err (Int × Int) :=
  if none ∈ isects then .error .typeError else requiredLengths sizes (isects.filterMap id)

/-- the required numbers of nodes and of layers (reqs.py 168-194). -/
def checkLengths (sizes : List Int) (isects : List (Option Int)) (nnodes nlayers : Option Int) (it : IType) :
    Except Err (Int × Int) :=
  match it with
  | .strict =>
    match nnodes, nlayers with
    | some a, some b => .ok (a, b)
    | _, _ => requiredOf sizes isects
  | .lessOrEqual =>
    match nnodes with
    | none => .error .assertionError
    | some a =>
      match nlayers with
      | some b => .ok (a, b)
      | none =>
        match requiredOf sizes isects with
        | .error e => .error e
        | .ok r => .ok (a, r.2)
  | .other => .error .typeError

/-- `default_check_reqs` (reqs.py 7-267). -/
def defaultCheck (conn : MNet β W → Bool) (name : List α → β) (sizes : List Int) (isects : List (Option Int))
    (nnodes nlayers : Option Int) (it : IType) (m : MNet α W) (nodes layers : List α) : Except Err Bool :=
  match checkLengths sizes isects nnodes nlayers it with
  | .error e => .error e
  | .ok req =>
    if (nodes.length : Int) ≠ req.1 then .error .assertionError
    else if (layers.length : Int) ≠ req.2 then .error .assertionError
    else if ¬ ∀ i ∈ sizes, i ≥ 1 then .error .assertionError
    else
      match m.subnet [some nodes, some layers] false with
      | .error e => .error e
      | .ok ind =>
        match inducedConnected conn name ind with
        | .error e => .error e
        | .ok c =>
          if c then
            if noEmpty ind.nodeLayers nodes layers then
              let d := byLayer ind.nodeLayers []
              if (d.length : Int) ≠ req.2 then .ok false
              else
                match isectTable layers.length isects with
                | .error e => .error e
                | .ok table => anyE (permFits d sizes table it) (permutations layers)
            else .ok false
          else .ok false

/-! ### Parameters of the two enumerations -/

/-- the argument `intersections`: a list, or the size of the intersection of all layers. -/
inductive Isects
  | list (l : List (Option Int))
  | common (k : Int)
  deriving DecidableEq, Repr

/-- the arguments that determine what is searched for. -/
structure Wanted (α W : Type) where
  sizes : Option (List Int) := none
  isects : Option Isects := none
  nnodes : Option Int := none
  nlayers : Option Int := none
  itype : IType := .strict
  custom : Option (MNet α W → List α → List α → Except Err Bool) := none

/-- required numbers of nodes and layers, and the check. -/
structure Search (α W : Type) where
  rn : Int
  rl : Int
  check : MNet α W → List α → List α → Except Err Bool

/-- `lambda x,y,z: default_check_reqs(x,y,z,sizes,intersections,req_nodelist_len,req_layerlist_len,intersection_type)`
with the required lengths (dumb.py 47, esu.py 255). -/
def listSearch (conn : MNet β W → Bool) (name : List α → β) (sizes : List Int) (l : List (Option Int)) (it : IType) (a b : Int) :
    Search α W :=
  ⟨a, b, defaultCheck conn name sizes l (some a) (some b) it⟩

/-- `sizes` and a list `intersections` (dumb.py 35-47, esu.py 243-255). For an unknown
`intersection_type` the lengths stay unassigned, and their first use raises `UnboundLocalError`. -/
def wantedList (conn : MNet β W → Bool) (name : List α → β) (sizes : List Int) (l : List (Option Int))
    (nnodes nlayers : Option Int) (it : IType) : Except Err (Search α W) :=
  if none ∈ l then
    match nnodes with
    | none => .error .assertionError
    | some a => .ok (listSearch conn name sizes l it a sizes.length)
  else
    match it with
    | .strict =>
      if nnodes = none ∧ nlayers = none then
        match requiredLengths sizes (l.filterMap id) with
        | .error e => .error e
        | .ok r => .ok (listSearch conn name sizes l it r.1 r.2)
      else .error .assertionError
    | .lessOrEqual =>
      match nnodes, nlayers with
      | some a, none => .ok (listSearch conn name sizes l it a sizes.length)
      | _, _ => .error .assertionError
    | .other => .error .unboundLocalError

/-- `intersections_as_list` (dumb.py 53-54, esu.py 261-262). -/
def commonList (n : Nat) (k : Int) : Except Err (List (Option Int)) :=
  match List.replicate (2 ^ n - n - 1) (none : Option Int) with
  | [] => .error .indexError
  | _ :: t => .ok (t ++ [some k])

/-- the treatment of the arguments (dumb.py 26-63, esu.py 234-271). -/
def Wanted.search (conn : MNet β W → Bool) (name : List α → β) (w : Wanted α W) : Except Err (Search α W) :=
  if ¬ ((w.sizes ≠ none ∧ w.isects ≠ none) ∨ (w.nnodes ≠ none ∧ w.nlayers ≠ none)) then .error .assertionError
  else
    match w.custom with
    | some f =>
      match w.nnodes, w.nlayers with
      | some a, some b => .ok ⟨a, b, f⟩
      | _, _ => .error .assertionError
    | none =>
      match w.sizes, w.isects with
      | some sizes, some (.list l) => wantedList conn name sizes l w.nnodes w.nlayers w.itype
      | some sizes, some (.common k) =>
        if k < 0 then .error .assertionError
        else
          match w.nnodes, w.nlayers with
          | some a, none =>
            match commonList sizes.length k with
            | .error e => .error e
            | .ok l => .ok ⟨a, sizes.length, defaultCheck conn name sizes l (some a) (some (sizes.length : Int)) w.itype⟩
          | _, _ => .error .assertionError
      | some _, none => .error .assertionError
      | none, some _ => .error .assertionError
      | none, none =>
        match w.nnodes, w.nlayers with
        | some a, some b => if a > 0 ∧ b > 0 then .ok ⟨a, b, relaxedCheck conn name⟩ else .error .assertionError
        | _, _ => .error .assertionError

/-! ### dumb_enumeration -/

/-- `itertools.combinations` with an integer length: `ValueError` if it is negative. -/
def combinationsI {γ : Type} (l : List γ) (k : Int) : Except Err (List (List γ)) :=
  if k < 0 then .error .valueError else .ok (combinations l k.toNat)

/-- the innermost body (dumb.py 67-73). The container is a list. -/
def dumbStep (check : List α → List α → Except Err Bool) (nodes : List α) (res : List (List α × List α))
    (layers : List α) : Except Err (List (List α × List α)) :=
  match check nodes layers with
  | .error e => .error e
  | .ok b => if b then .ok (res ++ [(nodes, layers)]) else .ok res

/-- the two loops (dumb.py 65-73). -/
def dumbLoop (m : MNet α W) (s : Search α W) : Except Err (List (List α × List α)) :=
  match combinationsI (m.slices.headD []) s.rn with
  | .error e => .error e
  | .ok ns =>
    forE (fun res nodes =>
      match combinationsI (m.slices.getD 1 []) s.rl with
      | .error e => .error e
      | .ok ls => forE (dumbStep (s.check m) nodes) ls res) ns []

/-- `dumb_enumeration` (dumb.py 6-73) of a one-aspect network: what is added to `results`. -/
def dumbEnumeration (conn : MNet β W → Bool) (name : List α → β) (w : Wanted α W) (m : MNet α W) :
    Except Err (List (List α × List α)) :=
  match w.search conn name with
  | .error e => .error e
  | .ok s => dumbLoop m s

/-! ### sample_multilayer_subgraphs_esu -/

/-- `numberings[x]` (esu.py 280-281): the node-layers are numbered in the order of `iter_node_layers`. -/
def number (nls : List (List α)) (x : List α) : Except Err Nat :=
  if x ∈ nls then .ok (nls.idxOf x) else .error .keyError

/-- `nl in numberings and numberings[nl] < numberings[v]` (esu.py 299-302, 370, 378). -/
def lowerThan (nls : List (List α)) (v x : List α) : Bool :=
  decide (x ∈ nls) && decide (nls.idxOf x < nls.idxOf v)

/-- one neighbour of the first node-layer (esu.py 293-310). -/
def startStep (nls : List (List α)) (v : List α) (n0 l0 : α) (s : List α × List α) (b : List α) :
    Except Err (List α × List α) :=
  match number nls b with
  | .error e => .error e
  | .ok k =>
    if k > nls.idxOf v then
      match b with
      | n :: l :: _ =>
        .ok (if n ≠ n0 ∧ lowerThan nls v [n, l0] = false ∧ n ∉ s.1 then s.1 ++ [n] else s.1,
          if l ≠ l0 ∧ lowerThan nls v [n0, l] = false ∧ l ∉ s.2 then s.2 ++ [l] else s.2)
      | _ => .error .indexError
    else .ok s

/-- one neighbour in the computation of the original neighbourhood (esu.py 343-347); the number is
looked up only if the first two tests hold. -/
def origAdd (nls : List (List α)) (v : List α) (have_ : List α) (s : List α) (x : α) (b : List α) :
    Except Err (List α) :=
  if x ∉ have_ ∧ x ∉ s then
    match number nls b with
    | .error e => .error e
    | .ok k => .ok (if k > nls.idxOf v then s ++ [x] else s)
  else .ok s

/-- both tests for one neighbour (esu.py 343-347). -/
def origStep (nls : List (List α)) (v N L : List α) (s : List α × List α) (b : List α) : Except Err (List α × List α) :=
  match b with
  | n :: l :: _ =>
    match origAdd nls v N s.1 n b with
    | .error e => .error e
    | .ok s1 =>
      match origAdd nls v L s.2 l b with
      | .error e => .error e
      | .ok s2 => .ok (s1, s2)
  | _ => .error .indexError

/-- the neighbours of the node-layers of a product that exist (esu.py 337, 342, 359-361, 364). -/
def neighborsOf (m : MNet α W) (nls : List (List α)) (N L : List α) : List (List α) :=
  ((product [N, L]).filter (· ∈ nls)).flatMap fun a => m.iterTotal a none

/-- one neighbour of the added node-layers (esu.py 365-380). -/
def extStep (nls : List (List α)) (v N L ON OL : List α) (s : List α × List α) (b : List α) :
    Except Err (List α × List α) :=
  match number nls b with
  | .error e => .error e
  | .ok k =>
    if k > nls.idxOf v then
      match b with
      | n :: l :: _ =>
        .ok (if n ∉ ON ∧ n ∉ s.1 ∧ n ∉ N ∧ (product [[n], L]).all (fun x => !lowerThan nls v x) then s.1 ++ [n] else s.1,
          if l ∉ OL ∧ l ∉ s.2 ∧ l ∉ L ∧ (product [N, [l]]).all (fun x => !lowerThan nls v x) then s.2 ++ [l] else s.2)
      | _ => .error .indexError
    else .ok s

/-- `V.pop()`: some element, and the others. Which one is chosen is not specified by Python. -/
def popAt (pick : List α → Nat) (V : List α) : Option (α × List α) :=
  match V[pick V % V.length]? with
  | none => none
  | some x => some (x, V.eraseIdx (pick V % V.length))

/-- what an `_extend_subgraph` call needs besides the subgraph and its extensions (esu.py 318). `coin v t` is the
outcome of `random.random() < p[depth]` at one place of the search from `v`: `t` lists, for each enclosing
`while` loop, how many extensions remained, so no two draws have the same `v` and `t`, and `depth` is the
length of `t`. -/
structure Ctx (α W : Type) where
  m : MNet α W
  check : List α → List α → Except Err Bool
  nls : List (List α)
  v : List α
  rn : Int
  rl : Int
  coin : List α → List Nat → Bool
  pick : List α → Nat

/-- the extensions of the enlarged subgraph (esu.py 358-380). -/
def Ctx.primes (c : Ctx α W) (N L ON OL VN VL : List α) (addedN addedL : List α) : Except Err (List α × List α) :=
  forE (extStep c.nls c.v N L ON OL) (neighborsOf c.m c.nls addedN addedL) (VN, VL)

/-- the recursive call for an enlarged subgraph `N`, `L` if the coin says so (esu.py 357-382). -/
def Ctx.child (c : Ctx α W) (rec : List Nat → List α → List α → List α → List α → Except Err (List (List α × List α)))
    (tr : List Nat) (ON OL N L VN VL addedN addedL : List α) : Except Err (List (List α × List α)) :=
  if c.coin c.v tr then
    match c.primes N L ON OL VN VL addedN addedL with
    | .error e => .error e
    | .ok s => rec tr N L s.1 s.2
  else .ok []

/-- the `while` loop (esu.py 349-382); the number is the number of remaining extensions. -/
def Ctx.loop (c : Ctx α W) (rec : List Nat → List α → List α → List α → List α → Except Err (List (List α × List α)))
    (tr : List Nat) (N L ON OL : List α) : Nat → List α → List α → Except Err (List (List α × List α))
  | 0, _, _ => .ok []
  | k + 1, VN, VL =>
    match popAt c.pick VN with
    | some (x, VN') =>
      match c.child rec (tr ++ [k]) ON OL (N ++ [x]) L VN' VL [x] L with
      | .error e => .error e
      | .ok r =>
        match c.loop rec tr N L ON OL k VN' VL with
        | .error e => .error e
        | .ok r' => .ok (r ++ r')
    | none =>
      match popAt c.pick VL with
      | some (y, VL') =>
        match c.child rec (tr ++ [k]) ON OL N (L ++ [y]) VN VL' N [y] with
        | .error e => .error e
        | .ok r =>
          match c.loop rec tr N L ON OL k VN VL' with
          | .error e => .error e
          | .ok r' => .ok (r ++ r')
      | none => .ok []

/-- `_extend_subgraph` (esu.py 318-383): what is added to `results`. The first argument bounds the depth of
the recursion; the code has no bound, and no call made by `esu` reaches it (it would be an exception here). -/
def Ctx.extend (c : Ctx α W) : Nat → List Nat → List α → List α → List α → List α → Except Err (List (List α × List α))
  | 0, _, _, _, _, _ => .error .exception
  | fuel + 1, tr, N, L, VN, VL =>
    if (N.length : Int) > c.rn ∨ (L.length : Int) > c.rl then .ok []
    else if (N.length : Int) = c.rn ∧ (L.length : Int) = c.rl then
      match c.check N L with
      | .error e => .error e
      | .ok b => .ok (if b then [(N, L)] else [])
    else
      let VN := if (N.length : Int) = c.rn then [] else VN
      match forE (origStep c.nls c.v N L) (neighborsOf c.m c.nls N L) (([], []) : List α × List α) with
      | .error e => .error e
      | .ok o => c.loop (c.extend fuel) tr N L o.1 o.2 (VN.length + VL.length) VN VL

/-- the search from one node-layer (esu.py 287-311). -/
def Ctx.root (c : Ctx α W) : Except Err (List (List α × List α)) :=
  match c.v with
  | n0 :: l0 :: _ =>
    if c.coin c.v [] then
      match forE (startStep c.nls c.v n0 l0) (c.m.iterTotal c.v none) (([], []) : List α × List α) with
      | .error e => .error e
      | .ok s => c.extend (c.rn + c.rl).toNat [] [n0] [l0] s.1 s.2
    else .ok []
  | _ => .error .indexError

/-- removing the links of a node-layer (esu.py 312-314). -/
def removeLinks (zero : W) (m : MNet α W) (v : List α) : Except Err (MNet α W) :=
  forE (fun (m : MNet α W) b => (m.nodeSet b v zero).toExcept) (m.iterTotal v none) m

/-- the loop over the node-layers (esu.py 285-314). -/
def esuLoop (copy : Bool) (zero : W) (s : Search α W) (coin : List α → List Nat → Bool) (pick : List α → Nat)
    (nls : List (List α)) : List (List α) → MNet α W → Except Err (List (List α × List α))
  | [], _ => .ok []
  | v :: t, m =>
    match (Ctx.mk m (s.check m) nls v s.rn s.rl coin pick).root with
    | .error e => .error e
    | .ok r =>
      match (if copy then removeLinks zero m v else .ok m) with
      | .error e => .error e
      | .ok m =>
        match esuLoop copy zero s coin pick nls t m with
        | .error e => .error e
        | .ok r' => .ok (r ++ r')

/-- `sample_multilayer_subgraphs_esu` (esu.py 8-314) of a one-aspect network: what is added to `results`.
`zero` is the number `0`, the `noEdge` value of the copy and the value written to remove links. `p` is not
modelled: `coin` gives the outcomes of `random.random() < p[depth]`, see `Ctx`. -/
def esu (conn : MNet β W → Bool) (name : List α → β) (w : Wanted α W) (copy : Bool) (zero : W)
    (coin : List α → List Nat → Bool) (pick : List α → Nat) (m : MNet α W) : Except Err (List (List α × List α)) :=
  match (if copy then
      m.view.subnetInto [some (m.slices.headD []), some (m.slices.getD 1 [])] false (MNet.init 1 zero false false)
    else .ok m) with
  | .error e => .error e
  | .ok m =>
    match w.search conn name with
    | .error e => .error e
    | .ok s => esuLoop copy zero s coin pick m.nodeLayers m.nodeLayers m

end Pymnet
