import Verif.Py.Dict

/-!
Model of `MultilayerNetwork` (`/repo/pymnet/net.py` 1-654), function by function.
-/

namespace Pymnet

open Py

/-- Python exceptions that the modelled code can raise. -/
inductive Err
  | keyError | assertionError | typeError | indexError | attributeError | nameError
  | valueError | zeroDivisionError | unboundLocalError | exception
  deriving DecidableEq, Repr

/-- Result of a mutating call: the state the object is left in, and the exception raised, if any
(Python exceptions do not roll the state back). -/
abbrev Outcome (σ : Type) := σ × Option Err

/-- Sequential composition of two mutating statements: the second is skipped if the first raised. -/
def Outcome.andThen {σ : Type} (r : Outcome σ) (f : σ → Outcome σ) : Outcome σ :=
  match r with
  | (s, none) => f s
  | (s, some e) => (s, some e)

/-- A layer object as it appears in the API: a bare elementary layer in one-aspect networks, a tuple
of elementary layers otherwise (net.py 203-217, 535-541, 605-610). -/
inductive LKey (α : Type)
  | el (a : α)
  | tup (l : List α)
  deriving DecidableEq, Repr

/-- The tuple of elementary layers of a layer object. -/
def LKey.toList {α : Type} : LKey α → List α
  | .el a => [a]
  | .tup l => l

/-- The layer object for the tuple `nl[1:]` of a node-layer: bare for one aspect (net.py 535-541). -/
def LKey.ofList {α : Type} : List α → LKey α
  | [a] => .el a
  | l => .tup l

/-- One index of a subscript: a name or `:` (net.py 497, `COLON`). -/
inductive Idx (α : Type)
  | val (a : α)
  | colon
  deriving DecidableEq, Repr

/-- State of a `MultilayerNetwork` object (net.py 84-110).
`fic` is `fullyInterconnected`. `rnet`/`totalDegree` are only used when `directed`, and
`layerToNodes`/`nodeToLayers` only when not `fic`; Python does not create those attributes otherwise. -/
structure MNet (α W : Type) where
  aspects : Nat
  directed : Bool
  noEdge : W
  fic : Bool
  slices : List (List α)
  net : Dict (List α) (Dict (List α) W)
  rnet : Dict (List α) (Dict (List α) W)
  totalDegree : Dict (List α) Int
  layerToNodes : Dict (LKey α) (List α)
  nodeToLayers : Dict α (List (LKey α))
  deriving DecidableEq, Repr

/-! ### Links and node-layers -/

/-- `l[0::2]` -/
def evens {α : Type} : List α → List α
  | [] => []
  | [a] => [a]
  | a :: _ :: t => a :: evens t

/-- `l[1::2]` -/
def odds {α : Type} : List α → List α
  | [] => []
  | [_] => []
  | _ :: b :: t => b :: odds t

/-- `_link_to_nodes` (net.py 141-146): `(link[0],)+link[2::2], (link[1],)+link[3::2]`;
`IndexError` when there are fewer than two indices. -/
def linkToNodes {α : Type} : List α → Except Err (List α × List α)
  | a :: b :: t => .ok (a :: evens t, b :: odds t)
  | _ => .error .indexError

/-- the interleaving built by the loop in `_nodes_to_link` (net.py 154-158) -/
def interleave {α : Type} : List α → List α → List α
  | a :: as, b :: bs => a :: b :: interleave as bs
  | _, _ => []

/-- `_nodes_to_link` (net.py 148-158), with its length assertion. -/
def nodesToLink {α : Type} (n1 n2 : List α) : Except Err (List α) :=
  if n1.length = n2.length then .ok (interleave n1 n2) else .error .assertionError

/-- `_short_link_to_link` (net.py 160-170). -/
def shortLinkToLink {α : Type} (s : List α) : List α :=
  s.take 2 ++ (s.drop 2).flatMap fun k => [k, k]

namespace MNet

variable {α W : Type} [DecidableEq α] [DecidableEq W]

/-- `MultilayerNetwork.__init__` (net.py 84-110, 134-137). -/
def init (aspects : Nat) (noEdge : W) (directed fullyInterconnected : Bool) : MNet α W where
  aspects := aspects
  directed := directed
  noEdge := noEdge
  fic := if aspects = 0 then true else fullyInterconnected
  slices := List.replicate (aspects + 1) []
  net := []
  rnet := []
  totalDegree := []
  layerToNodes := []
  nodeToLayers := []

/-! ### Nodes and layers -/

/-- `self.slices[a].add(x)`; `IndexError` if there is no aspect `a`. -/
def sliceAdd (m : MNet α W) (a : Nat) (x : α) : Outcome (MNet α W) :=
  if a < m.slices.length then
    ({ m with slices := m.slices.modify a (sadd · x) }, none)
  else (m, some .indexError)

/-- `_add_node_to_layer` (net.py 220-228). -/
def addNodeToLayer (m : MNet α W) (node : α) (layer : LKey α) : MNet α W :=
  { m with
    nodeToLayers := Dict.set m.nodeToLayers node (sadd ((Dict.get m.nodeToLayers node).getD []) layer)
    layerToNodes := Dict.set m.layerToNodes layer (sadd ((Dict.get m.layerToNodes layer).getD []) node) }

/-- the loop of `add_node` adding the missing elementary layers of a tuple (net.py 211-213);
`a` is `aspect_minus_one+1`. -/
def addElemLayers (m : MNet α W) : List α → Nat → Outcome (MNet α W)
  | [], _ => (m, none)
  | l :: ls, a =>
    match m.slices[a]? with
    | none => (m, some .indexError)
    | some s => if l ∈ s then addElemLayers m ls (a + 1)
                else (m.sliceAdd a l).andThen fun m => addElemLayers m ls (a + 1)

/-- `add_node` (net.py 192-218). `layer = none` is Python's `None`; Python lists given as layers are
converted to tuples by the code (203-204), so both are `LKey.tup`. -/
def addNode (m : MNet α W) (node : α) (layer : Option (LKey α)) : Outcome (MNet α W) :=
  (m.sliceAdd 0 node).andThen fun m =>
    match layer with
    | none => (m, none)
    | some L =>
      if m.fic then (m, none) else
      match L with
      | .tup l =>
        if 2 ≤ m.aspects then
          (m.addElemLayers l 1).andThen fun m => (m.addNodeToLayer node L, none)
        else (m, some .assertionError)
      | .el a =>
        if m.aspects = 1 then
          (m.addElemLayers [a] 1).andThen fun m => (m.addNodeToLayer node L, none)
        else (m, some .assertionError)

/-- `add_layer` (net.py 231-248). -/
def addLayer (m : MNet α W) (layer : α) (aspect : Nat) : Outcome (MNet α W) :=
  if aspect = 0 then m.addNode layer none else m.sliceAdd aspect layer

/-! ### Stored links -/

/-- `b in d[a]`, `KeyError` if `a` is not a key. -/
def in2 (d : Dict (List α) (Dict (List α) W)) (a b : List α) : Except Err Bool :=
  match Dict.get d a with
  | none => .error .keyError
  | some i => .ok (Dict.has i b)

/-- `b not in d[a] and b not in e[a]` with Python's short-circuiting. -/
def notInBoth (d e : Dict (List α) (Dict (List α) W)) (a b : List α) : Except Err Bool :=
  match in2 d a b with
  | .error x => .error x
  | .ok true => .ok false
  | .ok false =>
    match in2 e a b with
    | .error x => .error x
    | .ok r => .ok (!r)

/-- `del self._net[a][b]` -/
def delNet (m : MNet α W) (a b : List α) : Outcome (MNet α W) :=
  match Dict.get m.net a with
  | none => (m, some .keyError)
  | some i => if Dict.has i b then ({ m with net := Dict.set m.net a (Dict.del i b) }, none)
              else (m, some .keyError)

/-- `del self._rnet[a][b]` -/
def delRnet (m : MNet α W) (a b : List α) : Outcome (MNet α W) :=
  match Dict.get m.rnet a with
  | none => (m, some .keyError)
  | some i => if Dict.has i b then ({ m with rnet := Dict.set m.rnet a (Dict.del i b) }, none)
              else (m, some .keyError)

/-- `self._net[a][b] = v` -/
def putNet (m : MNet α W) (a b : List α) (v : W) : Outcome (MNet α W) :=
  match Dict.get m.net a with
  | none => (m, some .keyError)
  | some i => ({ m with net := Dict.set m.net a (Dict.set i b v) }, none)

/-- `self._rnet[a][b] = v` -/
def putRnet (m : MNet α W) (a b : List α) (v : W) : Outcome (MNet α W) :=
  match Dict.get m.rnet a with
  | none => (m, some .keyError)
  | some i => ({ m with rnet := Dict.set m.rnet a (Dict.set i b v) }, none)

/-- `self._totalDegree[n]=self._totalDegree[n]-1`, `KeyError` if missing (net.py 277, 279). -/
def decTotalStrict (m : MNet α W) (n : List α) : Outcome (MNet α W) :=
  match Dict.get m.totalDegree n with
  | none => (m, some .keyError)
  | some k => ({ m with totalDegree := Dict.set m.totalDegree n (k - 1) }, none)

/-- `self._totalDegree[n]=self._totalDegree.get(n,0)+k` (net.py 274, 296, 299, 301). -/
def bumpTotal (m : MNet α W) (n : List α) (k : Int) : MNet α W :=
  { m with totalDegree := Dict.set m.totalDegree n ((Dict.get m.totalDegree n).getD 0 + k) }

/-- `n not in self._rnet or b not in self._rnet[n]` (net.py 276, 278). -/
def notInRnet (m : MNet α W) (n b : List α) : Bool :=
  match Dict.get m.rnet n with
  | none => true
  | some i => !Dict.has i b

/-- the bookkeeping of the total degree when a directed link is removed (net.py 273-279). -/
def delTotals (m : MNet α W) (n1 n2 : List α) : Outcome (MNet α W) :=
  if n1 = n2 then (m.bumpTotal n1 (-1), none)
  else
    (if m.notInRnet n1 n2 then m.decTotalStrict n1 else (m, none)).andThen fun m =>
      if m.notInRnet n2 n1 then m.decTotalStrict n2 else (m, none)

/-- the `value==self.noEdge` branch of `_set_link` (net.py 270-283). -/
def delLink (m : MNet α W) (n1 n2 : List α) : Outcome (MNet α W) :=
  match Dict.get m.net n1 with
  | none => (m, none)
  | some i =>
    if Dict.has i n2 then
      if m.directed then
        ((m.delTotals n1 n2).andThen fun m => m.delRnet n2 n1).andThen fun m => m.delNet n1 n2
      else
        (m.delNet n2 n1).andThen fun m => m.delNet n1 n2
    else (m, none)

/-- `if not n in self._net: self._net[n]={} ...` (net.py 285-292). -/
def addKey (m : MNet α W) (n : List α) : MNet α W :=
  if Dict.has m.net n then m
  else { m with
    net := Dict.set m.net n []
    rnet := if m.directed then Dict.set m.rnet n [] else m.rnet }

/-- the bookkeeping of the total degree when a directed link is written (net.py 295-301). -/
def putTotals (m : MNet α W) (n1 n2 : List α) : Outcome (MNet α W) :=
  match in2 m.net n1 n2 with
  | .error e => (m, some e)
  | .ok present =>
    if n1 = n2 ∧ present = false then (m.bumpTotal n1 1, none)
    else
      match notInBoth m.net m.rnet n1 n2 with
      | .error e => (m, some e)
      | .ok c1 =>
        let m := if c1 then m.bumpTotal n1 1 else m
        match notInBoth m.net m.rnet n2 n1 with
        | .error e => (m, some e)
        | .ok c2 => (if c2 then m.bumpTotal n2 1 else m, none)

/-- the writing branch of `_set_link` (net.py 285-305). -/
def putLink (m : MNet α W) (n1 n2 : List α) (v : W) : Outcome (MNet α W) :=
  let m := (m.addKey n1).addKey n2
  (if m.directed then
    (m.putTotals n1 n2).andThen fun m => m.putRnet n2 n1 v
   else m.putNet n2 n1 v).andThen fun m => m.putNet n1 n2 v

/-- `_set_link` (net.py 266-305). -/
def setLink (m : MNet α W) (link : List α) (v : W) : Outcome (MNet α W) :=
  match linkToNodes link with
  | .error e => (m, some e)
  | .ok (n1, n2) => if v = m.noEdge then m.delLink n1 n2 else m.putLink n1 n2 v

/-- `_get_link` (net.py 250-264). -/
def getLink (m : MNet α W) (link : List α) : Except Err W :=
  match linkToNodes link with
  | .error e => .error e
  | .ok (n1, n2) =>
    match Dict.get m.net n1 with
    | none => .ok m.noEdge
    | some i =>
      match Dict.get i n2 with
      | none => .ok m.noEdge
      | some w => .ok w

/-- the loop `for i in range(2,2*d): self.add_layer(link[i],i//2)` (net.py 543-544), two indices
of the same aspect at a time; the argument is `link[2*a:]`. -/
def addLinkLayers (m : MNet α W) : List α → Nat → Outcome (MNet α W)
  | x :: y :: t, a =>
    ((m.addLayer x a).andThen fun m => m.addLayer y a).andThen fun m => addLinkLayers m t (a + 1)
  | _, _ => (m, none)

/-- the part of `__setitem__` registering the two end nodes (net.py 531-541). -/
def addLinkNodes (m : MNet α W) (link : List α) : Outcome (MNet α W) :=
  match link with
  | i :: j :: rest =>
    if m.fic then
      (m.addLayer i 0).andThen fun m => m.addLayer j 0
    else
      (m.addNode i (some (.ofList (evens rest)))).andThen fun m =>
        m.addNode j (some (.ofList (odds rest)))
  | _ => (m, some .indexError)

/-- `__setitem__` (net.py 517-547). -/
def setItem (m : MNet α W) (item : List α) (v : W) : Outcome (MNet α W) :=
  let d := m.aspects + 1
  if item.length = 2 * d ∨ item.length = d + 1 then
    let link := if item.length = 2 * d then item else shortLinkToLink item
    ((m.addLinkNodes link).andThen fun m => m.addLinkLayers (link.drop 2) 1).andThen fun m =>
      m.setLink link v
  else (m, some .keyError)

/-! ### Neighbours and degrees -/

end MNet

/-- restriction of neighbours: one optional name per index (net.py 417-421). -/
abbrev Dims (α : Type) := List (Option α)

/-- `all(map(lambda i:dims[i]==None or neigh[i]==dims[i], range(len(dims))))` (net.py 430).
A restriction longer than the node-layer (Python: `IndexError`) matches nothing here. -/
def matchDims {α : Type} [DecidableEq α] : Dims α → List α → Bool
  | [], _ => true
  | none :: ds, n => matchDims ds n.tail
  | some _ :: _, [] => false
  | some a :: ds, b :: n => decide (b = a) && matchDims ds n

namespace MNet

variable {α W : Type} [DecidableEq α] [DecidableEq W]

/-- keys of `d[node]` filtered by `dims`; empty if `node` is not a key (net.py 424-431, 435-442). -/
def iterDict (d : Dict (List α) (Dict (List α) W)) (node : List α) (dims : Option (Dims α)) :
    List (List α) :=
  match Dict.get d node with
  | none => []
  | some i =>
    match dims with
    | none => Dict.keys i
    | some ds => (Dict.keys i).filter (matchDims ds)

/-- `_iter_neighbors_out` (net.py 411-431). -/
def iterOut (m : MNet α W) (node : List α) (dims : Option (Dims α)) : List (List α) :=
  iterDict m.net node dims

/-- `_iter_neighbors_in_dir` (net.py 433-442). -/
def iterInDir (m : MNet α W) (node : List α) (dims : Option (Dims α)) : List (List α) :=
  iterDict m.rnet node dims

/-- `_iter_neighbors_in` (net.py 400-404). -/
def iterIn (m : MNet α W) (node : List α) (dims : Option (Dims α)) : List (List α) :=
  if m.directed then m.iterInDir node dims else m.iterOut node dims

/-- `_iter_neighbors_total_dir` (net.py 444-452). -/
def iterTotalDir (m : MNet α W) (node : List α) (dims : Option (Dims α)) : List (List α) :=
  m.iterOut node dims ++ (m.iterIn node dims).filter (fun n => n ∉ m.iterOut node dims)

/-- `_iter_neighbors_total` (net.py 405-409); also what iterating a node object does (753-761). -/
def iterTotal (m : MNet α W) (node : List α) (dims : Option (Dims α)) : List (List α) :=
  if m.directed then m.iterTotalDir node dims else m.iterOut node dims

/-- `len(d[node])`, 0 if missing; with `dims`, the number of iterated neighbours
(net.py 334-340, 355-361). -/
def degDict (d : Dict (List α) (Dict (List α) W)) (node : List α) (dims : Option (Dims α)) : Nat :=
  match dims with
  | none =>
    match Dict.get d node with
    | none => 0
    | some i => i.length
  | some _ => (iterDict d node dims).length

/-- `_get_degree_out` (net.py 327-340). -/
def degOut (m : MNet α W) (node : List α) (dims : Option (Dims α)) : Nat := degDict m.net node dims

/-- `_get_degree_in_dir` (net.py 351-361). -/
def degInDir (m : MNet α W) (node : List α) (dims : Option (Dims α)) : Nat :=
  degDict m.rnet node dims

/-- `_get_degree_in` (net.py 314-318). -/
def degIn (m : MNet α W) (node : List α) (dims : Option (Dims α)) : Nat :=
  if m.directed then m.degInDir node dims else m.degOut node dims

/-- `_get_degree_total_dir` (net.py 342-349). -/
def degTotalDir (m : MNet α W) (node : List α) (dims : Option (Dims α)) : Int :=
  match dims with
  | none => (Dict.get m.totalDegree node).getD 0
  | some _ => (m.iterTotal node dims).length

/-- `_get_degree_total` (net.py 320-324). -/
def degTotal (m : MNet α W) (node : List α) (dims : Option (Dims α)) : Int :=
  if m.directed then m.degTotalDir node dims else m.degOut node dims

/-- `_get_degree` (net.py 308-312). -/
def deg (m : MNet α W) (node : List α) (dims : Option (Dims α)) : Int :=
  if m.directed then m.degTotal node dims else m.degOut node dims

/-! ### Strengths -/

/-- `sum(map(lambda n:self._get_link(...), ns))`: left fold from 0, first exception propagates
(net.py 384, 388). -/
def sumLinks [Zero W] [Add W] (m : MNet α W) (mk : List α → Except Err (List α)) :
    List (List α) → W → Except Err W
  | [], acc => .ok acc
  | n :: ns, acc =>
    match mk n with
    | .error e => .error e
    | .ok link =>
      match m.getLink link with
      | .error e => .error e
      | .ok w => sumLinks m mk ns (acc + w)

/-- `_get_strength_in_dir` (net.py 382-384). -/
def strInDir [Zero W] [Add W] (m : MNet α W) (node : List α) (dims : Option (Dims α)) : Except Err W :=
  m.sumLinks (fun n => nodesToLink n node) (m.iterIn node dims) 0

/-- `_get_strength_out` (net.py 386-388). -/
def strOut [Zero W] [Add W] (m : MNet α W) (node : List α) (dims : Option (Dims α)) : Except Err W :=
  m.sumLinks (fun n => nodesToLink node n) (m.iterOut node dims) 0

/-- `_get_strength_in` (net.py 370-374). -/
def strIn [Zero W] [Add W] (m : MNet α W) (node : List α) (dims : Option (Dims α)) : Except Err W :=
  if m.directed then m.strInDir node dims else m.strOut node dims

/-- `_get_strength_total_dir` (net.py 390-392). -/
def strTotalDir [Zero W] [Add W] (m : MNet α W) (node : List α) (dims : Option (Dims α)) :
    Except Err W :=
  match m.strIn node dims with
  | .error e => .error e
  | .ok a =>
    match m.strOut node dims with
    | .error e => .error e
    | .ok b => .ok (a + b)

/-- `_get_strength_total` / `_get_strength` (net.py 365-369, 375-379). -/
def str [Zero W] [Add W] (m : MNet α W) (node : List α) (dims : Option (Dims α)) : Except Err W :=
  if m.directed then m.strTotalDir node dims else m.strOut node dims

/-! ### Registries -/

/-- `get_layers` (net.py 551-554). -/
def getLayers (m : MNet α W) (aspect : Nat) : Except Err (List α) :=
  match m.slices[aspect]? with
  | none => .error .indexError
  | some s => .ok s

/-- `iter_nodes` (net.py 556-567). -/
def iterNodes (m : MNet α W) (layer : Option (LKey α)) : List α :=
  match layer with
  | none => m.slices.headD []
  | some L =>
    if m.fic then m.slices.headD []
    else (Dict.get m.layerToNodes L).getD []

/-- `iter_layers` with `aspect=None` (net.py 604-610). -/
def iterLayers (m : MNet α W) : List (LKey α) :=
  if 1 < m.aspects then (product (m.slices.drop 1)).map .tup
  else if m.aspects = 1 then (m.slices.getD 1 []).map .el
  else []

/-- `iter_node_layers` (net.py 575-589). -/
def nodeLayers (m : MNet α W) : List (List α) :=
  if m.fic then product m.slices
  else m.iterLayers.flatMap fun L => (m.iterNodes (some L)).map fun n => n :: L.toList

/-- `__len__` (net.py 172-173). -/
def len (m : MNet α W) : Nat := (m.slices.headD []).length

end MNet

/-! ### Code shared with subclasses -/

/-- Dispatch table for the methods a subclass may override; code in net.py that calls
`self._iter_neighbors_*`, `self._get_link`, ... on "some network" takes a `View`. -/
structure View (α W : Type) where
  aspects : Nat
  directed : Bool
  noEdge : W
  fic : Bool
  slices : List (List α)
  /-- `_get_link` -/
  getLink : List α → Except Err W
  /-- `_iter_neighbors_out` -/
  iterOut : List α → Option (Dims α) → Except Err (List (List α))
  /-- `_iter_neighbors_in` -/
  iterIn : List α → Option (Dims α) → Except Err (List (List α))
  /-- `_iter_neighbors_total` -/
  iterTotal : List α → Option (Dims α) → Except Err (List (List α))
  /-- `_get_degree_out` -/
  degOut : List α → Option (Dims α) → Except Err Int
  /-- `_get_degree_in` -/
  degIn : List α → Option (Dims α) → Except Err Int
  /-- `_get_degree` / `_get_degree_total` -/
  deg : List α → Option (Dims α) → Except Err Int
  /-- `iter_node_layers` -/
  nodeLayers : Except Err (List (List α))

/-- The dispatch table of a plain `MultilayerNetwork`. -/
def MNet.view {α W : Type} [DecidableEq α] [DecidableEq W] (m : MNet α W) : View α W where
  aspects := m.aspects
  directed := m.directed
  noEdge := m.noEdge
  fic := m.fic
  slices := m.slices
  getLink := m.getLink
  iterOut := fun n d => .ok (m.iterOut n d)
  iterIn := fun n d => .ok (m.iterIn n d)
  iterTotal := fun n d => .ok (m.iterTotal n d)
  degOut := fun n d => .ok (m.degOut n d)
  degIn := fun n d => .ok (m.degIn n d)
  deg := fun n d => .ok (m.deg n d)
  nodeLayers := .ok m.nodeLayers

/-- What `net[...]` returns: a weight, or a `MultilayerNode` given by its node-layer and its
restriction `layers` (net.py 491-510, 665-670). -/
inductive Item (α W : Type)
  | weight (w : W)
  | node (n : List α) (layers : Option (Dims α))
  deriving DecidableEq, Repr

namespace View

variable {α W : Type} [DecidableEq α] [DecidableEq W]

/-- the names of an index tuple that contains no `:` -/
def vals? : List (Idx α) → Option (List α)
  | [] => some []
  | .val a :: t => (vals? t).map (a :: ·)
  | .colon :: _ => none

/-- the list `layers` built in `__getitem__` (net.py 495-501): for each aspect, `None` when the
*second* index is a colon, otherwise **`item[2*i]`**, the first index of the aspect. -/
def sliceDims : List (Idx α) → Option (Dims α)
  | [] => some []
  | .val a :: .val _ :: t => (sliceDims t).map (some a :: ·)
  | .val _ :: .colon :: t => (sliceDims t).map (none :: ·)
  | _ => none

/-- names at the even positions of an index tuple, `none` if one of them is a colon. -/
def evenVals? : List (Idx α) → Option (List α)
  | [] => some []
  | [.val a] => some [a]
  | .val a :: _ :: t => (evenVals? t).map (a :: ·)
  | .colon :: _ => none

/-- `__getitem__` for an item of length `2*d` (net.py 493-505). A colon at an even position puts a
slice object into the node tuple; the model reports the `TypeError` its first use raises. -/
def getFull (v : View α W) (item : List (Idx α)) : Except Err (Item α W) :=
  match vals? item with
  | some link =>
    match v.getLink link with
    | .error e => .error e
    | .ok w => .ok (.weight w)
  | none =>
    match evenVals? item, sliceDims item with
    | some n, some ds => .ok (.node n (some ds))
    | _, _ => .error .typeError

/-- `__getitem__` (net.py 488-515). -/
def getItem (v : View α W) (item : List (Idx α)) : Except Err (Item α W) :=
  let d := v.aspects + 1
  if item.length = d then
    match vals? item with
    | some n => .ok (.node n none)
    | none => .error .typeError
  else if item.length = 2 * d then v.getFull item
  else if item.length = d + 1 then
    if .colon ∉ item.drop 2 then v.getFull (shortLinkToLink item)
    else .error .exception
  else .error .keyError

/-- `MultilayerNode.__getitem__` (net.py 672-679) for a node-layer index `u`. For monoplex networks the
code wraps the bare name into a 1-tuple; here `u` is always the tuple. -/
def nodeGet (v : View α W) (n : List α) (u : List (Idx α)) : Except Err (Item α W) :=
  match nodesToLink (n.map .val) u with
  | .error e => .error e
  | .ok link => v.getItem link

/-- `[f x for x in l]` flattened, first exception propagates. -/
def collect {β γ : Type} (f : β → Except Err (List γ)) : List β → Except Err (List γ)
  | [] => .ok []
  | b :: t =>
    match f b with
    | .error e => .error e
    | .ok r =>
      match collect f t with
      | .error e => .error e
      | .ok rs => .ok (r ++ rs)

/-- `link+(self.net[link],)` for the link from `node` to `neigh` (net.py 793-794, 802-803); the edge
tuple is a pair of the link tuple and the weight. -/
def edgeOf (v : View α W) (node neigh : List α) : Except Err (List (List α × W)) :=
  match nodesToLink node neigh with
  | .error e => .error e
  | .ok link =>
    match v.getLink link with
    | .error e => .error e
    | .ok w => .ok [(link, w)]

/-- the undirected branch of `MultilayerEdges.__iter__` (net.py 796-804). -/
def edgesUndir (v : View α W) : List (List α) → List (List α) → Except Err (List (List α × W))
  | [], _ => .ok []
  | node :: rest, iterated =>
    match v.iterTotal node none with
    | .error e => .error e
    | .ok neighs =>
      match collect (v.edgeOf node) (neighs.filter (fun n => n ∉ iterated)) with
      | .error e => .error e
      | .ok es =>
        match edgesUndir v rest (sadd iterated node) with
        | .error e => .error e
        | .ok more => .ok (es ++ more)

/-- `MultilayerEdges.__iter__` (net.py 785-804), the list of yielded edges. -/
def edges (v : View α W) : Except Err (List (List α × W)) :=
  if v.directed then
    collect (fun node =>
      match v.iterOut node none with
      | .error e => .error e
      | .ok neighs => collect (v.edgeOf node) neighs) (product v.slices)
  else v.edgesUndir (product v.slices) []

/-- the loops of `MultilayerEdges.__len__` (net.py 807-817). -/
def lenLoop (v : View α W) : List (List α) → Int → Except Err Int
  | [], acc => .ok acc
  | nl :: rest, acc =>
    if v.directed then
      match v.degOut nl none with
      | .error e => .error e
      | .ok k => lenLoop v rest (acc + k)
    else
      match v.deg nl none with
      | .error e => .error e
      | .ok k =>
        match nodesToLink nl nl with
        | .error e => .error e
        | .ok link =>
          match v.getLink link with
          | .error e => .error e
          | .ok w => lenLoop v rest (acc + k + if w ≠ v.noEdge then 1 else 0)

/-- `MultilayerEdges.__len__` (net.py 806-817). `int(deg/2)` is exact integer halving here. -/
def edgesLen (v : View α W) : Except Err Int :=
  match v.nodeLayers with
  | .error e => .error e
  | .ok nls =>
    match v.lenLoop nls 0 with
    | .error e => .error e
    | .ok s => .ok (if v.directed then s else s / 2)

end View

/-- `net[link]` for a link tuple without colons. -/
def View.readItem {α W : Type} [DecidableEq α] [DecidableEq W] (v : View α W) (link : List α) :
    Except Err (Item α W) := v.getItem (link.map .val)

/-- `MultilayerNode.__setitem__` (net.py 681-684): `net[n][u] = v`. -/
def MNet.nodeSet {α W : Type} [DecidableEq α] [DecidableEq W] (m : MNet α W) (n u : List α) (v : W) :
    Outcome (MNet α W) :=
  match nodesToLink n u with
  | .error e => (m, some e)
  | .ok link => m.setItem link v

/-! ### Equality -/

/-- equality of Python sets -/
def setEq {β : Type} [DecidableEq β] (s t : List β) : Bool :=
  s.all (fun x => x ∈ t) && t.all (fun x => x ∈ s)

/-- equality of lists of Python sets -/
def slicesEq {β : Type} [DecidableEq β] : List (List β) → List (List β) → Bool
  | [], [] => true
  | s :: ss, t :: ts => setEq s t && slicesEq ss ts
  | _, _ => false

/-- equality of Python dicts whose values are sets: the same keys with equal sets. -/
def dictSetEq {κ β : Type} [DecidableEq κ] [DecidableEq β] (d e : Dict κ (List β)) : Bool :=
  (Dict.keys d ++ Dict.keys e).all fun k =>
    match Dict.get d k, Dict.get e k with
    | some s, some t => setEq s t
    | none, none => true
    | _, _ => false

/-- the loop `for edge in self.edges: if self[edge[:-1]]!=other[edge[:-1]]: return False`
(net.py 184-186). -/
def eqLoop {α W : Type} [DecidableEq α] [DecidableEq W] (v w : View α W) :
    List (List α × W) → Except Err Bool
  | [] => .ok true
  | e :: rest =>
    match v.readItem e.1 with
    | .error x => .error x
    | .ok a =>
      match w.readItem e.1 with
      | .error x => .error x
      | .ok b => if a ≠ b then .ok false else eqLoop v w rest

/-- `__eq__` of two `MultilayerNetwork` objects (net.py 175-189). If `self` is not node-aligned and
`other` is, `other._nodeToLayers` does not exist: `AttributeError`. -/
def MNet.eq {α W : Type} [DecidableEq α] [DecidableEq W] (m o : MNet α W) : Except Err Bool :=
  if m.fic = false ∧ o.fic = true then .error .attributeError
  else if m.fic = false ∧ dictSetEq m.nodeToLayers o.nodeToLayers = false then .ok false
  else if m.directed = o.directed ∧ m.aspects = o.aspects ∧ m.fic = o.fic ∧ m.noEdge = o.noEdge ∧
      slicesEq m.slices o.slices = true then
    match m.view.edgesLen with
    | .error x => .error x
    | .ok a =>
      match o.view.edgesLen with
      | .error x => .error x
      | .ok b =>
        if a = b then
          match m.view.edges with
          | .error x => .error x
          | .ok es => eqLoop m.view o.view es
        else .ok false
  else .ok false

/-! ### Histories of API calls -/

/-- A mutating public call. -/
inductive Op (α W : Type)
  | addNode (node : α) (layer : Option (LKey α))
  | addLayer (layer : α) (aspect : Nat)
  | setItem (item : List α) (value : W)
  deriving DecidableEq, Repr

/-- Execute one call. -/
def MNet.step {α W : Type} [DecidableEq α] [DecidableEq W] (m : MNet α W) :
    Op α W → Outcome (MNet α W)
  | .addNode n l => m.addNode n l
  | .addLayer l a => m.addLayer l a
  | .setItem i v => m.setItem i v

/-- Execute a history; an exception raised by a call is caught by the user and the history goes on. -/
def MNet.run {α W : Type} [DecidableEq α] [DecidableEq W] (m : MNet α W) (ops : List (Op α W)) :
    MNet α W :=
  ops.foldl (fun m op => (m.step op).1) m

end Pymnet
