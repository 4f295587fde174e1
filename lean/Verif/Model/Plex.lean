import Verif.Model.Net
import Mathlib.Algebra.Group.Defs

/-!
Model of `MultiplexNetwork`, `MultilayerNetworkWithParent` and `MultiplexIntraNetDict`
(`/repo/pymnet/net.py` 824-1292), function by function.
-/

namespace Pymnet

open Py

/-- Layer names on which Python's `+1` and `-1` may be defined (`none`: `TypeError`); used by ordinal
couplings only (net.py 1042, 1087, 1128). -/
class IntNames (α : Type) where
  up : α → Option α
  down : α → Option α

instance : IntNames Int := ⟨fun a => some (a + 1), fun a => some (a - 1)⟩

/-- An element of `self.couplings` (net.py 938-957), after normalisation by the constructor: strings
`'categorical'`, `'ordinal'`, `'none'` have become `(name,1.0)`, `None` has become `('none',)`, networks
`(net,)`. The optional weight of `none` is the second tuple element. -/
inductive Coupling (α W : Type)
  | categorical (w : W)
  | ordinal (w : W)
  | uncoupled (w : Option W)
  | net (c : MNet α W)
  deriving DecidableEq, Repr

/-- State of a `MultiplexNetwork` (net.py 925-968). `A` holds the intra-layer networks. In a node-aligned
network the node set of every intra-layer network *is* the parent's set object (net.py 862-864); the
model stores it once, in `slices[0]` of the parent (see `child?` and `putChild`). -/
structure MPlex (α W : Type) where
  aspects : Nat
  directed : Bool
  noEdge : W
  fic : Bool
  slices : List (List α)
  couplings : List (Coupling α W)
  A : Dict (LKey α) (MNet α W)
  nodeToLayers : Dict α (List (LKey α))
  deriving DecidableEq, Repr

namespace MPlex

variable {α W : Type} [DecidableEq α] [DecidableEq W]

/-- `MultiplexNetwork.__init__` (net.py 925-968) on normalised couplings. -/
def init (couplings : List (Coupling α W)) (directed : Bool) (noEdge : W) (fullyInterconnected : Bool) :
    MPlex α W where
  aspects := couplings.length
  directed := directed
  noEdge := noEdge
  fic := fullyInterconnected
  slices := List.replicate (couplings.length + 1) []
  couplings := couplings
  A := []
  nodeToLayers := []

/-- The intra-layer network at a key of `A`, with the node set shared with the parent if node-aligned. -/
def child? (p : MPlex α W) (L : LKey α) : Option (MNet α W) :=
  (Dict.get p.A L).map fun c => if p.fic then { c with slices := [p.slices.headD []] } else c

/-- Store back a modified intra-layer network; its node set is the parent's if node-aligned. -/
def putChild (p : MPlex α W) (L : LKey α) (c : MNet α W) : MPlex α W :=
  { p with
    A := Dict.set p.A L c
    slices := if p.fic then p.slices.set 0 (c.slices.headD []) else p.slices }

/-- `MultiplexIntraNetDict._add_empty_network` (net.py 847-855); the new network does not get the
parent's `noEdge` but the default 0. -/
def addEmpty [Zero W] (p : MPlex α W) (L : LKey α) : MPlex α W :=
  { p with A := Dict.set p.A L (MNet.init 0 0 p.directed true) }

/-- `self.slices[a].add(x)` -/
def sliceAdd (p : MPlex α W) (a : Nat) (x : α) : Outcome (MPlex α W) :=
  if a < p.slices.length then
    ({ p with slices := p.slices.modify a (sadd · x) }, none)
  else (p, some .indexError)

/-- `add_layer` (net.py 987-1010) for `aspect>0`; for one aspect the single new network is keyed by the
bare name, which is what `LKey.ofList` makes of the 1-tuple. -/
def addElem [Zero W] (p : MPlex α W) (layer : α) (aspect : Nat) : Outcome (MPlex α W) :=
  match p.slices[aspect]? with
  | none => (p, some .indexError)
  | some s =>
    if layer ∈ s then (p, none)
    else
      (((product ((p.slices.drop 1).set (aspect - 1) [layer])).foldl
        (fun p s => p.addEmpty (.ofList s)) p)).sliceAdd aspect layer

/-- the registration of a node on a layer in the parent's `_nodeToLayers`
(net.py 877-880, 1288-1290). -/
def regLayer (p : MPlex α W) (node : α) (L : LKey α) : MPlex α W :=
  { p with nodeToLayers := Dict.set p.nodeToLayers node (sadd ((Dict.get p.nodeToLayers node).getD []) L) }

/-- the loop of `add_node` adding missing elementary layers (net.py 211-213, 216-217), with the
overridden `add_layer`. -/
def addElems [Zero W] (p : MPlex α W) : List α → Nat → Outcome (MPlex α W)
  | [], _ => (p, none)
  | l :: ls, a =>
    match p.slices[a]? with
    | none => (p, some .indexError)
    | some s => if l ∈ s then addElems p ls (a + 1)
                else (p.addElem l a).andThen fun p => addElems p ls (a + 1)

/-- `add_node` (net.py 192-218) of the multiplex network up to the test `node not in self.A[layer]`
of the overridden `_add_node_to_layer` (net.py 1284-1291). -/
def regNode [Zero W] (p : MPlex α W) (node : α) (layer : Option (LKey α)) : Outcome (MPlex α W) :=
  (p.sliceAdd 0 node).andThen fun p =>
    match layer with
    | none => (p, none)
    | some L =>
      if p.fic then (p, none) else
      match L with
      | .tup l =>
        if 2 ≤ p.aspects then
          (p.addElems l 1).andThen fun p => (p.regLayer node L, none)
        else (p, some .assertionError)
      | .el a =>
        if p.aspects = 1 then
          (p.addElems [a] 1).andThen fun p => (p.regLayer node L, none)
        else (p, some .assertionError)

/-- `MultilayerNetworkWithParent.add_node` (net.py 870-880) of the intra-layer network at key `L`. In a
network that is not node-aligned, the call back `parent.add_node(node,layer)` finds the node in the
intra-layer network, so it ends at the test and is `regNode`. `KeyError` if there is no such network. -/
def childAddNode [Zero W] (p : MPlex α W) (L : LKey α) (node : α) : Outcome (MPlex α W) :=
  match p.child? L with
  | none => (p, some .keyError)
  | some c =>
    let p := p.putChild L (c.addNode node none).1
    if p.fic then p.sliceAdd 0 node
    else (p.regNode node (some L)).andThen fun p => (p.regLayer node L, none)

/-- the last lines of `_add_node_to_layer` (net.py 1291-1292). -/
def ensureChild [Zero W] (p : MPlex α W) (L : LKey α) (node : α) : Outcome (MPlex α W) :=
  match p.child? L with
  | none => (p, some .keyError)
  | some c => if node ∈ c.slices.headD [] then (p, none) else p.childAddNode L node

/-- `add_node` (net.py 192-218) with the overridden `_add_node_to_layer` (net.py 1284-1292). -/
def addNode [Zero W] (p : MPlex α W) (node : α) (layer : Option (LKey α)) : Outcome (MPlex α W) :=
  (p.regNode node layer).andThen fun p =>
    match layer with
    | none => (p, none)
    | some L => if p.fic then (p, none) else p.ensureChild L node

/-- `add_layer` (net.py 987-1010). -/
def addLayer [Zero W] (p : MPlex α W) (layer : α) (aspect : Nat) : Outcome (MPlex α W) :=
  if aspect = 0 then
    match p.slices[0]? with
    | none => (p, some .indexError)
    | some s => if layer ∈ s then (p, none) else p.addNode layer none
  else p.addElem layer aspect

/-- `_set_link` (net.py 266-305) of the intra-layer network at key `L`. -/
def childSetLink (p : MPlex α W) (L : LKey α) (link : List α) (v : W) : Outcome (MPlex α W) :=
  match p.child? L with
  | none => (p, some .keyError)
  | some c => (p.putChild L (c.setLink link v).1, (c.setLink link v).2)

/-- `__setitem__` (net.py 517-547) of the intra-layer network at key `L`: `net.A[L][i,j]=v`. -/
def childSetItem [Zero W] (p : MPlex α W) (L : LKey α) (i j : α) (v : W) : Outcome (MPlex α W) :=
  ((p.childAddNode L i).andThen fun p => p.childAddNode L j).andThen fun p => p.childSetLink L [i, j] v

/-- `_get_edge_inter_aspects` (net.py 970-977). -/
def interAspects : List α → Nat → List Nat
  | x :: y :: t, d => if x ≠ y then d :: interAspects t (d + 1) else interAspects t (d + 1)
  | _, _ => []

/-- `_set_link` (net.py 1057-1067). -/
def setLink [Zero W] (p : MPlex α W) (link : List α) (v : W) : Outcome (MPlex α W) :=
  match link with
  | i :: j :: rest =>
    if interAspects link 0 = [0] then p.childSetItem (.ofList (evens rest)) i j v
    else (p, some .keyError)
  | _ => (p, some .indexError)

/-- the loop `for i in range(2,2*d): self.add_layer(link[i],i//2)` (net.py 543-544). -/
def addLinkLayers [Zero W] (p : MPlex α W) : List α → Nat → Outcome (MPlex α W)
  | x :: y :: t, a =>
    ((p.addLayer x a).andThen fun p => p.addLayer y a).andThen fun p => addLinkLayers p t (a + 1)
  | _, _ => (p, none)

/-- the part of `__setitem__` registering the end nodes (net.py 531-541). -/
def addLinkNodes [Zero W] (p : MPlex α W) (link : List α) : Outcome (MPlex α W) :=
  match link with
  | i :: j :: rest =>
    if p.fic then
      (p.addLayer i 0).andThen fun p => p.addLayer j 0
    else
      (p.addNode i (some (.ofList (evens rest)))).andThen fun p =>
        p.addNode j (some (.ofList (odds rest)))
  | _ => (p, some .indexError)

/-- `__setitem__` (net.py 517-547), inherited. -/
def setItem [Zero W] (p : MPlex α W) (item : List α) (v : W) : Outcome (MPlex α W) :=
  let d := p.aspects + 1
  if item.length = 2 * d ∨ item.length = d + 1 then
    let link := if item.length = 2 * d then item else shortLinkToLink item
    ((p.addLinkNodes link).andThen fun p => p.addLinkLayers (link.drop 2) 1).andThen fun p =>
      p.setLink link v
  else (p, some .keyError)

/-! ### Reading -/

/-- The coupling branch of `_get_link` (net.py 1036-1048) between elementary layers `x` and `y`. -/
def couplingRead [IntNames α] (p : MPlex α W) (c : Coupling α W) (x y : α) : Except Err W :=
  match c with
  | .categorical w => .ok w
  | .ordinal w =>
    match IntNames.up x with
    | none => .error .typeError
    | some x' =>
      if x' = y then .ok w
      else
        match IntNames.up y with
        | none => .error .typeError
        | some y' => if x = y' then .ok w else .ok p.noEdge
  | .net c => c.getLink [x, y]
  | .uncoupled _ => .error .exception

/-- `link[0] in A(l1).slices[0] and link[0] in A(l2).slices[0]` (net.py 1035). -/
def onBoth (p : MPlex α W) (n : α) (l1 l2 : List α) : Except Err Bool :=
  match p.child? (.ofList l1) with
  | none => .error .keyError
  | some c1 =>
    if n ∈ c1.slices.headD [] then
      match p.child? (.ofList l2) with
      | none => .error .keyError
      | some c2 => .ok (n ∈ c2.slices.headD [])
    else .ok false

/-- the inter-layer branch of `_get_link` (net.py 1028-1048), `d>0` the only aspect that differs. -/
def getInter [IntNames α] (p : MPlex α W) (link : List α) (d : Nat) : Except Err W :=
  match link with
  | n :: _ :: rest =>
    if n ∉ p.slices.headD [] then .ok p.noEdge
    else
      match (if p.fic then .ok true else p.onBoth n (evens rest) (odds rest)) with
      | .error e => .error e
      | .ok false => .ok p.noEdge
      | .ok true =>
        match p.couplings[d - 1]?, link[2 * d]?, link[2 * d + 1]? with
        | some c, some x, some y => p.couplingRead c x y
        | _, _, _ => .error .indexError
  | _ => .error .indexError

/-- `_get_link` (net.py 1024-1055). -/
def getLink [IntNames α] (p : MPlex α W) (link : List α) : Except Err W :=
  match interAspects link 0 with
  | [0] =>
    match p.child? (.ofList (evens (link.drop 2))) with
    | some c => c.getLink (link.take 2)
    | none => .ok p.noEdge
  | [d] => p.getInter link d
  | _ => .ok p.noEdge

/-- `supernode[:aspect]+(n,)+supernode[aspect+1:]` -/
def replaceAt (nl : List α) (a : Nat) (n : α) : List α := nl.set a n

/-- number of those of the two layers above and below that satisfy the test, as `int(..)+int(..)`. -/
def ordCount (up down : Bool) : Int := (if up then 1 else 0) + (if down then 1 else 0)

/-- Which degree of the coupling network is used (net.py 1093-1099). -/
inductive Dir | tot | inn | out
  deriving DecidableEq, Repr

/-- `_get_dim_degree` (net.py 1070-1103). `len(filter(..))` in the non-aligned categorical case with
several aspects is a `TypeError` in Python 3 (net.py 1083). In the non-aligned ordinal case the tuples
tested for membership contain the node (net.py 1091), so they are never members of the set of layers. -/
def dimDegree [IntNames α] (p : MPlex α W) (nl : List α) (aspect : Nat) (dir : Dir) : Except Err Int :=
  match p.couplings[aspect - 1]?, nl with
  | some (.categorical _), n :: layer =>
    if p.fic then
      match p.slices[aspect]? with
      | none => .error .indexError
      | some s => .ok (s.length - 1)
    else
      match Dict.get p.nodeToLayers n with
      | none => .error .keyError
      | some ls =>
        if LKey.ofList layer ∈ ls then
          if p.aspects = 1 then .ok (ls.length - 1) else .error .typeError
        else .ok 0
  | some (.ordinal _), n :: _ =>
    match nl[aspect]? with
    | none => .error .indexError
    | some x =>
      match IntNames.up x, IntNames.down x with
      | some u, some d =>
        if p.fic then
          match p.slices[aspect]? with
          | none => .error .indexError
          | some s => .ok (ordCount (decide (u ∈ s)) (decide (d ∈ s)))
        else
          match Dict.get p.nodeToLayers n with
          | none => .error .keyError
          | some ls => .ok (ordCount (decide (LKey.tup (replaceAt nl aspect u) ∈ ls))
              (decide (LKey.tup (replaceAt nl aspect d) ∈ ls)))
      | _, _ => .error .typeError
  | some (.net c), _ =>
    match nl[aspect]? with
    | none => .error .indexError
    | some x =>
      match dir with
      | .tot => .ok (c.degTotal [x] none)
      | .inn => .ok (c.degIn [x] none)
      | .out => .ok (c.degOut [x] none)
  | some (.uncoupled _), _ => .ok 0
  | _, _ => .error .indexError

/-- `_get_dim_strength` (net.py 1105-1110): degree times coupling weight. `couplings[aspect-1][1]` is an
`IndexError` for `('none',)` and `(net,)`. -/
def dimStrength [IntNames α] [AddCommGroup W] (p : MPlex α W) (nl : List α) (aspect : Nat) (dir : Dir) :
    Except Err W :=
  match p.couplings[aspect - 1]? with
  | some (.categorical w) =>
    match p.dimDegree nl aspect dir with
    | .error e => .error e
    | .ok k => .ok (k • w)
  | some (.ordinal w) =>
    match p.dimDegree nl aspect dir with
    | .error e => .error e
    | .ok k => .ok (k • w)
  | some (.uncoupled (some w)) =>
    match p.dimDegree nl aspect dir with
    | .error e => .error e
    | .ok k => .ok (k • w)
  | _ => .error .indexError

/-- `_iter_dim` (net.py 1113-1143). The non-aligned ordinal test (net.py 1133-1136) looks up the *tuple*
of layers; in a one-aspect network the registry holds bare names, so it never succeeds. Networks as
couplings: `raise NotImplemented()` is a `TypeError`. -/
def iterDim [IntNames α] (p : MPlex α W) (nl : List α) (aspect : Nat) : Except Err (List (List α)) :=
  match p.couplings[aspect - 1]?, nl with
  | some (.categorical _), n :: layer =>
    if p.fic then
      match p.slices[aspect]?, nl[aspect]? with
      | some s, some x => .ok ((s.filter (· ≠ x)).map (replaceAt nl aspect))
      | _, _ => .error .indexError
    else
      match p.child? (.ofList layer) with
      | none => .error .keyError
      | some c =>
        if n ∈ c.slices.headD [] then
          match Dict.get p.nodeToLayers n with
          | none => .error .keyError
          | some ls => .ok ((ls.filter (· ≠ LKey.ofList layer)).map fun L => n :: L.toList)
        else .ok []
  | some (.ordinal _), n :: _ =>
    match nl[aspect]? with
    | none => .error .indexError
    | some x =>
      match IntNames.up x, IntNames.down x with
      | some u, some d =>
        if p.fic then
          match p.slices[aspect]? with
          | none => .error .indexError
          | some s => .ok ((if u ∈ s then [replaceAt nl aspect u] else []) ++
              (if d ∈ s then [replaceAt nl aspect d] else []))
        else
          match Dict.get p.nodeToLayers n with
          | none => .error .keyError
          | some ls =>
            .ok ((if LKey.tup ((replaceAt nl aspect u).drop 1) ∈ ls then [replaceAt nl aspect u] else []) ++
              (if LKey.tup ((replaceAt nl aspect d).drop 1) ∈ ls then [replaceAt nl aspect d] else []))
      | _, _ => .error .typeError
  | some (.net _), _ => .error .typeError
  | some (.uncoupled _), _ => .ok []
  | _, _ => .error .indexError

/-- the loop of `_select_dimensions` over the given restriction (net.py 1149-1157): `none` if a
restricted index differs from the node's own. -/
def freeDims : List α → Dims α → Nat → Option (List Nat)
  | _, [], _ => some []
  | x :: nl, some v :: ds, d => if x ≠ v then none else freeDims nl ds (d + 1)
  | [], some _ :: _, _ => none
  | nl, none :: ds, d => (freeDims nl.tail ds (d + 1)).map (d :: ·)

/-- `_select_dimensions` (net.py 1145-1157). -/
def selectDimensions (p : MPlex α W) (nl : List α) (dims : Option (Dims α)) : List Nat :=
  match dims with
  | none => List.range (p.aspects + 1)
  | some ds => (freeDims nl ds 0).getD []

/-- `k+=...` over the selected dimensions, first exception propagates. -/
def sumDims {β : Type} [Add β] (f : Nat → Except Err β) : List Nat → β → Except Err β
  | [], acc => .ok acc
  | d :: ds, acc =>
    match f d with
    | .error e => .error e
    | .ok k => sumDims f ds (acc + k)

/-- a method of `self._get_A_with_tuple(node[1:])`, applied to `node[0]`; `KeyError` without layer. -/
def onChild {β : Type} (p : MPlex α W) (nl : List α) (f : MNet α W → List α → Except Err β) : Except Err β :=
  match nl with
  | [] => .error .indexError
  | n :: layer =>
    match p.child? (.ofList layer) with
    | none => .error .keyError
    | some c => f c [n]

/-- `_get_degree_total_dir` (net.py 1159-1168). -/
def degTotalDir [IntNames α] (p : MPlex α W) (nl : List α) (dims : Option (Dims α)) : Except Err Int :=
  sumDims (fun d => if d = 0 then p.onChild nl (fun c n => .ok (c.degTotal n none))
    else p.dimDegree nl d .tot) (p.selectDimensions nl dims) 0

/-- `_get_degree_in_dir` (net.py 1170-1179). -/
def degInDir [IntNames α] (p : MPlex α W) (nl : List α) (dims : Option (Dims α)) : Except Err Int :=
  sumDims (fun d => if d = 0 then p.onChild nl (fun c n => .ok (c.degIn n none))
    else p.dimDegree nl d .inn) (p.selectDimensions nl dims) 0

/-- `_get_degree_out` (net.py 1181-1190). -/
def degOut [IntNames α] (p : MPlex α W) (nl : List α) (dims : Option (Dims α)) : Except Err Int :=
  sumDims (fun d => if d = 0 then p.onChild nl (fun c n => .ok (c.degOut n none))
    else p.dimDegree nl d .out) (p.selectDimensions nl dims) 0

/-- `_get_strength_total_dir` (net.py 1193-1202). -/
def strTotalDir [IntNames α] [AddCommGroup W] (p : MPlex α W) (nl : List α) (dims : Option (Dims α)) :
    Except Err W :=
  sumDims (fun d => if d = 0 then p.onChild nl (fun c n => c.str n none)
    else p.dimStrength nl d .tot) (p.selectDimensions nl dims) 0

/-- `_get_strength_in_dir` (net.py 1205-1214). -/
def strInDir [IntNames α] [AddCommGroup W] (p : MPlex α W) (nl : List α) (dims : Option (Dims α)) :
    Except Err W :=
  sumDims (fun d => if d = 0 then p.onChild nl (fun c n => c.strIn n none)
    else p.dimStrength nl d .inn) (p.selectDimensions nl dims) 0

/-- `_get_strength_out` (net.py 1217-1226). -/
def strOut [IntNames α] [AddCommGroup W] (p : MPlex α W) (nl : List α) (dims : Option (Dims α)) :
    Except Err W :=
  sumDims (fun d => if d = 0 then p.onChild nl (fun c n => c.strOut n none)
    else p.dimStrength nl d .out) (p.selectDimensions nl dims) 0

/-- `_get_strength_in` (net.py 370-374), inherited. -/
def strIn [IntNames α] [AddCommGroup W] (p : MPlex α W) (nl : List α) (dims : Option (Dims α)) : Except Err W :=
  if p.directed then p.strInDir nl dims else p.strOut nl dims

/-- `_get_strength` (net.py 365-369), inherited. -/
def str [IntNames α] [AddCommGroup W] (p : MPlex α W) (nl : List α) (dims : Option (Dims α)) : Except Err W :=
  if p.directed then p.strTotalDir nl dims else p.strOut nl dims

/-- neighbours within the layer: `(n[0],)+node[1:]` for the neighbours `n` in the intra-layer network. -/
def intra (p : MPlex α W) (nl : List α) (f : MNet α W → List α → List (List α)) :
    Except Err (List (List α)) :=
  p.onChild nl fun c n => .ok ((f c n).map fun m => m.take 1 ++ nl.drop 1)

/-- `_iter_neighbors_total_dir` (net.py 1230-1239). -/
def iterTotalDir [IntNames α] (p : MPlex α W) (nl : List α) (dims : Option (Dims α)) :
    Except Err (List (List α)) :=
  View.collect (fun d => if d = 0 then p.intra nl (fun c n => c.iterTotal n none) else p.iterDim nl d)
    (p.selectDimensions nl dims)

/-- `_iter_neighbors_in_dir` (net.py 1241-1250). -/
def iterInDir [IntNames α] (p : MPlex α W) (nl : List α) (dims : Option (Dims α)) :
    Except Err (List (List α)) :=
  View.collect (fun d => if d = 0 then p.intra nl (fun c n => c.iterIn n none) else p.iterDim nl d)
    (p.selectDimensions nl dims)

/-- `_iter_neighbors_out` (net.py 1252-1261). -/
def iterOut [IntNames α] (p : MPlex α W) (nl : List α) (dims : Option (Dims α)) :
    Except Err (List (List α)) :=
  View.collect (fun d => if d = 0 then p.intra nl (fun c n => c.iterOut n none) else p.iterDim nl d)
    (p.selectDimensions nl dims)

/-- `iter_nodes` (net.py 1272-1282). -/
def iterNodes (p : MPlex α W) (layer : Option (LKey α)) : Except Err (List α) :=
  match layer with
  | none => .ok (p.slices.headD [])
  | some L =>
    if p.fic then .ok (p.slices.headD [])
    else
      match p.child? L with
      | none => .error .keyError
      | some c => .ok (c.slices.headD [])

/-- `iter_layers` (net.py 592-610), inherited. -/
def iterLayers (p : MPlex α W) : List (LKey α) :=
  if 1 < p.aspects then (product (p.slices.drop 1)).map .tup
  else if p.aspects = 1 then (p.slices.getD 1 []).map .el
  else []

/-- `iter_node_layers` (net.py 575-589), inherited. -/
def nodeLayers (p : MPlex α W) : Except Err (List (List α)) :=
  if p.fic then .ok (product p.slices)
  else View.collect (fun L =>
    match p.iterNodes (some L) with
    | .error e => .error e
    | .ok ns => .ok (ns.map fun n => n :: L.toList)) p.iterLayers

/-- The dispatch table of a `MultiplexNetwork`: `_get_degree_in`, `_iter_neighbors_in`, ... are
inherited and choose between the overridden methods (net.py 308-324, 395-409). -/
def view [IntNames α] (p : MPlex α W) : View α W where
  aspects := p.aspects
  directed := p.directed
  noEdge := p.noEdge
  fic := p.fic
  slices := p.slices
  getLink := p.getLink
  iterOut := p.iterOut
  iterIn := fun n d => if p.directed then p.iterInDir n d else p.iterOut n d
  iterTotal := fun n d => if p.directed then p.iterTotalDir n d else p.iterOut n d
  degOut := p.degOut
  degIn := fun n d => if p.directed then p.degInDir n d else p.degOut n d
  deg := fun n d => if p.directed then p.degTotalDir n d else p.degOut n d
  nodeLayers := p.nodeLayers

/-! ### Equality -/

/-- equality of two coupling tuples; networks are compared with their own `==`. -/
def couplingEq : Coupling α W → Coupling α W → Except Err Bool
  | .categorical a, .categorical b => .ok (decide (a = b))
  | .ordinal a, .ordinal b => .ok (decide (a = b))
  | .uncoupled a, .uncoupled b => .ok (decide (a = b))
  | .net a, .net b => a.eq b
  | _, _ => .ok false

/-- equality of the lists of couplings -/
def couplingsEq : List (Coupling α W) → List (Coupling α W) → Except Err Bool
  | [], [] => .ok true
  | a :: as, b :: bs =>
    match couplingEq a b with
    | .error e => .error e
    | .ok false => .ok false
    | .ok true => couplingsEq as bs
  | _, _ => .ok false

/-- the loop of `__eq__` over the layers (net.py 1266-1268). -/
def eqLayers (p q : MPlex α W) : List (LKey α) → Except Err Bool
  | [] => .ok true
  | L :: Ls =>
    match p.child? L, q.child? L with
    | some c, some d =>
      match c.eq d with
      | .error e => .error e
      | .ok false => .ok false
      | .ok true => eqLayers p q Ls
    | _, _ => .error .keyError

/-- `__eq__` of two multiplex networks (net.py 1263-1270). -/
def eq (p q : MPlex α W) : Except Err Bool :=
  if p.directed = q.directed ∧ p.aspects = q.aspects ∧ p.fic = q.fic ∧ p.noEdge = q.noEdge ∧
      slicesEq p.slices q.slices = true then
    match couplingsEq p.couplings q.couplings with
    | .error e => .error e
    | .ok false => .ok false
    | .ok true => eqLayers p q p.iterLayers
  else .ok false

/-! ### Histories -/

end MPlex

/-- A mutating public call on a multiplex network: the calls of `Op` on the network itself, and the
calls on one of its intra-layer networks `net.A[L]`. -/
inductive POp (α W : Type)
  | addNode (node : α) (layer : Option (LKey α))
  | addLayer (layer : α) (aspect : Nat)
  | setItem (item : List α) (value : W)
  | intraAddNode (L : LKey α) (node : α)
  | intraSet (L : LKey α) (i j : α) (value : W)
  deriving DecidableEq, Repr

namespace MPlex

variable {α W : Type} [DecidableEq α] [DecidableEq W]

/-- Execute one call. -/
def step [Zero W] (p : MPlex α W) : POp α W → Outcome (MPlex α W)
  | .addNode n l => p.addNode n l
  | .addLayer l a => p.addLayer l a
  | .setItem i v => p.setItem i v
  | .intraAddNode L n => p.childAddNode L n
  | .intraSet L i j v => p.childSetItem L i j v

/-- Execute a history; exceptions are caught and the history goes on. -/
def run [Zero W] (p : MPlex α W) (ops : List (POp α W)) : MPlex α W :=
  ops.foldl (fun p op => (p.step op).1) p

end MPlex

end Pymnet
